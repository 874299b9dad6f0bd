import Verif.Lemmas.Dims

/-! # Lemmas about movedim -/

namespace Verif.Shape

/-- A sequence of assignments `l[k] = v`. -/
def setAll (l : List Int) (P : List (Nat × Int)) : List Int := P.foldl (fun o p => o.set p.1 p.2) l

theorem setAll_append (l : List Int) (P Q : List (Nat × Int)) :
    setAll l (P ++ Q) = setAll (setAll l P) Q := by
  unfold setAll; rw [List.foldl_append]

theorem length_setAll (l : List Int) (P : List (Nat × Int)) : (setAll l P).length = l.length := by
  induction P generalizing l with
  | nil => rfl
  | cons p P ih =>
    show (setAll (l.set p.1 p.2) P).length = _
    rw [ih, List.length_set]

theorem setAll_not_mem {l : List Int} {P : List (Nat × Int)} {k : Nat} (h : k ∉ P.map Prod.fst) :
    (setAll l P)[k]? = l[k]? := by
  induction P generalizing l with
  | nil => rfl
  | cons p P ih =>
    simp only [List.map_cons, List.mem_cons, not_or] at h
    show (setAll (l.set p.1 p.2) P)[k]? = _
    rw [ih h.2, List.getElem?_set_ne (fun e => h.1 e.symm)]

theorem setAll_mem {l : List Int} {P : List (Nat × Int)} {k : Nat} {v : Int} (h : (k, v) ∈ P)
    (hn : (P.map Prod.fst).Nodup) (hk : k < l.length) : (setAll l P)[k]? = some v := by
  induction P generalizing l with
  | nil => cases h
  | cons p P ih =>
    simp only [List.map_cons, List.nodup_cons] at hn
    show (setAll (l.set p.1 p.2) P)[k]? = _
    rcases List.mem_cons.mp h with h | h
    · subst h
      rw [setAll_not_mem hn.1, List.getElem?_set_self hk]
    · exact ih h hn.2 (by simpa using hk)

theorem setAll_const {l : List Int} {P : List (Nat × Int)} {k : Nat} {v : Int}
    (hv : ∀ p ∈ P, p.2 = v) (h : k ∈ P.map Prod.fst) (hk : k < l.length) :
    (setAll l P)[k]? = some v := by
  induction P generalizing l with
  | nil => cases h
  | cons p P ih =>
    show (setAll (l.set p.1 p.2) P)[k]? = _
    by_cases hm : k ∈ P.map Prod.fst
    · exact ih (fun q hq => hv q (List.mem_cons_of_mem _ hq)) hm (by simpa using hk)
    · rw [setAll_not_mem hm]
      have : k = p.1 := by
        rcases List.mem_cons.mp h with h | h
        · exact h
        · exact absurd h hm
      rw [this, List.getElem?_set_self (this ▸ hk), hv p List.mem_cons_self]

/-- Dimensions not listed, in order. -/
def restDims (n : Nat) (src : List Nat) : List Nat := (List.range n).filter (· ∉ src)

theorem marked (n : Nat) (src : List Nat) (hlt : ∀ x ∈ src, x < n) :
    (setAll ((List.range n).map Int.ofNat) (src.map (fun s => (s, -1)))).filter (· ≠ -1) =
      (restDims n src).map Int.ofNat := by
  have e : setAll ((List.range n).map Int.ofNat) (src.map (fun s => (s, -1))) =
      (List.range n).map (fun i => if i ∈ src then (-1 : Int) else Int.ofNat i) := by
    apply List.ext_getElem?
    intro k
    by_cases hk : k < n
    · by_cases hm : k ∈ src
      · rw [setAll_const (v := -1) (by simp) (by simpa using hm) (by simpa using hk)]
        simp [hk, hm]
      · rw [setAll_not_mem (by simpa using hm)]
        simp [hk, hm]
    · rw [List.getElem?_eq_none (by rw [length_setAll]; simpa using Nat.le_of_not_lt hk),
        List.getElem?_eq_none (by simpa using Nat.le_of_not_lt hk)]
  rw [e, List.filter_map]
  unfold restDims
  have e2 : (List.range n).filter ((fun x : Int => decide (x ≠ -1)) ∘
      (fun i => if i ∈ src then (-1 : Int) else Int.ofNat i)) = (List.range n).filter (· ∉ src) := by
    apply List.filter_congr
    intro i _
    simp only [Function.comp]
    by_cases h : i ∈ src
    · simp [h]
    · simp [h]
  rw [e2]
  apply List.map_congr_left
  intro i hi
  have := (List.mem_filter.mp hi).2
  simp only [decide_eq_true_eq] at this
  simp [this]

theorem rest_perm (n : Nat) (src : List Nat) (hlt : ∀ x ∈ src, x < n) (hn : src.Nodup) :
    (src ++ restDims n src).Perm (List.range n) := by
  have h1 : ((List.range n).filter (· ∈ src)).Perm src := by
    apply (List.perm_ext_iff_of_nodup (List.nodup_range.filter _) hn).mpr
    intro x
    simp only [List.mem_filter, List.mem_range, decide_eq_true_eq]
    exact ⟨And.right, fun h => ⟨hlt x h, h⟩⟩
  have h2 := List.filter_append_perm (fun x => decide (x ∈ src)) (List.range n)
  refine List.Perm.trans ?_ h2
  refine (h1.symm.append_right _).trans (List.Perm.of_eq ?_)
  congr 1
  unfold restDims
  apply List.filter_congr
  intro i _
  simp

theorem moveRest_fold (A B : List Nat) (hl : A.length = B.length) (o : List Int)
    (hB : ∀ b ∈ B, b < o.length) (m : Nat) (hm : m ≤ B.length) :
    pyFold (moveRest (A.map Int.ofNat) (B.map Int.ofNat)) o (List.range m) =
      .ok (setAll o (List.zip (B.take m) ((A.take m).map Int.ofNat))) := by
  induction m with
  | zero => rfl
  | succ m ih =>
    rw [List.range_succ, pyFold_append, ih (by omega)]
    simp only [pyFold, moveRest]
    rw [pyGet_nonneg _ m (by simp; omega), pyGet_nonneg _ m (by simp; omega)]
    simp only [List.getElem_map]
    have hb : B[m]'(by omega) < o.length := hB _ (List.getElem_mem _)
    have e : pySet (setAll o (List.zip (B.take m) ((A.take m).map Int.ofNat)))
        (Int.ofNat (B[m]'(by omega))) (Int.ofNat (A[m]'(by omega))) =
        .ok ((setAll o (List.zip (B.take m) ((A.take m).map Int.ofNat))).set (B[m]'(by omega))
          (Int.ofNat (A[m]'(by omega)))) := by
      unfold pySet
      have h0 : ¬ (Int.ofNat (B[m]'(by omega)) < 0) := by simp
      simp only [h0, if_false]
      rw [if_pos (by rw [length_setAll]; exact hb)]
      rfl
    rw [e]
    simp only []
    rw [List.take_succ_eq_append_getElem (by omega), List.take_succ_eq_append_getElem (by omega),
      List.map_append, List.zip_append (by simp; omega), setAll_append]
    rfl

theorem movePairs {n : Nat} {source destination : List Int} {src dst : List Nat}
    (hs : IsDims n source src) (hd : IsDims n destination dst) (hl : src.length = dst.length) :
    pyMap (movePair n source destination) (List.range source.length) =
      .ok ((List.zip src dst).map (fun p => ((p.1 : Int), (p.2 : Int)))) := by
  have h1 := hs.1
  have h2 := hd.1
  rw [pyMap_ok_iff]
  refine ⟨by simp; omega, fun i ha hb => ?_⟩
  simp only [List.length_range] at ha
  simp only [List.getElem_range, List.getElem_map, List.getElem_zip]
  unfold movePair
  rw [pyGet_nonneg _ _ ha]
  simp only []
  rw [maybeWrapDim_iff.mpr ⟨_, rfl, hs.2 i ha (by omega)⟩]
  simp only []
  rw [pyGet_nonneg _ _ (by omega)]
  simp only []
  rw [maybeWrapDim_iff.mpr ⟨_, rfl, hd.2 i (by omega) (by omega)⟩]

theorem IsDims.lt {n : Nat} {dims : List Int} {ds : List Nat} (h : IsDims n dims ds) (hn : 0 < n) :
    ∀ x ∈ ds, x < n := by
  intro x hx
  obtain ⟨i, hi, rfl⟩ := List.mem_iff_getElem.mp hx
  exact (h.2 i (by have := h.1; omega) hi).lt hn

theorem map_getElem?_range {α : Type} (q : List α) :
    (List.range q.length).map (q[·]?) = q.map some := by
  apply List.ext_getElem (by simp)
  intro i h1 h2
  simp at h1
  simp [h1]

theorem map_some_perm {α : Type} {a b : List α} (h : (a.map some).Perm (b.map some)) : a.Perm b := by
  have := h.filterMap id
  simpa [List.filterMap_map] using this

theorem exists_picks {self : List Int} {q : List Nat} (h : ∀ x ∈ q, x < self.length) :
    ∃ c, Picks self q c := by
  refine ⟨q.map (fun d => (self[d]?).getD 0), ?_⟩
  unfold Picks
  rw [List.map_map]
  apply List.map_congr_left
  intro d hd
  simp [h d hd]

theorem movedim_ok {self source destination : List Int} {src dst : List Nat}
    (hr : 1 < self.length) (hs : IsDims self.length source src) (hd : IsDims self.length destination dst)
    (hl : src.length = dst.length) (hsn : src.Nodup) (hdn : dst.Nodup) :
    ∃ c, movedim self source destination = .ok c ∧ IsMoved self src dst c := by
  have hslt := hs.lt (by omega)
  have hdlt := hd.lt (by omega)
  -- keys and values of all assignments to `order`
  let n := self.length
  let sd := restDims n src
  let dd := restDims n dst
  have hV : (src ++ sd).Perm (List.range n) := rest_perm n src hslt hsn
  have hK : (dst ++ dd).Perm (List.range n) := rest_perm n dst hdlt hdn
  have hVl := hV.length_eq
  have hKl := hK.length_eq
  simp only [List.length_append, List.length_range] at hVl hKl
  have hsl : source.length = src.length := hs.1.symm
  have hddlt : ∀ x ∈ dd, x < n := fun x hx => List.mem_range.mp (List.mem_filter.mp hx).1
  let P := List.zip dst (src.map Int.ofNat) ++ List.zip dd (sd.map Int.ofNat)
  let Q := setAll (List.replicate n (-1)) P
  have hPk : P.map Prod.fst = dst ++ dd := by
    simp only [P, List.map_append]
    rw [List.map_fst_zip (by simp; omega), List.map_fst_zip (by simp; omega)]
  have hQl : Q.length = n := by simp [Q, length_setAll]
  have hPn : (P.map Prod.fst).Nodup := by rw [hPk]; exact hK.nodup_iff.mpr List.nodup_range
  have hQ1 : ∀ i (h : i < src.length) (h' : i < dst.length), Q[dst[i]]? = some (src[i] : Int) := by
    intro i h h'
    apply setAll_mem _ hPn (by simpa using hdlt _ (List.getElem_mem h'))
    apply List.mem_append_left
    apply List.mem_iff_getElem.mpr
    exact ⟨i, by simp; omega, by simp⟩
  have hQ2 : ∀ i (h : i < sd.length) (h' : i < dd.length), Q[dd[i]]? = some (sd[i] : Int) := by
    intro i h h'
    apply setAll_mem _ hPn (by simpa using hddlt _ (List.getElem_mem h'))
    apply List.mem_append_right
    apply List.mem_iff_getElem.mpr
    exact ⟨i, by simp; omega, by simp⟩
  let q : List Nat := Q.map Int.toNat
  have hq1 : ∀ i (h : i < src.length) (h' : i < dst.length), q[dst[i]]? = some src[i] := by
    intro i h h'
    simp only [q, List.getElem?_map]
    rw [hQ1 i h h']; rfl
  have hq2 : ∀ i (h : i < sd.length) (h' : i < dd.length), q[dd[i]]? = some sd[i] := by
    intro i h h'
    simp only [q, List.getElem?_map]
    rw [hQ2 i h h']; rfl
  have hql : q.length = n := by simp [q, hQl]
  have hcases : ∀ i, i < n → (∃ j, ∃ (h : j < dst.length), dst[j] = i) ∨
      (∃ j, ∃ (h : j < dd.length), dd[j] = i) := by
    intro i hi
    have : i ∈ dst ++ dd := hK.mem_iff.mpr (List.mem_range.mpr hi)
    rcases List.mem_append.mp this with h | h
    · left; obtain ⟨j, hj, e⟩ := List.mem_iff_getElem.mp h; exact ⟨j, hj, e⟩
    · right; obtain ⟨j, hj, e⟩ := List.mem_iff_getElem.mp h; exact ⟨j, hj, e⟩
  have hQq : Q = q.map Int.ofNat := by
    apply List.ext_getElem? 
    intro i
    by_cases hi : i < n
    · rcases hcases i hi with ⟨j, hj, rfl⟩ | ⟨j, hj, rfl⟩
      · rw [hQ1 j (by omega) hj, List.getElem?_map, hq1 j (by omega) hj]; rfl
      · rw [hQ2 j (by omega) hj, List.getElem?_map, hq2 j (by omega) hj]; rfl
    · rw [List.getElem?_eq_none (by omega), List.getElem?_eq_none (by simp; omega)]
  have hqp : q.Perm (List.range n) := by
    refine List.Perm.trans (map_some_perm ?_) hV
    rw [← map_getElem?_range q, hql]
    refine (hK.symm.map _).trans (List.Perm.of_eq ?_)
    rw [List.map_append, List.map_append]
    congr 1
    · apply List.ext_getElem (by simp; omega)
      intro i ha hb
      simp only [List.getElem_map]
      simp at ha hb
      exact hq1 i (by omega) (by omega)
    · apply List.ext_getElem (by simp; omega)
      intro i ha hb
      simp only [List.getElem_map]
      simp only [List.length_map] at ha hb
      exact hq2 i (by omega) (by omega)
  have hfilter : q.filter (· ∉ src) = sd := by
    let f : Nat → Nat := fun i => (q[i]?).getD 0
    have hqf : q = (List.range n).map f := by
      apply List.ext_getElem (by simp [hql])
      intro i ha hb
      simp [f, ha]
    have h1 : (List.range n).filter ((fun x => decide (x ∉ src)) ∘ f) = dd := by
      show _ = (List.range n).filter (· ∉ dst)
      apply List.filter_congr
      intro i hi
      have hi := List.mem_range.mp hi
      simp only [Function.comp]
      apply decide_eq_decide.mpr
      rcases hcases i hi with ⟨j, hj, rfl⟩ | ⟨j, hj, rfl⟩
      · have e : f dst[j] = src[j]'(by omega) := by
          simp only [f]; rw [hq1 j (by omega) hj]; rfl
        rw [e]
        simp
      · have e : f dd[j] = sd[j]'(by omega) := by
          simp only [f]; rw [hq2 j (by omega) hj]; rfl
        rw [e]
        have a : dd[j] ∉ dst := by
          have := (List.mem_filter.mp (List.getElem_mem hj : dd[j] ∈ (List.range n).filter (· ∉ dst))).2
          simpa using this
        have hj' : j < sd.length := by omega
        have b : sd[j] ∉ src := by
          have := (List.mem_filter.mp (List.getElem_mem hj' : sd[j] ∈ (List.range n).filter (· ∉ src))).2
          simpa using this
        simp [a, b]
    rw [hqf, List.filter_map, h1]
    apply List.ext_getElem (by simp; omega)
    intro i ha hb
    simp only [List.getElem_map, f]
    simp only [List.length_map] at ha
    rw [hq2 i hb ha]
    rfl
  obtain ⟨c, hc⟩ := exists_picks (self := self) (q := q)
    (fun x hx => List.mem_range.mp (hqp.mem_iff.mp hx))
  refine ⟨c, ?_, q, hqp, hc, hq1, hfilter⟩
  unfold movedim
  rw [if_neg (by omega)]
  simp only [movePairs hs hd hl, List.foldl_map]
  have e1 : (List.zip src dst).foldl (fun (o : List Int) (p : Nat × Nat) => o.set (p.2 : Int).toNat (p.1 : Int))
      (List.replicate self.length (-1)) =
      setAll (List.replicate n (-1)) (List.zip dst (src.map Int.ofNat)) := by
    unfold setAll
    have : List.zip dst (src.map Int.ofNat) = (List.zip src dst).map (fun p => (p.2, (p.1 : Int))) := by
      apply List.ext_getElem (by simp; omega)
      intro i ha hb
      simp
    rw [this, List.foldl_map]
    rfl
  have e2 : (List.zip src dst).foldl (fun (o : List Int) (p : Nat × Nat) => o.set (p.1 : Int).toNat (-1))
      ((List.range self.length).map Int.ofNat) =
      setAll ((List.range n).map Int.ofNat) (src.map (fun s => (s, -1))) := by
    unfold setAll
    have : src.map (fun s => (s, (-1 : Int))) = (List.zip src dst).map (fun p => (p.1, (-1 : Int))) := by
      apply List.ext_getElem (by simp; omega)
      intro i ha hb
      simp
    rw [this, List.foldl_map]
    rfl
  have e3 : (List.zip src dst).foldl (fun (o : List Int) (p : Nat × Nat) => o.set (p.2 : Int).toNat (-1))
      ((List.range self.length).map Int.ofNat) =
      setAll ((List.range n).map Int.ofNat) (dst.map (fun s => (s, -1))) := by
    unfold setAll
    have : dst.map (fun s => (s, (-1 : Int))) = (List.zip src dst).map (fun p => (p.2, (-1 : Int))) := by
      apply List.ext_getElem (by simp; omega)
      intro i ha hb
      simp
    rw [this, List.foldl_map]
    rfl
  rw [e1, e2, e3, marked n src hslt, marked n dst hdlt]
  have e4 : self.length - source.length = dd.length := by omega
  rw [e4, moveRest_fold sd dd (by omega) _ (by
    intro b hb
    rw [length_setAll]
    simpa using hddlt b hb) dd.length (Nat.le_refl _)]
  simp only []
  rw [List.take_of_length_le (Nat.le_refl _), List.take_of_length_le (by omega), ← setAll_append]
  show permute self Q = .ok c
  rw [permute_iff, hQq]
  refine ⟨q, ⟨by simp, fun i h h' => ?_⟩, hqp, hc⟩
  simp only [List.getElem_map]
  exact isDim_self (List.mem_range.mp (hqp.mem_iff.mp (List.getElem_mem h')))

end Verif.Shape
