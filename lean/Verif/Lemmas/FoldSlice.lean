import Verif.Spec.FoldSlice
import Verif.Lemmas.FoldList

namespace Verif.FoldSlice

/-- `i, i + s, …`, `c` of them. -/
def run (i s : Int) : Nat → List Int
  | 0 => []
  | c + 1 => i :: run (i + s) s c

theorem run_length (s : Int) : ∀ (c : Nat) (i : Int), (run i s c).length = c
  | 0, _ => rfl
  | c + 1, i => by rw [run, List.length_cons, run_length s c]

theorem rounds_some {l s : Int} : ∀ (fuel : Nat) (i : Int) (is : List Int), rounds l s fuel i = some is →
    ∃ c : Nat, l = i + c * s ∧ is = run i s c
  | 0, i, is, h => by
    rw [rounds] at h
    split at h
    · cases h
    · injection h with h; subst h; exact ⟨0, by omega, rfl⟩
  | fuel + 1, i, is, h => by
    rw [rounds] at h
    split at h
    · cases hr : rounds l s fuel (i + s) with
      | none => rw [hr] at h; cases h
      | some js =>
        rw [hr] at h
        injection h with h
        subst h
        obtain ⟨c, h1, h2⟩ := rounds_some fuel (i + s) js hr
        refine ⟨c + 1, ?_, by rw [h2, run]⟩
        rw [h1]; push_cast; rw [Int.add_mul]; omega
    · injection h with h; subst h; exact ⟨0, by omega, rfl⟩

theorem rounds_run {l s : Int} (hs : s ≠ 0) : ∀ (c fuel : Nat) (i : Int), c ≤ fuel → l = i + c * s →
    rounds l s fuel i = some (run i s c)
  | 0, 0, i, _, h => by rw [rounds, if_neg (by omega)]; rfl
  | 0, fuel + 1, i, _, h => by rw [rounds, if_neg (by omega)]; rfl
  | c + 1, 0, i, h, _ => absurd h (Nat.not_succ_le_zero _)
  | c + 1, fuel + 1, i, hf, h => by
    have hne : (l - i).natAbs > 0 := by
      have : ((c + 1 : Nat) : Int) * s ≠ 0 := Int.mul_ne_zero (by omega) hs
      omega
    rw [rounds, if_pos hne, rounds_run hs c fuel (i + s) (by omega) (by rw [h]; push_cast; rw [Int.add_mul]; omega)]
    rfl

theorem loopIndices_run {b l s : Int} (hs : s ≠ 0) {c : Nat} (h : adjusted b l s = b + c * s) :
    loopIndices b l s = some (run b s c) := by
  unfold loopIndices
  refine rounds_run hs c _ b ?_ h
  rw [h, show b + (c : Int) * s - b = c * s by omega, Int.natAbs_mul, Int.natAbs_natCast]
  exact Nat.le_mul_of_pos_right _ (Int.natAbs_pos.2 hs)

theorem loopIndices_some {b l s : Int} {is : List Int} (h : loopIndices b l s = some is) :
    ∃ c : Nat, adjusted b l s = b + c * s ∧ is = run b s c := rounds_some _ _ _ h

theorem loopIndices_full (n : Nat) : loopIndices 0 n 1 = some (run 0 1 n) := by
  refine loopIndices_run (by decide) ?_
  simp [adjusted]

/-! ## What is picked -/

theorem run_up {s : Int} (hs : 0 < s) {n : Nat} {e : Int} (hen : e ≤ n) : ∀ (c : Nat) (b : Int), 0 ≤ b → e ≤ b + c * s →
    (∀ k : Nat, k < c → b + k * s < e) → ((List.range n).filter (Fold.from_ b e s)).map Int.ofNat = run b s c
  | 0, b, hb, h1, _ => by
    have : (List.range n).filter (Fold.from_ b e s) = [] := by
      rw [List.filter_eq_nil_iff]
      intro j hj
      simp only [Fold.from_, decide_eq_true_eq]
      omega
    rw [this]; rfl
  | c + 1, b, hb, h1, h2 => by
    have h0 := h2 0 (by omega)
    rw [Fold.filter_from_cons hb (by simpa using h0) hen hs, List.map_cons, run,
      run_up hs hen c (b + s) (by omega) (by push_cast at h1; rw [Int.add_mul] at h1; omega) (fun k hk => by
        have := h2 (k + 1) (by omega)
        push_cast at this; rw [Int.add_mul] at this; omega)]
    rw [show Int.ofNat b.toNat = b from Int.toNat_of_nonneg hb]

/-- Positions at or below `i`, above `e`, at a multiple of `s` from `i`. -/
def down_ (i e s : Int) (j : Nat) : Bool := decide (e < j ∧ (j : Int) ≤ i ∧ s ∣ (i - (j : Int)))

theorem filter_down_cons {i e s : Int} {n : Nat} (hi : i < n) (hi0 : 0 ≤ i) (hie : e < i) (hs : s < 0) :
    (List.range n).filter (down_ i e s) = (List.range n).filter (down_ (i + s) e s) ++ [i.toNat] := by
  obtain ⟨m, rfl⟩ : ∃ m : Nat, i = m := ⟨i.toNat, by omega⟩
  have hm : m < n := by omega
  have hhigh : ∀ x : Int, x ≤ m → (List.range' (m + 1) (n - m - 1)).filter (down_ x e s) = [] := by
    intro x hx
    rw [List.filter_eq_nil_iff]
    intro j hj
    have := (List.mem_range'_1.1 hj).1
    simp only [down_, decide_eq_true_eq]
    omega
  have hlow : (List.range m).filter (down_ m e s) = (List.range m).filter (down_ (m + s) e s) := by
    apply List.filter_congr
    intro j hj
    have hj := List.mem_range.1 hj
    simp only [down_, decide_eq_decide]
    have hd : s ∣ (m + s : Int) - j ↔ s ∣ (m : Int) - j := by
      rw [show (m + s : Int) - j = ((m : Int) - j) + s by omega]
      exact ⟨fun h => by simpa using Int.dvd_sub h (Int.dvd_refl s), fun h => Int.dvd_add h (Int.dvd_refl s)⟩
    rw [hd]
    constructor
    · rintro ⟨h1, _, h3⟩
      have := Int.le_of_dvd (by omega) ((Int.neg_dvd).2 h3)
      exact ⟨h1, by omega, h3⟩
    · rintro ⟨h1, h2, h3⟩
      exact ⟨h1, by omega, h3⟩
  have hself : down_ m e s m = true := by simp [down_, hie]
  have hself' : down_ (m + s) e s m = false := by
    simp only [down_, decide_eq_false_iff_not]
    omega
  rw [Fold.range_split hm, List.filter_append, List.filter_append, List.filter_cons, List.filter_cons, hself, hself',
    hhigh _ (le_refl _), hhigh _ (by omega), hlow]
  simp

theorem run_down {s : Int} (hs : s < 0) {n : Nat} {e : Int} (he : -1 ≤ e) : ∀ (c : Nat) (b : Int), b < n → b + c * s ≤ e →
    (∀ k : Nat, k < c → e < b + k * s) → (((List.range n).filter (down_ b e s)).reverse).map Int.ofNat = run b s c
  | 0, b, hb, h1, _ => by
    have : (List.range n).filter (down_ b e s) = [] := by
      rw [List.filter_eq_nil_iff]
      intro j hj
      simp only [down_, decide_eq_true_eq]
      omega
    rw [this]; rfl
  | c + 1, b, hb, h1, h2 => by
    have h0 := h2 0 (by omega)
    rw [filter_down_cons hb (by simp at h0; omega) (by simpa using h0) hs, List.reverse_append, List.reverse_singleton,
      List.singleton_append, List.map_cons, run,
      run_down hs he c (b + s) (by omega) (by push_cast at h1; rw [Int.add_mul] at h1; omega) (fun k hk => by
        have := h2 (k + 1) (by omega)
        push_cast at this; rw [Int.add_mul] at this; omega)]
    rw [show Int.ofNat b.toNat = b from Int.toNat_of_nonneg (by simp at h0; omega)]

theorem picked_up (n : Nat) (start end_ : Int) {step : Int} (hs : 0 < step) (hl : first n start < limit n end_) :
    picked n (some start) (some end_) step = (List.range n).filter (Fold.from_ (first n start) (limit n end_) step) := by
  rw [picked, if_pos hs]
  apply List.filter_congr
  intro j hj
  have := List.mem_range.1 hj
  have e1 : Shape.position n start = first n start := by
    revert hl; simp only [Shape.position, first, limit]; (repeat' split) <;> omega
  have e2 : Shape.position n end_ = limit n end_ := by
    revert hl; simp only [Shape.position, first, limit]; (repeat' split) <;> omega
  simp only [Shape.selected, Fold.from_, Option.elim, e1, e2]

/-- Nothing is picked if the loop would not run. -/
theorem picked_up_nil (n : Nat) (start end_ : Int) {step : Int} (hs : 0 < step) (hl : ¬first n start < limit n end_) :
    picked n (some start) (some end_) step = [] := by
  rw [picked, if_pos hs, List.filter_eq_nil_iff]
  intro j hj
  have := List.mem_range.1 hj
  intro h
  obtain ⟨h1, h2, _⟩ := of_decide_eq_true h
  simp only [Option.elim] at h1 h2
  apply hl
  revert h1 h2
  simp only [Shape.position, first, limit]; (repeat' split) <;> omega

theorem picked_down (n : Nat) (start end_ : Int) {step : Int} (hs : step < 0) (hb : first n start < n)
    (hl : limit n end_ < first n start) :
    picked n (some start) (some end_) step
      = ((List.range n).filter (down_ (first n start) (limit n end_) step)).reverse := by
  rw [picked, if_neg (by omega)]
  congr 1
  apply List.filter_congr
  intro j hj
  have := List.mem_range.1 hj
  have e1 : Shape.downStart n start = first n start := by
    revert hl hb; simp only [Shape.downStart, first, limit]; (repeat' split) <;> omega
  have e2 : Shape.downEnd n end_ = limit n end_ := by
    revert hl hb; simp only [Shape.downEnd, first, limit]; (repeat' split) <;> omega
  simp only [Shape.selectedDown, down_, Option.getD_some, e1, e2]

theorem picked_lt {n : Nat} {start end_ : Option Int} {step : Int} {i : Nat} (h : i ∈ picked n start end_ step) : i < n := by
  unfold picked at h
  split at h
  · exact List.mem_range.1 (List.mem_filter.1 h).1
  · exact List.mem_range.1 (List.mem_filter.1 (List.mem_reverse.1 h)).1

/-! ## Offsets -/

theorem range_mul (p : Nat) : ∀ s : Nat, List.range (s * p) = (List.range s).flatMap fun i => (List.range p).map (i * p + ·)
  | 0 => by simp
  | s + 1 => by
    rw [Nat.succ_mul, List.range_add, range_mul p s, List.range_succ, List.flatMap_append]
    simp

theorem run_one : ∀ (c : Nat) (i : Int), run i 1 c = (List.range c).map fun k : Nat => i + k
  | 0, _ => rfl
  | c + 1, i => by
    rw [run, run_one c, List.range_succ_eq_map, List.map_cons, List.map_map]
    simp only [Int.natCast_zero, Int.add_zero, List.cons.injEq, true_and]
    refine List.map_congr_left fun k _ => ?_
    simp only [Function.comp_apply]; push_cast; omega

theorem collect_flatMap {f : Int → Option (List Int)} {g : Int → List Int} : ∀ (is : List Int), (∀ i ∈ is, f i = some (g i)) →
    collect f is = some (is.flatMap g)
  | [], _ => rfl
  | i :: is, h => by
    rw [collect, h i (by simp), collect_flatMap is fun j hj => h j (List.mem_cons_of_mem _ hj)]
    simp

theorem collect_none {f : Int → Option (List Int)} : ∀ (is : List Int), is ≠ [] → (∀ i ∈ is, f i = none) → collect f is = none
  | [], h, _ => absurd rfl h
  | i :: is, _, h => by rw [collect, h i (by simp)]

/-- The offsets of the elements from one dimension on. -/
def leaf (ds : List Dim) (offset : Int) : Option (List Int) :=
  match ds with
  | [] => some [offset]
  | d :: ds => offsets (d :: ds) offset

theorem offsets_cons (d : Dim) (ds : List Dim) (offset : Int) (h : ds = [] → d.inputStride = 1) :
    offsets (d :: ds) offset = match loopIndices d.begin d.limit d.stride with
      | none => none
      | some is => collect (fun i => leaf ds (offset + d.inputStride * i)) is := by
  rw [offsets]
  cases loopIndices d.begin d.limit d.stride with
  | none => rfl
  | some is =>
    dsimp only
    congr 1
    funext i
    cases ds with
    | nil => simp [offsets, leaf, h rfl]
    | cons e es =>
      rw [leaf]
      cases offsets (e :: es) (offset + d.inputStride * i) <;> rfl

/-- All of the dimensions. -/
def full (sizes : List Nat) : List Dim := (List.range sizes.length).map fun k =>
  ⟨0, (sizes[k]?.getD 0 : Nat), 1, inputStride sizes k⟩

theorem full_cons (s : Nat) (ss : List Nat) : full (s :: ss) = ⟨0, s, 1, (ss.prod : Nat)⟩ :: full ss := by
  simp only [full, List.length_cons, List.range_succ_eq_map, List.map_cons, List.map_map]
  refine List.cons_eq_cons.2 ⟨by simp [inputStride], List.map_congr_left fun k _ => ?_⟩
  simp [inputStride]

theorem dims_zero (s : Nat) (ss : List Nat) (b l st : Int) :
    dims (s :: ss) 0 b l st = ⟨b, l, st, (ss.prod : Nat)⟩ :: full ss := by
  simp only [dims, full, List.length_cons, List.range_succ_eq_map, List.map_cons, List.map_map]
  refine List.cons_eq_cons.2 ⟨by simp [inputStride], List.map_congr_left fun k _ => ?_⟩
  simp [inputStride]

theorem dims_succ (s : Nat) (ss : List Nat) (d : Nat) (b l st : Int) :
    dims (s :: ss) (d + 1) b l st = ⟨0, s, 1, (ss.prod : Nat)⟩ :: dims ss d b l st := by
  simp only [dims, List.length_cons, List.range_succ_eq_map, List.map_cons, List.map_map]
  refine List.cons_eq_cons.2 ⟨by simp [inputStride], List.map_congr_left fun k _ => ?_⟩
  simp [inputStride]

theorem full_nil {ss : List Nat} (h : full ss = []) : ss = [] := by
  cases ss with
  | nil => rfl
  | cons s ss => rw [full_cons] at h; cases h

theorem dims_ne_nil {ss : List Nat} {d : Nat} (h : d < ss.length) (b l st : Int) : dims ss d b l st ≠ [] := by
  cases ss with
  | nil => exact absurd h (Nat.not_lt_zero _)
  | cons s ss =>
    cases d with
    | zero => rw [dims_zero]; simp
    | succ d => rw [dims_succ]; simp

theorem leaf_full : ∀ (ss : List Nat) (offset : Int),
    leaf (full ss) offset = some ((List.range ss.prod).map fun k : Nat => offset + k)
  | [], offset => by simp [full, leaf]
  | s :: ss, offset => by
    rw [full_cons, leaf, offsets_cons _ _ _ (fun h => by simp [full_nil h]), loopIndices_full]
    dsimp only
    rw [collect_flatMap (g := fun i => (List.range ss.prod).map fun k : Nat => offset + (ss.prod : Nat) * i + k) _
      (fun i _ => leaf_full ss _), List.prod_cons, range_mul, run_one, List.flatMap_map, List.map_flatMap]
    congr 1
    refine List.flatMap_congr fun i _ => ?_
    rw [List.map_map]
    refine List.map_congr_left fun k _ => ?_
    simp only [Function.comp_apply]; push_cast; ring

/-- The offsets of a slice. -/
def sliceOffsets (outer n inner : Nat) (is : List Int) (offset : Int) : List Int :=
  (List.range outer).flatMap fun a => is.flatMap fun i =>
    (List.range inner).map fun k : Nat => offset + ((a * n : Nat) + i) * (inner : Nat) + k

theorem leaf_dims {b l st : Int} {is : List Int} (h : loopIndices b l st = some is) : ∀ (ss : List Nat) (d n : Nat)
    (offset : Int), ss[d]? = some n →
    leaf (dims ss d b l st) offset = some (sliceOffsets (ss.take d).prod n (ss.drop (d + 1)).prod is offset)
  | [], _, _, _, hn => by simp at hn
  | s :: ss, 0, n, offset, hn => by
    have : s = n := by simpa using hn
    subst this
    rw [dims_zero, leaf, offsets_cons _ _ _ (fun h => by simp [full_nil h])]
    simp only [h]
    rw [collect_flatMap (g := fun i => (List.range ss.prod).map fun k : Nat => offset + (ss.prod : Nat) * i + k) _
      (fun i _ => leaf_full ss _)]
    simp only [sliceOffsets, List.take_zero, List.prod_nil, List.range_one, List.flatMap_singleton]
    congr 1
    refine List.flatMap_congr fun i _ => ?_
    simp only [Nat.zero_add, List.drop_succ_cons, List.drop_zero]
    refine List.map_congr_left fun k _ => ?_
    push_cast; ring
  | s :: ss, d + 1, n, offset, hn => by
    have hn' : ss[d]? = some n := by simpa using hn
    have hd : d < ss.length := (List.getElem?_eq_some_iff.1 hn').1
    rw [dims_succ, leaf, offsets_cons _ _ _ (fun h => absurd h (dims_ne_nil hd _ _ _)), loopIndices_full]
    dsimp only
    rw [collect_flatMap (g := fun i => sliceOffsets (ss.take d).prod n (ss.drop (d + 1)).prod is (offset + (ss.prod : Nat) * i)) _
      (fun i _ => leaf_dims h ss d n _ hn')]
    congr 1
    have hp : ss.prod = (ss.take d).prod * (n * (ss.drop (d + 1)).prod) := by
      conv_lhs => rw [← List.take_append_drop d ss, List.prod_append]
      rw [List.drop_eq_getElem_cons hd, List.prod_cons]
      have := (List.getElem?_eq_some_iff.1 hn').2
      rw [this]
    simp only [sliceOffsets, List.take_succ_cons, List.prod_cons, List.drop_succ_cons]
    rw [range_mul, run_one, List.flatMap_map, List.flatMap_assoc]
    refine List.flatMap_congr fun a _ => ?_
    rw [List.flatMap_map]
    refine List.flatMap_congr fun a' _ => List.flatMap_congr fun i _ => List.map_congr_left fun k _ => ?_
    rw [hp]
    push_cast; ring

theorem leaf_dims_none {b l st : Int} (h : loopIndices b l st = none) : ∀ (ss : List Nat) (d n : Nat) (offset : Int),
    ss[d]? = some n → (ss.take d).prod ≠ 0 → leaf (dims ss d b l st) offset = none
  | [], _, _, _, hn, _ => by simp at hn
  | s :: ss, 0, n, offset, hn, _ => by
    rw [dims_zero, leaf, offsets]
    simp only [h]
  | s :: ss, d + 1, n, offset, hn, hp => by
    have hn' : ss[d]? = some n := by simpa using hn
    have hd : d < ss.length := (List.getElem?_eq_some_iff.1 hn').1
    rw [List.take_succ_cons, List.prod_cons] at hp
    have hs : s ≠ 0 := fun e => hp (by rw [e, Nat.zero_mul])
    rw [dims_succ, leaf, offsets_cons _ _ _ (fun h => absurd h (dims_ne_nil hd _ _ _)), loopIndices_full]
    dsimp only
    refine collect_none _ ?_ (fun i _ => leaf_dims_none h ss d n _ hn' fun e => hp (by rw [e, Nat.mul_zero]))
    intro e
    have := run_length 1 s 0
    rw [e] at this
    exact hs this.symm

/-! ## Reading -/

variable {E : Type}

theorem readAll_some {es : List E} : ∀ (offs : List Int) (vs : List E), readAll es offs = some vs →
    (∀ o ∈ offs, 0 ≤ o ∧ o < es.length) ∧ vs.map some = offs.map fun o => es[o.toNat]?
  | [], vs, h => by simp only [readAll, Option.some.injEq] at h; subst h; simp
  | o :: offs, vs, h => by
    rw [readAll] at h
    split at h
    · cases h
    · rename_i ho
      cases he : es[o.toNat]? with
      | none => rw [he] at h; cases h
      | some e =>
        rw [he] at h
        dsimp only at h
        cases hr : readAll es offs with
        | none => rw [hr] at h; cases h
        | some r =>
          rw [hr] at h
          injection h with h
          subst h
          obtain ⟨h1, h2⟩ := readAll_some offs r hr
          refine ⟨fun x hx => ?_, by simp [h2, he]⟩
          rcases List.mem_cons.1 hx with rfl | hx
          · have := (List.getElem?_eq_some_iff.1 he).1
            omega
          · exact h1 x hx

theorem readAll_ne_none {es : List E} : ∀ (offs : List Int), (∀ o ∈ offs, 0 ≤ o ∧ o < es.length) → readAll es offs ≠ none
  | [], _ => by simp [readAll]
  | o :: offs, h => by
    obtain ⟨h0, h1⟩ := h o (by simp)
    rw [readAll, if_neg (by omega), List.getElem?_eq_getElem (by omega)]
    dsimp only
    cases hr : readAll es offs with
    | none => exact absurd hr (readAll_ne_none offs fun x hx => h x (List.mem_cons_of_mem _ hx))
    | some r => simp

theorem take_drop_some (data : List E) (k m : Nat) (h : k + m ≤ data.length) :
    ((data.drop k).take m).map some = (List.range m).map fun j => data[k + j]? := by
  apply List.ext_getElem?
  intro j
  by_cases hj : j < m
  · rw [List.getElem?_map, List.getElem?_map, List.getElem?_take_of_lt hj, List.getElem?_drop, List.getElem?_range hj,
      Option.map_some, List.getElem?_eq_getElem (by omega)]
    rfl
  · rw [List.getElem?_eq_none (by simp; omega), List.getElem?_eq_none (by simp; omega)]

theorem keepBlocks_some (data : List E) (outer n inner : Nat) (is : List Nat) (hi : ∀ i ∈ is, i < n)
    (hlen : data.length = outer * (n * inner)) :
    (keepBlocks data outer n inner is).map some
      = (sliceOffsets outer n inner (is.map Int.ofNat) 0).map fun o => data[o.toNat]? := by
  rw [keepBlocks, sliceOffsets, List.map_flatMap, List.map_flatMap]
  refine List.flatMap_congr fun a ha => ?_
  rw [List.map_flatMap, List.flatMap_map, List.map_flatMap]
  refine List.flatMap_congr fun i hm => ?_
  have ha := List.mem_range.1 ha
  have hb : (a * n + i) * inner + inner ≤ data.length := by
    rw [hlen, ← Nat.mul_assoc, ← Nat.succ_mul]
    refine Nat.mul_le_mul_right _ ?_
    have h1 : (a + 1) * n ≤ outer * n := Nat.mul_le_mul_right _ ha
    rw [Nat.add_mul, Nat.one_mul] at h1
    have := hi i hm
    omega
  rw [take_drop_some _ _ _ hb, List.map_map]
  refine List.map_congr_left fun k _ => ?_
  simp only [Function.comp_apply]
  congr 1
  rw [show (0 : Int) + (((a * n : Nat) : Int) + Int.ofNat i) * (inner : Nat) + (k : Nat)
    = (((a * n + i) * inner + k : Nat) : Int) by push_cast; simp, Int.toNat_natCast]

theorem sliceOffsets_length (outer n inner : Nat) (is : List Int) (o : Int) :
    (sliceOffsets outer n inner is o).length = outer * (is.length * inner) := by
  simp [sliceOffsets, List.length_flatMap]

theorem map_some_inj {a b : List E} (h : a.map some = b.map some) : a = b :=
  List.map_injective_iff.2 (Option.some_injective E) h

/-! ## The folders -/

theorem known_eq : ∀ {os : List (Option Nat)} {out ns : List Nat}, known os = some out →
    List.Forall₂ (fun s n => s = none ∨ s = some n) os ns → ns = out
  | [], out, _, h, .nil => by injection h
  | none :: _, out, _, h, _ => by cases h
  | some n :: os, out, _, h, .cons (b := m) (l₂ := ms) h1 h2 => by
    rw [known] at h
    cases hk : known os with
    | none => rw [hk] at h; cases h
    | some ks =>
      rw [hk] at h
      injection h with h
      subst h
      rw [known_eq hk h2]
      rcases h1 with h1 | h1
      · cases h1
      · injection h1 with h1; rw [h1]

theorem hasTy_known {x : Tensor E} {t : Ty} {ss : List (Option Nat)} {ns : List Nat} (h : HasTy x t) (hs : t.sizes = some ss)
    (hk : known ss = some ns) : x.sizes = ns := known_eq hk (h.2 ss hs)

theorem prod_split {ss : List Nat} {d n : Nat} (h : ss[d]? = some n) :
    ss.prod = (ss.take d).prod * (n * (ss.drop (d + 1)).prod) := by
  have hd : d < ss.length := (List.getElem?_eq_some_iff.1 h).1
  conv_lhs => rw [← List.take_append_drop d ss, List.prod_append]
  rw [List.drop_eq_getElem_cons hd, List.prod_cons, (List.getElem?_eq_some_iff.1 h).2]

theorem prod_set {ss : List Nat} {d n p : Nat} (h : ss[d]? = some n) :
    (ss.set d p).prod = (ss.take d).prod * (p * (ss.drop (d + 1)).prod) := by
  have hd : d < ss.length := (List.getElem?_eq_some_iff.1 h).1
  rw [prod_split (d := d) (n := p) (by simp [hd]), List.take_set_of_le (le_refl d)]
  rw [List.drop_set_of_lt (by omega)]

theorem isDim_norm {r : Nat} {dim : Int} {d : Nat} (h : Shape.IsDim r dim d) (hd : d < r) :
    (if dim < 0 then dim + r else dim) = d := by
  obtain ⟨_, h | h⟩ := h
  · rw [if_neg (by omega)]; exact h
  · rw [if_pos (by omega)]; omega

theorem isDim_unique {r : Nat} {dim : Int} {d e : Nat} (h : Shape.IsDim r dim d) (h' : Shape.IsDim r dim e) (hd : d < r) (he : e < r) :
    d = e := by
  have := isDim_norm h hd
  rw [isDim_norm h' he] at this
  omega

theorem adjusted_up {b l s : Int} (hs : 0 < s) (hl : b < l) : adjusted b l s = l + (l - b) % s := by
  simp only [adjusted, if_pos (Or.inl hs), Int.tmod_eq_emod_of_nonneg (show 0 ≤ l - b by omega)]

theorem adjusted_down {b l s : Int} (hs : s < 0) (hl : l < b) :
    adjusted b l s = if (b - l) % s = 0 then l else l - (b - l) % s - s := by
  have h1 : (l - b).tmod s = -((b - l) % s) := by
    rw [show l - b = -(b - l) by omega, Int.neg_tmod, Int.tmod_eq_emod_of_nonneg (by omega)]
  simp only [adjusted, h1]
  by_cases h0 : (b - l) % s = 0
  · rw [if_pos (Or.inr (by omega)), if_pos h0]; omega
  · rw [if_neg (by omega), if_neg h0]; omega

/-- The number of elements of a walk upwards. -/
theorem up_count {b l s : Int} (hs : 0 < s) (hl : b < l) {c : Nat} (h : adjusted b l s = b + c * s) :
    l ≤ b + c * s ∧ ∀ k : Nat, k < c → b + k * s < l := by
  rw [adjusted_up hs hl] at h
  have h1 := Int.emod_nonneg (l - b) (show s ≠ 0 by omega)
  have h2 := Int.emod_lt_of_pos (l - b) hs
  refine ⟨by omega, fun k hk => ?_⟩
  have h3 : ((k : Int) + 1) * s ≤ c * s := Int.mul_le_mul_of_nonneg_right (by omega) (by omega)
  rw [Int.add_mul] at h3
  omega

/-- The number of elements of a walk downwards: right or too small. -/
theorem down_count {b l s : Int} (hs : s < 0) (hl : l < b) {c : Nat} (h : adjusted b l s = b + c * s) :
    (∀ k : Nat, k < c → l < b + k * s) ∧ (b + c * s ≤ l ∨ l < b + c * s) := by
  refine ⟨fun k hk => ?_, by omega⟩
  rw [adjusted_down hs hl] at h
  have h1 := Int.emod_nonneg (b - l) (show s ≠ 0 by omega)
  have h2 := Int.emod_lt_of_neg (b - l) hs
  have h3 : ((k : Int) + 1) * (-s) ≤ c * (-s) := Int.mul_le_mul_of_nonneg_right (by omega) (by omega)
  rw [Int.mul_neg, Int.mul_neg, Int.add_mul] at h3
  split at h <;> omega

theorem exists_down {b l s : Int} (hs : s < 0) (hl : l < b) :
    ∃ c : Nat, b + c * s ≤ l ∧ ∀ k : Nat, k < c → l < b + k * s := by
  refine ⟨((b - l + (-s) - 1) / (-s)).toNat, ?_⟩
  have hq : 0 ≤ (b - l + (-s) - 1) / (-s) := Int.ediv_nonneg (by omega) (by omega)
  have h1 := Int.mul_ediv_add_emod (b - l + (-s) - 1) (-s)
  have h2 := Int.emod_nonneg (b - l + (-s) - 1) (show -s ≠ 0 by omega)
  have h3 := Int.emod_lt_of_pos (b - l + (-s) - 1) (show 0 < -s by omega)
  generalize hQ : (b - l + (-s) - 1) / (-s) = Q at *
  have e : ((Q.toNat : Nat) : Int) = Q := Int.toNat_of_nonneg hq
  rw [Int.mul_comm] at h1
  refine ⟨?_, fun k hk => ?_⟩
  · rw [e]; rw [Int.mul_neg] at h1; omega
  · have h4 : ((k : Int) + 1) * (-s) ≤ Q * (-s) := Int.mul_le_mul_of_nonneg_right (by omega) (by omega)
    rw [Int.add_mul, Int.mul_neg] at h4
    omega

theorem picked_zero_up {n : Nat} {start end_ : Int} {step : Int} (hs : 0 < step)
    (h : (picked n (some start) (some end_) step).length ≠ 0) : first n start < limit n end_ := by
  by_contra hc
  exact h (by rw [picked_up_nil n start end_ hs hc]; rfl)

theorem loop_up {n : Nat} {start end_ step : Int} (hs : 0 < step) (hl : first n start < limit n end_) {is : List Int}
    (h : loopIndices (first n start) (limit n end_) step = some is) :
    is = (picked n (some start) (some end_) step).map Int.ofNat := by
  obtain ⟨c, hc, rfl⟩ := loopIndices_some h
  obtain ⟨h1, h2⟩ := up_count hs hl hc
  rw [picked_up n start end_ hs hl]
  exact (run_up hs (by simp only [limit]; omega) c _ (by simp only [first]; omega) h1 h2).symm

theorem loop_down {n : Nat} {start end_ step : Int} (hs : step < 0) (hb : first n start < n)
    (hl : limit n end_ < first n start) {is : List Int}
    (h : loopIndices (first n start) (limit n end_) step = some is)
    (hlen : is.length = (picked n (some start) (some end_) step).length) :
    is = (picked n (some start) (some end_) step).map Int.ofNat := by
  obtain ⟨c, hc, rfl⟩ := loopIndices_some h
  have hlim : -1 ≤ limit n end_ := by simp only [limit]; (repeat' split) <;> omega
  rw [picked_down n start end_ hs hb hl] at hlen ⊢
  obtain ⟨h1, h2⟩ := down_count hs hl hc
  rcases h2 with h2 | h2
  · exact (run_down hs hlim c _ hb h2 h1).symm
  · obtain ⟨c', h3, h4⟩ := exists_down hs hl
    have h5 := run_down hs hlim c' _ hb h3 h4
    have h6 := congrArg List.length h5
    rw [List.length_map, ← hlen, run_length, run_length] at h6
    subst h6
    omega

theorem offsets_eq_leaf {ds : List Dim} (h : ds ≠ []) (o : Int) : offsets ds o = leaf ds o := by
  cases ds with
  | nil => exact absurd rfl h
  | cons d ds => rfl

theorem foldDense_correct {x y : Tensor E} {dim start end_ step : Int} (hx : x.data.length = x.sizes.prod)
    (hs : IsSlice x dim (some start) (some end_) step y) (hc : y.sizes.prod ≠ 0)
    (hu : foldDense x.sizes y.sizes x.data dim start end_ step ≠ .undef) :
    (foldDense x.sizes y.sizes x.data dim start end_ step).Means x y := by
  obtain ⟨d, n, hdim, hn, hys, hyd⟩ := hs
  have hd : d < x.sizes.length := (List.getElem?_eq_some_iff.1 hn).1
  rw [hys, prod_set hn] at hc
  have ho : (x.sizes.take d).prod ≠ 0 := fun e => hc (by rw [e, Nat.zero_mul])
  have hm : (x.sizes.drop (d + 1)).prod ≠ 0 := fun e => hc (by rw [e, Nat.mul_zero, Nat.mul_zero])
  have hp : (picked n (some start) (some end_) step).length ≠ 0 := fun e => hc (by rw [e, Nat.zero_mul, Nat.mul_zero])
  rw [prod_split hn] at hx
  revert hu
  simp only [foldDense, isDim_norm hdim hd, if_neg (show ¬((d : Int) < 0) by omega), Int.toNat_natCast, hn]
  split
  · rename_i hgo
    rw [offsets_eq_leaf (dims_ne_nil hd _ _ _)]
    cases hl : loopIndices (first n start) (limit n end_) step with
    | none => rw [leaf_dims_none hl _ _ _ _ hn ho]; exact fun h => absurd rfl h
    | some is =>
      rw [leaf_dims hl _ _ _ _ hn]
      dsimp only
      cases hr : readAll x.data (sliceOffsets (x.sizes.take d).prod n (x.sizes.drop (d + 1)).prod is 0) with
      | none => exact fun h => absurd rfl h
      | some vs =>
        intro _
        obtain ⟨hin, hvs⟩ := readAll_some _ _ hr
        dsimp only
        split
        · trivial
        · rename_i hlen
          have hlen : vs.length = y.sizes.prod := Classical.byContradiction hlen
          have hlen' := congrArg List.length hvs
          rw [List.length_map, List.length_map, sliceOffsets_length, hlen, hys, prod_set hn] at hlen'
          have hcount : is.length = (picked n (some start) (some end_) step).length :=
            (Nat.eq_of_mul_eq_mul_right (Nat.pos_of_ne_zero hm)
              (Nat.eq_of_mul_eq_mul_left (Nat.pos_of_ne_zero ho) hlen')).symm
          have his : is = (picked n (some start) (some end_) step).map Int.ofNat := by
            rcases hgo with ⟨h1, h2⟩ | ⟨h1, h2⟩
            · exact loop_up h1 h2 hl
            · refine loop_down h1 ?_ h2 hl hcount
              by_contra hge
              obtain ⟨c, _, hrun⟩ := loopIndices_some hl
              have hmem : first n start ∈ is := by
                cases c with
                | zero => rw [hrun] at hcount; exact absurd hcount.symm hp
                | succ c => rw [hrun, run]; exact List.mem_cons_self
              have hbad := hin (0 + ((((x.sizes.take d).prod - 1) * n : Nat) + first n start)
                  * ((x.sizes.drop (d + 1)).prod : Nat) + (0 : Nat)) (by
                rw [sliceOffsets, List.mem_flatMap]
                refine ⟨(x.sizes.take d).prod - 1, List.mem_range.2 (by omega), List.mem_flatMap.2 ⟨_, hmem, ?_⟩⟩
                exact List.mem_map.2 ⟨0, List.mem_range.2 (by omega), rfl⟩)
              have h3 := hbad.2
              have h4 : (((x.sizes.take d).prod * n : Nat) : Int)
                  ≤ (((x.sizes.take d).prod - 1) * n : Nat) + first n start := by
                obtain ⟨o', ho'⟩ : ∃ o', (x.sizes.take d).prod = o' + 1 := ⟨_, (Nat.succ_pred_eq_of_ne_zero ho).symm⟩
                rw [ho', Nat.add_sub_cancel, Nat.succ_mul]
                omega
              have h5 := Int.mul_le_mul_of_nonneg_right h4 (show (0 : Int) ≤ ((x.sizes.drop (d + 1)).prod : Nat) by omega)
              rw [hx, ← Nat.mul_assoc, Int.natCast_mul (_ * n)] at h3
              omega
          show y.data = vs
          apply map_some_inj
          rw [hyd, hvs, keepBlocks_some _ _ _ _ _ (fun i hi => picked_lt hi) hx, his]
  · exact fun h => absurd rfl h

/-- A positive step, something to pick: whether the folder is defined. -/
theorem foldDense_defined {x y : Tensor E} {dim start end_ step : Int} {d n : Nat} (hx : x.data.length = x.sizes.prod)
    (hdim : Shape.IsDim x.sizes.length dim d) (hn : x.sizes[d]? = some n)
    (hs : IsSlice x dim (some start) (some end_) step y) (hc : y.sizes.prod ≠ 0) (h0 : 0 < step) :
    foldDense x.sizes y.sizes x.data dim start end_ step ≠ .undef
      ↔ step ∣ 2 * (Shape.position n end_ - Shape.position n start) := by
  obtain ⟨d', n', hdim', hn', hys, hyd⟩ := hs
  have hd : d < x.sizes.length := (List.getElem?_eq_some_iff.1 hn).1
  have hd' : d' < x.sizes.length := (List.getElem?_eq_some_iff.1 hn').1
  obtain rfl := isDim_unique hdim hdim' hd hd'
  rw [hn] at hn'
  injection hn' with hn'
  subst hn'
  rw [hys, prod_set hn] at hc
  have ho : (x.sizes.take d).prod ≠ 0 := fun e => hc (by rw [e, Nat.zero_mul])
  have hp : (picked n (some start) (some end_) step).length ≠ 0 := fun e => hc (by rw [e, Nat.zero_mul, Nat.mul_zero])
  have hlt := picked_zero_up h0 hp
  rw [prod_split hn] at hx
  have e1 : Shape.position n start = first n start := by
    revert hlt; simp only [Shape.position, first, limit]; (repeat' split) <;> omega
  have e2 : Shape.position n end_ = limit n end_ := by
    revert hlt; simp only [Shape.position, first, limit]; (repeat' split) <;> omega
  rw [e1, e2]
  have hloop : step ∣ 2 * (limit n end_ - first n start) ↔ loopIndices (first n start) (limit n end_) step ≠ none := by
    have hadj := adjusted_up h0 hlt
    have hem := Int.mul_ediv_add_emod (limit n end_ - first n start) step
    have hnn := Int.emod_nonneg (limit n end_ - first n start) (show step ≠ 0 by omega)
    have hsum : step ∣ 2 * (limit n end_ - first n start)
        ↔ step ∣ (limit n end_ - first n start) + (limit n end_ - first n start) % step := by
      generalize (limit n end_ - first n start) % step = ρ at *
      generalize limit n end_ - first n start = D at *
      have hq := Int.dvd_mul_right step (D / step)
      constructor
      · intro h
        have := Int.dvd_sub h hq
        rwa [show 2 * D - step * (D / step) = D + ρ by omega] at this
      · intro h
        have := Int.dvd_add h hq
        rwa [show D + ρ + step * (D / step) = 2 * D by omega] at this
    rw [hsum]
    constructor
    · rintro ⟨q, hq⟩
      have hq0 : 0 ≤ q := by
        by_contra hneg
        have := Int.mul_neg_of_pos_of_neg h0 (show q < 0 by omega)
        omega
      obtain ⟨c, rfl⟩ : ∃ c : Nat, q = c := ⟨q.toNat, by omega⟩
      rw [loopIndices_run (by omega) (c := c) (by rw [hadj, Int.mul_comm]; omega)]
      exact fun h => nomatch h
    · intro h
      cases hl : loopIndices (first n start) (limit n end_) step with
      | none => exact absurd hl h
      | some is =>
        obtain ⟨c, hcc, _⟩ := loopIndices_some hl
        exact ⟨c, by rw [Int.mul_comm]; omega⟩
  rw [hloop]
  simp only [foldDense, isDim_norm hdim hd, if_neg (show ¬((d : Int) < 0) by omega), Int.toNat_natCast, hn,
    if_pos (show (step > 0 ∧ first n start < limit n end_) ∨ (step < 0 ∧ first n start > limit n end_) from Or.inl ⟨h0, hlt⟩)]
  rw [offsets_eq_leaf (dims_ne_nil hd _ _ _)]
  cases hl : loopIndices (first n start) (limit n end_) step with
  | none =>
    rw [leaf_dims_none hl _ _ _ _ hn ho]
    exact ⟨fun h => absurd rfl h, fun h => absurd rfl h⟩
  | some is =>
    rw [leaf_dims hl _ _ _ _ hn, loop_up h0 hlt hl]
    refine ⟨fun _ => (fun h => nomatch h), fun _ => ?_⟩
    dsimp only
    cases hr : readAll x.data (sliceOffsets (x.sizes.take d).prod n (x.sizes.drop (d + 1)).prod
        ((picked n (some start) (some end_) step).map Int.ofNat) 0) with
    | none =>
      refine absurd hr (readAll_ne_none _ fun o hoo => ?_)
      rw [sliceOffsets, List.mem_flatMap] at hoo
      obtain ⟨a, ha, hoo⟩ := hoo
      obtain ⟨i, hi, hoo⟩ := List.mem_flatMap.1 hoo
      obtain ⟨j, hj, rfl⟩ := List.mem_map.1 hi
      obtain ⟨k, hk, rfl⟩ := List.mem_map.1 hoo
      have ha := List.mem_range.1 ha
      have hk := List.mem_range.1 hk
      have hj := picked_lt hj
      generalize (x.sizes.drop (d + 1)).prod = m at *
      have h1 : (a + 1) * n ≤ (x.sizes.take d).prod * n := Nat.mul_le_mul_right _ ha
      rw [Nat.succ_mul] at h1
      have h2 : (a * n + j + 1) * m ≤ ((x.sizes.take d).prod * n) * m := Nat.mul_le_mul_right _ (by omega)
      rw [Nat.succ_mul, Nat.mul_assoc (x.sizes.take d).prod, ← hx] at h2
      rw [show (0 : Int) + (((a * n : Nat) : Int) + Int.ofNat j) * (m : Nat) + (k : Nat)
        = (((a * n + j) * m + k : Nat) : Int) by push_cast; simp]
      omega
    | some vs =>
      dsimp only
      split <;> exact fun h => nomatch h

theorem keepBlocks_mem {data : List E} {o n m : Nat} {is : List Nat} {e : E} (h : e ∈ keepBlocks data o n m is) : e ∈ data := by
  rw [keepBlocks, List.mem_flatMap] at h
  obtain ⟨a, _, h⟩ := h
  obtain ⟨i, _, h⟩ := List.mem_flatMap.1 h
  exact List.mem_of_mem_drop (List.mem_of_mem_take h)

theorem splat_means {x y : Tensor E} {t : Ty} {e : E} {o n m : Nat} {is : List Nat} (hy : HasTy y t)
    (hx : x = (Const.splat e).tensor x.sizes) (hyd : y.data = keepBlocks x.data o n m is) :
    (Res.splat e).Means x y := by
  show y = ⟨y.sizes, List.replicate y.sizes.prod e⟩
  have : y.data = List.replicate y.sizes.prod e := by
    rw [List.eq_replicate_iff]
    refine ⟨hy.1, fun b hb => ?_⟩
    rw [hyd] at hb
    have := keepBlocks_mem hb
    rw [hx] at this
    exact List.eq_of_mem_replicate this
  rw [← this]

/-- Everything is kept. -/
theorem keepBlocks_all (data : List E) (o n m : Nat) (h : data.length = o * (n * m)) :
    keepBlocks data o n m (List.range n) = data := by
  apply map_some_inj
  rw [keepBlocks_some _ _ _ _ _ (fun i hi => List.mem_range.1 hi) h, sliceOffsets, List.map_flatMap]
  have : data.map some = (List.range (o * (n * m))).map fun j => data[j]? := by
    rw [← h]
    have := take_drop_some data 0 data.length (by omega)
    simpa using this
  rw [this, range_mul, List.map_flatMap]
  refine List.flatMap_congr fun a _ => ?_
  rw [range_mul, List.map_flatMap, List.flatMap_map, List.map_flatMap, List.map_flatMap]
  refine List.flatMap_congr fun i _ => ?_
  rw [List.map_map, List.map_map, List.map_map]
  refine List.map_congr_left fun k _ => ?_
  simp only [Function.comp_apply]
  congr 1
  rw [show (0 : Int) + (((a * n : Nat) : Int) + Int.ofNat i) * (m : Nat) + (k : Nat)
    = ((a * (n * m) + (i * m + k) : Nat) : Int) by push_cast; simp; ring, Int.toNat_natCast]

theorem range_of_filter {n : Nat} {p : Nat → Bool} (h : ((List.range n).filter p).length = n) :
    (List.range n).filter p = List.range n := by
  rw [List.filter_eq_self]
  have := List.length_filter_eq_length_iff.1 (h.trans List.length_range.symm)
  exact this

theorem same_means {x y : Tensor E} {dim : Int} {start end_ : Option Int} (hx : x.data.length = x.sizes.prod)
    (hs : IsSlice x dim start end_ 1 y) (h : y.sizes = x.sizes) : y = x := by
  obtain ⟨d, n, hdim, hn, hys, hyd⟩ := hs
  have hd : d < x.sizes.length := (List.getElem?_eq_some_iff.1 hn).1
  have h1 : (picked n start end_ 1).length = n := by
    have h2 : (x.sizes.set d (picked n start end_ 1).length)[d]? = some n := by rw [← hys, h, hn]
    simpa [hd] using h2
  have h2 : picked n start end_ 1 = List.range n := by
    rw [picked, if_pos (by decide)] at h1 ⊢
    exact range_of_filter h1
  rw [h2, keepBlocks_all _ _ _ _ (by rw [hx, prod_split hn])] at hyd
  cases x; cases y
  dsimp only at h hyd
  rw [h, hyd]

theorem all_picked {n : Nat} (h : (n : Int) ≤ maxInt) : picked n (some 0) (some maxInt) 1 = List.range n := by
  have : (0 : Int) < maxInt := by decide
  rw [picked, if_pos (by decide), List.filter_eq_self]
  intro i hi
  have := List.mem_range.1 hi
  refine decide_eq_true ⟨?_, ?_, Int.one_dvd _⟩ <;> simp only [Option.elim, Shape.position] <;> (repeat' split) <;> omega

theorem mul_eq_one_nat {a b : Nat} (h : a * b = 1) : a = 1 ∧ b = 1 :=
  ⟨Nat.eq_one_of_dvd_one ⟨b, h.symm⟩, Nat.eq_one_of_dvd_one ⟨a, by rw [Nat.mul_comm, h]⟩⟩

/-- The loop goes over what is picked: the folder gives the slice. -/
theorem foldDense_dense {x y : Tensor E} {dim start end_ step : Int} {d n : Nat} (hx : x.data.length = x.sizes.prod)
    (hdim : Shape.IsDim x.sizes.length dim d) (hn : x.sizes[d]? = some n)
    (hys : y.sizes = x.sizes.set d (picked n (some start) (some end_) step).length)
    (hyd : y.data = keepBlocks x.data (x.sizes.take d).prod n (x.sizes.drop (d + 1)).prod
      (picked n (some start) (some end_) step))
    (hgo : (step > 0 ∧ first n start < limit n end_) ∨ (step < 0 ∧ first n start > limit n end_))
    (hl : loopIndices (first n start) (limit n end_) step
      = some ((picked n (some start) (some end_) step).map Int.ofNat)) :
    foldDense x.sizes y.sizes x.data dim start end_ step = .dense y.data := by
  have hd : d < x.sizes.length := (List.getElem?_eq_some_iff.1 hn).1
  rw [prod_split hn] at hx
  simp only [foldDense, isDim_norm hdim hd, if_neg (show ¬((d : Int) < 0) by omega), Int.toNat_natCast, hn, if_pos hgo]
  rw [offsets_eq_leaf (dims_ne_nil hd _ _ _), leaf_dims hl _ _ _ _ hn]
  dsimp only
  cases hr : readAll x.data (sliceOffsets (x.sizes.take d).prod n (x.sizes.drop (d + 1)).prod
      ((picked n (some start) (some end_) step).map Int.ofNat) 0) with
  | none =>
    refine absurd hr (readAll_ne_none _ fun o hoo => ?_)
    rw [sliceOffsets, List.mem_flatMap] at hoo
    obtain ⟨a, ha, hoo⟩ := hoo
    obtain ⟨i, hi, hoo⟩ := List.mem_flatMap.1 hoo
    obtain ⟨j, hj, rfl⟩ := List.mem_map.1 hi
    obtain ⟨k, hk, rfl⟩ := List.mem_map.1 hoo
    have ha := List.mem_range.1 ha
    have hk := List.mem_range.1 hk
    have hj := picked_lt hj
    generalize (x.sizes.drop (d + 1)).prod = m at *
    have h1 : (a + 1) * n ≤ (x.sizes.take d).prod * n := Nat.mul_le_mul_right _ ha
    rw [Nat.succ_mul] at h1
    have h2 : (a * n + j + 1) * m ≤ ((x.sizes.take d).prod * n) * m := Nat.mul_le_mul_right _ (by omega)
    rw [Nat.succ_mul, Nat.mul_assoc (x.sizes.take d).prod, ← hx] at h2
    rw [show (0 : Int) + (((a * n : Nat) : Int) + Int.ofNat j) * (m : Nat) + (k : Nat)
      = (((a * n + j) * m + k : Nat) : Int) by push_cast; simp]
    omega
  | some vs =>
    obtain ⟨hin, hvs⟩ := readAll_some _ _ hr
    have hv : vs = y.data := by
      apply map_some_inj
      rw [hyd, hvs, keepBlocks_some _ _ _ _ _ (fun i hi => picked_lt hi) hx]
    have hlen := congrArg List.length hvs
    rw [List.length_map, List.length_map, sliceOffsets_length, List.length_map, ← prod_set hn, ← hys] at hlen
    dsimp only
    rw [if_neg (fun h => h hlen), hv]

/-- Downwards by a step that divides the distance the loop goes over what is picked. -/
theorem loop_down_dvd {n : Nat} {start end_ step : Int} (hs : step < 0) (hb : start < n)
    (hp : (picked n (some start) (some end_) step).length ≠ 0)
    (hdvd : step ∣ Shape.downStart n start - Shape.downEnd n end_) :
    first n start > limit n end_ ∧ loopIndices (first n start) (limit n end_) step
      = some ((picked n (some start) (some end_) step).map Int.ofNat) := by
  have hlt : Shape.downEnd n end_ < Shape.downStart n start ∧ 0 < n := by
    obtain ⟨i, hi⟩ := List.exists_mem_of_length_pos (Nat.pos_of_ne_zero hp)
    have hin := picked_lt hi
    rw [picked, if_neg (by omega)] at hi
    have := of_decide_eq_true (List.mem_filter.1 (List.mem_reverse.1 hi)).2
    simp only [Option.getD_some] at this
    omega
  obtain ⟨hlt, hn⟩ := hlt
  have e1 : Shape.downStart n start = first n start := by
    revert hlt; simp only [Shape.downStart, Shape.downEnd, first]; (repeat' split) <;> omega
  have e2 : Shape.downEnd n end_ = limit n end_ := by
    revert hlt; simp only [Shape.downStart, Shape.downEnd, limit]; (repeat' split) <;> omega
  have e3 : first n start < n := by simp only [first]; split <;> omega
  rw [e1, e2] at hlt hdvd
  refine ⟨hlt, ?_⟩
  have hlim : -1 ≤ limit n end_ := by simp only [limit]; (repeat' split) <;> omega
  obtain ⟨q, hq⟩ := hdvd
  have hq0 : q ≤ 0 := by
    by_contra hneg
    have := Int.mul_neg_of_neg_of_pos hs (show 0 < q by omega)
    omega
  obtain ⟨c, hc⟩ : ∃ c : Nat, q = -c := ⟨(-q).toNat, by omega⟩
  subst hc
  have hadj : adjusted (first n start) (limit n end_) step = first n start + c * step := by
    rw [adjusted_down hs hlt, if_pos (Int.emod_eq_zero_of_dvd ⟨_, hq⟩)]
    rw [Int.mul_neg, Int.mul_comm] at hq
    omega
  rw [loopIndices_run (by omega) hadj, picked_down n start end_ hs e3 hlt]
  refine congrArg some (run_down hs hlim c _ e3 ?_ (down_count hs hlt hadj).1).symm
  rw [Int.mul_neg, Int.mul_comm] at hq
  omega

theorem known_map : ∀ ss : List Nat, known (ss.map some) = some ss
  | [] => rfl
  | s :: ss => by rw [List.map_cons, known, known_map ss]

theorem foldSlice_dense (inTy outTy : Ty) (dt : Nat) (es : List E) (x y : Tensor E) (dim start end_ step : Int)
    (hes : es = x.data) (hi : inTy = ⟨some (x.sizes.map some), some dt⟩) (ho : outTy = ⟨some (y.sizes.map some), some dt⟩)
    (hs : IsSlice x dim (some start) (some end_) step y)
    (hc : y.sizes.prod ≠ 0) (hsmall : y.sizes.prod ≤ 16) (hnot : ¬(start = 0 ∧ end_ = maxInt ∧ step = 1)) :
    foldSlice inTy outTy ⟨some (.dense es), some dim, some start, some end_, some step⟩
      = foldDense x.sizes y.sizes x.data dim start end_ step := by
  have hlen : x.sizes.length = y.sizes.length := by
    obtain ⟨d', n', _, _, hys, _⟩ := hs
    rw [hys, List.length_set]
  rw [hi, ho]
  simp only [foldSlice, ne_eq, not_true_eq_false, if_false, List.length_map, hlen, known_map, foldKnown, if_neg hc, if_pos hsmall,
    hes]
  rw [if_neg (by
    rintro ⟨h1, h2, h3, _⟩
    exact hnot ⟨Option.some.inj h1, Option.some.inj h2, Option.some.inj h3⟩)]

theorem foldDense_endless {x : Tensor E} {out : List Nat} {dim start end_ step : Int} {d n : Nat}
    (hdim : Shape.IsDim x.sizes.length dim d) (hn : x.sizes[d]? = some n) (ho : (x.sizes.take d).prod ≠ 0)
    (hl : loopIndices (first n start) (limit n end_) step = none) :
    foldDense x.sizes out x.data dim start end_ step = .undef := by
  have hd : d < x.sizes.length := (List.getElem?_eq_some_iff.1 hn).1
  simp only [foldDense, isDim_norm hdim hd, if_neg (show ¬((d : Int) < 0) by omega), Int.toNat_natCast, hn]
  rw [offsets_eq_leaf (dims_ne_nil hd _ _ _), leaf_dims_none hl _ _ _ _ hn ho]
  split <;> rfl

end Verif.FoldSlice
