import Verif.Lemmas.LinPad
import Verif.Spec.LinPerm

namespace Verif.Lin

variable {E : Type}

theorem dim_eq' {r : Nat} {dim : Int} {d : Nat} (hd : d < r) (h : dim = d ∨ dim = (d : Int) - r) :
    Tm.positiveDim dim r = d ∧ Tm.validDim (d : Int) r = true := by
  refine ⟨?_, by simp [Tm.validDim, hd]⟩
  unfold Tm.positiveDim
  rcases h with h | h <;> split <;> omega

theorem names_map {r : Nat} {dims : List Int} {ds : List Nat} (h : Names r dims ds) (f : Int → Int)
    (hf : ∀ (dim : Int) (d : Nat), d < r → (dim = d ∨ dim = (d : Int) - r) → f dim = d) : dims.map f = ds.map (fun d : Nat => (d : Int)) := by
  unfold Names at h
  induction h with
  | nil => rfl
  | cons h0 _ ih => rw [List.map_cons, List.map_cons, ih, hf _ _ h0.1 h0.2]

theorem names_lt {r : Nat} {dims : List Int} {ds : List Nat} (h : Names r dims ds) : ∀ d ∈ ds, d < r := by
  unfold Names at h
  induction h with
  | nil => intro d hd; cases hd
  | cons h0 _ ih =>
    intro d hd
    rcases List.mem_cons.1 hd with rfl | hd
    · exact h0.1
    · exact ih d hd

theorem map_toNat (ds : List Nat) : (ds.map (fun d : Nat => (d : Int))).map Int.toNat = ds := by
  rw [List.map_map]
  conv => rhs; rw [← List.map_id ds]
  rfl

/-! ## Flips -/

theorem foldl_set (f : Nat → Int → Int) : ∀ (axes : List Nat) (l : List Int), axes.Nodup →
    (axes.foldl (fun is a => is.set a (f a (is.getD a 0))) l).length = l.length ∧
    ∀ k, k < l.length → (axes.foldl (fun is a => is.set a (f a (is.getD a 0))) l).getD k 0 = if k ∈ axes then f k (l.getD k 0) else l.getD k 0 := by
  intro axes
  induction axes with
  | nil => intro l _; exact ⟨rfl, fun k _ => by rw [if_neg (by simp)]; rfl⟩
  | cons a axes ih =>
    intro l hn
    rw [List.nodup_cons] at hn
    obtain ⟨h1, h2⟩ := ih (l.set a (f a (l.getD a 0))) hn.2
    rw [List.length_set] at h1 h2
    rw [List.foldl_cons]
    refine ⟨h1, fun k hk => ?_⟩
    rw [h2 k hk]
    by_cases hka : a = k
    · subst hka
      rw [if_neg hn.1, if_pos (by simp), getD_set_self hk]
    · rw [getD_set_ne hka]
      by_cases hm : k ∈ axes
      · rw [if_pos hm, if_pos (by simp [hm])]
      · rw [if_neg hm, if_neg (by simp only [List.mem_cons, not_or]; exact ⟨Ne.symm hka, hm⟩)]

theorem flipIndex_eq (sizes : List Int) (axes : List Nat) (hn : axes.Nodup) (hlt : ∀ a ∈ axes, a < sizes.length) (idx : List Int)
    (hl : idx.length = sizes.length) :
    flipIndex sizes axes idx = idx.zipIdx.map fun p => if p.2 ∈ axes then sizes.getD p.2 0 - 1 - p.1 else p.1 := by
  have hd := foldl_set (fun _ n => n - 1) axes sizes hn
  have hi := foldl_set (fun a i => (axes.foldl (fun ds a => ds.set a (ds.getD a 0 - 1)) sizes).getD a 0 - i) axes idx hn
  unfold flipIndex
  apply List.ext_getElem?
  intro k
  by_cases hk : k < idx.length
  · rw [getElem?_of_lt (by rw [hi.1]; exact hk), hi.2 k hk, List.getElem?_map, List.getElem?_zipIdx, getElem?_of_lt hk]
    simp only [Option.map_some, Nat.zero_add]
    by_cases hm : k ∈ axes
    · rw [if_pos hm, if_pos hm, hd.2 k (by omega), if_pos hm]
    · rw [if_neg hm, if_neg hm]
  · rw [List.getElem?_eq_none (by rw [hi.1]; omega), List.getElem?_eq_none (by simp; omega)]

/-! ## Permutations -/

theorem range_getD (l : List Int) : (List.range l.length).map (fun k => l.getD k 0) = l := by
  apply List.ext_getElem?
  intro k
  rw [List.getElem?_map]
  by_cases hk : k < l.length
  · rw [List.getElem?_range hk, getElem?_of_lt hk]; rfl
  · rw [List.getElem?_eq_none (by simpa using hk), List.getElem?_eq_none (by omega)]; rfl

theorem perm_there {r : Nat} {ds : List Nat} (hp : ds.Perm (List.range r)) (j : List Int) (hj : j.length = r) :
    (List.range r).map (fun k => (ds.map fun d => j.getD d 0).getD (ds.idxOf k) 0) = j := by
  have h : ∀ k ∈ List.range r, (ds.map fun d => j.getD d 0).getD (ds.idxOf k) 0 = j.getD k 0 := by
    intro k hk
    have hm : k ∈ ds := hp.mem_iff.2 hk
    rw [List.getD_eq_getElem?_getD, List.getElem?_map, List.getElem?_eq_getElem (List.idxOf_lt_length_iff.2 hm), List.getElem_idxOf]
    rfl
  rw [List.map_congr_left h, ← hj, range_getD]

theorem perm_back {r : Nat} {ds : List Nat} (hp : ds.Perm (List.range r)) (idx : List Int) (hl : idx.length = r) :
    ds.map (fun d => ((List.range r).map fun k => idx.getD (ds.idxOf k) 0).getD d 0) = idx := by
  have hlen : ds.length = r := by rw [hp.length_eq, List.length_range]
  have hnd : ds.Nodup := hp.nodup_iff.2 List.nodup_range
  apply List.ext_getElem?
  intro i
  rw [List.getElem?_map]
  by_cases hi : i < ds.length
  · rw [List.getElem?_eq_getElem hi, getElem?_of_lt (by omega)]
    have hlt : ds[i] < r := List.mem_range.1 (hp.mem_iff.1 (List.getElem_mem hi))
    simp only [Option.map_some]
    rw [List.getD_eq_getElem?_getD, List.getElem?_map, List.getElem?_range hlt]
    simp only [Option.map_some, Option.getD_some]
    rw [hnd.idxOf_getElem i hi]
  · rw [List.getElem?_eq_none (by omega), List.getElem?_eq_none (by omega)]
    rfl

theorem perm_range {r : Nat} {ds : List Nat} (hp : ds.Perm (List.range r)) (ns j : List Int) (hn : ns.length = r) (hj : j.length = r) :
    inRange (ds.map fun d => ns.getD d 0) (ds.map fun d => j.getD d 0) = true ↔ inRange ns j = true := by
  have hlen : ds.length = r := by rw [hp.length_eq, List.length_range]
  rw [inRange_iff, inRange_iff]
  simp only [List.length_map, true_and, hn, hj]
  constructor
  · intro h d n i hdn hdi
    have hlt : d < r := by rw [← hn]; exact (List.getElem?_eq_some_iff.1 hdn).1
    have hm : d ∈ ds := hp.mem_iff.2 (List.mem_range.2 hlt)
    have hk := List.idxOf_lt_length_iff.2 hm
    refine h (ds.idxOf d) n i ?_ ?_
    · rw [List.getElem?_map, List.getElem?_eq_getElem hk, List.getElem_idxOf, Option.map_some, List.getD_eq_getElem?_getD, hdn]; rfl
    · rw [List.getElem?_map, List.getElem?_eq_getElem hk, List.getElem_idxOf, Option.map_some, List.getD_eq_getElem?_getD, hdi]; rfl
  · intro h k n i hkn hki
    rw [List.getElem?_map] at hkn hki
    cases hd : ds[k]? with
    | none => rw [hd] at hkn; cases hkn
    | some d =>
      rw [hd] at hkn hki
      cases hkn
      cases hki
      have hlt : d < r := List.mem_range.1 (hp.mem_iff.1 (List.mem_of_getElem? hd))
      exact h d _ _ (getElem?_of_lt (by omega)) (getElem?_of_lt (by omega))

theorem transpose_perm (x : Tensor E) (hx : x.Ok) (ds : List Nat) (hp : ds.Perm (List.range x.sizes.length)) :
    ∃ t, linalgTranspose x ds = some t ∧ t.Ok ∧ IsPermuteOf t x ds := by
  have hlen : ds.length = x.sizes.length := by rw [hp.length_eq, List.length_range]
  have hall : (List.range x.sizes.length).all (fun k => decide (k ∈ ds)) = true := by
    rw [List.all_eq_true]
    intro k hk
    exact decide_eq_true (hp.mem_iff.2 hk)
  have hback : ∀ idx, inRange (ds.map fun d => x.sizes.getD d 0) idx = true →
      inRange x.sizes ((List.range x.sizes.length).map fun k => idx.getD (ds.idxOf k) 0) = true ∧
      idx = ds.map (fun d => ((List.range x.sizes.length).map fun k => idx.getD (ds.idxOf k) 0).getD d 0) := by
    intro idx hi
    have hl : idx.length = x.sizes.length := by rw [inRange_length hi, List.length_map, hlen]
    have hb := perm_back hp idx hl
    refine ⟨?_, hb.symm⟩
    rw [← perm_range hp x.sizes _ rfl (by simp), hb]
    exact hi
  refine ⟨_, if_pos ⟨hlen, hall⟩, ⟨?_, ?_⟩, rfl, ?_, ?_⟩
  · intro n hn
    obtain ⟨d, hd, rfl⟩ := List.mem_map.1 hn
    exact hx.1 _ (List.mem_of_getElem? (getElem?_of_lt (List.mem_range.1 (hp.mem_iff.1 hd))))
  · intro idx hi
    have := (hback idx hi).1
    show ∃ e, x.get _ = some e
    rw [get_of_range this]
    exact hx.2 _ this
  · intro j hj
    show x.get _ = _
    rw [perm_there hp j (inRange_length hj), get_of_range hj]
  · intro idx hi
    exact ⟨_, hback idx hi⟩

/-- What is no permutation does not verify. -/
theorem transpose_none (x : Tensor E) (ds : List Nat) (h : linalgTranspose x ds ≠ none) : ds.Perm (List.range x.sizes.length) := by
  unfold linalgTranspose at h
  by_cases hc : ds.length = x.sizes.length ∧ (List.range x.sizes.length).all (fun k => decide (k ∈ ds)) = true
  · have hsub : List.range x.sizes.length ⊆ ds := fun k hk => of_decide_eq_true (List.all_eq_true.1 hc.2 k hk)
    have hsp := List.nodup_range.subperm hsub
    exact (hsp.perm_of_length_le (by rw [List.length_range, hc.1])).symm
  · exact absurd (if_neg hc) h

/-! ## Concatenations -/

theorem keepOperand_of_size {d : Nat} {o : Operand E} (ht : o.Typed) (hd : d < o.tensor.sizes.length) (hpos : o.tensor.sizes.getD d 0 ≠ 0)
    (hne : o.type ≠ [some 0]) : keepOperand d o = true := by
  unfold keepOperand
  rw [if_neg]
  · apply decide_eq_true
    intro h
    rw [List.getD_eq_getElem?_getD, List.getElem?_eq_getElem (by rw [ht.1]; exact hd)] at h
    simp only [Option.getD_some] at h
    have := ht.2 d 0 (by rw [List.getElem?_eq_getElem (by rw [ht.1]; exact hd), h])
    rw [List.getD_eq_getElem?_getD, this] at hpos
    exact hpos rfl
  · rintro ⟨h1, h2⟩
    apply hne
    match hty : o.type, h1, h2 with
    | [v], _, h2 => rw [List.getD_cons_zero] at h2; rw [h2]

theorem kept {d : Nat} {o : Operand E} (h : keepOperand d o = true) : o.type ≠ [some 0] ∧ o.type.getD d none ≠ some 0 := by
  unfold keepOperand at h
  by_cases hc : o.type.length = 1 ∧ o.type.getD 0 none = some 0
  · rw [if_pos hc] at h; cases h
  · rw [if_neg hc] at h
    refine ⟨?_, of_decide_eq_true h⟩
    intro he
    rw [he] at hc
    exact hc ⟨rfl, rfl⟩

/-- An operand that is dropped takes up nothing, and has no elements. -/
theorem dropped {r d : Nat} {base : List Int} {o : Operand E} (hf : o.Fits r d base) (hd : d < r) (h : keepOperand d o = false) :
    share r d o.tensor = 0 ∧ ∀ j, inRange o.tensor.sizes j = false := by
  by_cases hty : o.type = [some 0]
  · have h0 : o.tensor.sizes = [0] := by
      have h1 := hf.1.1
      have h2 := hf.1.2 0 0 (by rw [hty]; rfl)
      rw [hty] at h1
      match hs : o.tensor.sizes, h1, h2 with
      | [n], _, h2 =>
        simp only [List.getElem?_cons_zero, Option.some.injEq] at h2
        rw [h2]
    refine ⟨?_, fun j => ?_⟩
    · unfold share
      split
      · rename_i hr
        rw [h0] at hr ⊢
        have : d = 0 := by simp at hr; omega
        subst this
        rfl
      · rfl
    · rw [h0]
      cases j with
      | nil => rfl
      | cons i is => cases is <;> simp [inRange]
  · rcases hf.2.2 with ⟨hl, hb⟩ | h'
    · have hz : o.tensor.sizes.getD d 0 = 0 := by
        by_cases hz : o.tensor.sizes.getD d 0 = 0
        · exact hz
        · rw [keepOperand_of_size hf.1 (by omega) hz hty] at h; cases h
      refine ⟨by unfold share; rw [if_pos hl, hz], fun j => ?_⟩
      cases hj : inRange o.tensor.sizes j with
      | false => rfl
      | true =>
        have := inRange_getD hj (d := d) (by omega)
        omega
    · exact absurd h' hty

theorem kept_full {r d : Nat} {base : List Int} {o : Operand E} (hf : o.Fits r d base) (h : keepOperand d o = true) :
    o.tensor.sizes.length = r ∧ o.tensor.sizes.set d 0 = base ∧ share r d o.tensor = o.tensor.sizes.getD d 0 := by
  rcases hf.2.2 with ⟨hl, hb⟩ | h'
  · exact ⟨hl, hb, if_pos hl⟩
  · exact absurd h' (kept h).1

theorem share_nonneg {r d : Nat} {base : List Int} {o : Operand E} (hf : o.Fits r d base) (hd : d < r) : 0 ≤ share r d o.tensor := by
  unfold share
  split
  · rename_i h
    exact hf.2.1.1 _ (List.mem_of_getElem? (getElem?_of_lt (by omega)))
  · omega

theorem sum_nonneg {r d : Nat} {base : List Int} (hd : d < r) : ∀ (os : List (Operand E)), (∀ o ∈ os, o.Fits r d base) →
    0 ≤ ((os.map fun o => share r d o.tensor)).sum := by
  intro os
  induction os with
  | nil => intro _; simp
  | cons o os ih =>
    intro h
    have h1 := share_nonneg (h o (by simp)) hd
    have h2 := ih fun p hp => h p (by simp [hp])
    rw [List.map_cons, List.sum_cons]
    omega

theorem sum_filter {r d : Nat} {base : List Int} (hd : d < r) : ∀ (os : List (Operand E)), (∀ o ∈ os, o.Fits r d base) →
    ((os.filter (keepOperand d)).map fun p => p.tensor.sizes.getD d 0).sum = (os.map fun o => share r d o.tensor).sum := by
  intro os
  induction os with
  | nil => intro _; rfl
  | cons o os ih =>
    intro h
    have ih' := ih fun p hp => h p (by simp [hp])
    rw [List.filter_cons, List.map_cons, List.sum_cons]
    cases hk : keepOperand d o with
    | false =>
      rw [if_neg (by simp), ih', (dropped (h o (by simp)) hd hk).1, Int.zero_add]
    | true =>
      rw [if_pos rfl, List.map_cons, List.sum_cons, ih', (kept_full (h o (by simp)) hk).2.2]

theorem concat_elem {r d : Nat} {base : List Int} (hd : d < r) : ∀ (os : List (Operand E)), (∀ o ∈ os, o.Fits r d base) →
    ∀ (k : Nat) (o : Operand E), os[k]? = some o → ∀ j, inRange o.tensor.sizes j = true →
      concatElem d (os.filter (keepOperand d)) (j.set d (j.getD d 0 + ((os.take k).map fun o => share r d o.tensor).sum)) = o.tensor.elem j := by
  intro os
  induction os with
  | nil => intro _ k o h; simp at h
  | cons p os ih =>
    intro hf k o hk j hj
    have hfo : o.Fits r d base := hf o (List.mem_of_getElem? hk)
    have hko : keepOperand d o = true := by
      cases h : keepOperand d o with
      | true => rfl
      | false => rw [(dropped hfo hd h).2 j] at hj; cases hj
    obtain ⟨hlo, -, -⟩ := kept_full hfo hko
    have hjl : j.length = r := by rw [inRange_length hj, hlo]
    rw [List.filter_cons]
    cases k with
    | zero =>
      simp only [List.getElem?_cons_zero, Option.some.injEq] at hk
      subst hk
      rw [if_pos hko, List.take_zero, List.map_nil, List.sum_nil, Int.add_zero, set_getD_self, concatElem,
        if_pos (inRange_getD hj (by omega)).2, get_of_range hj]
    | succ k =>
      rw [List.getElem?_cons_succ] at hk
      have ih' := ih (fun q hq => hf q (by simp [hq])) k o hk j hj
      rw [List.take_succ_cons, List.map_cons, List.sum_cons]
      cases hkp : keepOperand d p with
      | false =>
        rw [if_neg (by simp), (dropped (hf p (by simp)) hd hkp).1, Int.zero_add]
        exact ih'
      | true =>
        have hsum := sum_nonneg (r := r) (d := d) (base := base) hd (os.take k) (fun q hq => hf q (by simp [List.mem_of_mem_take hq]))
        have hj0 := (inRange_getD hj (d := d) (by omega)).1
        rw [if_pos rfl, concatElem, getD_set_self (by omega), (kept_full (hf p (by simp)) hkp).2.2, if_neg (by omega), List.set_set,
          show ∀ a b c : Int, a + (b + c) - b = a + c by intros; omega]
        exact ih'

theorem concat_cover {r d : Nat} {base : List Int} (hd : d < r) (hbase : base.length = r) : ∀ (os : List (Operand E)), (∀ o ∈ os, o.Fits r d base) →
    ∀ idx, inRange (base.set d ((os.map fun o => share r d o.tensor).sum)) idx = true →
      ∃ k o j, os[k]? = some o ∧ inRange o.tensor.sizes j = true ∧ idx = j.set d (j.getD d 0 + ((os.take k).map fun o => share r d o.tensor).sum) := by
  intro os
  induction os with
  | nil =>
    intro _ idx hi
    have := inRange_getD hi (d := d) (by rw [List.length_set]; omega)
    rw [getD_set_self (by omega)] at this
    simp at this
    omega
  | cons p os ih =>
    intro hf idx hi
    have hil : idx.length = r := by rw [inRange_length hi, List.length_set, hbase]
    have hb := inRange_getD hi (d := d) (by rw [List.length_set]; omega)
    rw [getD_set_self (by omega), List.map_cons, List.sum_cons] at hb
    by_cases hlt : idx.getD d 0 < share r d p.tensor
    · have hfull : p.tensor.sizes.length = r := by
        by_cases h : p.tensor.sizes.length = r
        · exact h
        · unfold share at hlt
          rw [if_neg h] at hlt
          omega
      have hset : p.tensor.sizes.set d 0 = base := by
        rcases (hf p (by simp)).2.2 with h | h
        · exact h.2
        · have h0 := (hf p (by simp)).1.2 0 0 (by rw [h]; rfl)
          have h1 := (hf p (by simp)).1.1
          rw [h] at h1
          simp only [List.length_singleton] at h1
          have hd0 : d = 0 := by omega
          unfold share at hlt
          rw [if_pos hfull, hd0, List.getD_eq_getElem?_getD (l := p.tensor.sizes), h0] at hlt
          rw [hd0] at hb
          have := hb.1
          simp only [Option.getD_some] at hlt
          omega
      refine ⟨0, p, idx, rfl, ?_, ?_⟩
      · rw [← hset, List.set_set] at hi
        have := inRange_set hi (idx.getD d 0) ⟨hb.1, by unfold share at hlt; rw [if_pos hfull] at hlt; exact hlt⟩
        rwa [set_getD_self] at this
      · rw [List.take_zero, List.map_nil, List.sum_nil, Int.add_zero, set_getD_self]
    · have hi' := inRange_set_both hi ((os.map fun o => share r d o.tensor).sum) (idx.getD d 0 - share r d p.tensor) (by omega) (d := d)
      rw [List.set_set] at hi'
      obtain ⟨k, o, j, h1, h2, h3⟩ := ih (fun q hq => hf q (by simp [hq])) _ hi'
      refine ⟨k + 1, o, j, by rw [List.getElem?_cons_succ]; exact h1, h2, ?_⟩
      have hjl : j.length = r := by
        have := congrArg List.length h3
        simp only [List.length_set] at this
        omega
      have hg := congrArg (fun l => l.getD d 0) h3
      rw [getD_set_self (by omega), getD_set_self (by omega)] at hg
      rw [List.take_succ_cons, List.map_cons, List.sum_cons]
      have hs := congrArg (fun l => l.set d (idx.getD d 0)) h3
      simp only [List.set_set, set_getD_self] at hs
      rw [hs]
      congr 1
      omega

end Verif.Lin
