import Verif.Lemmas.TmScatter

/-!
# C80: scattering
-/

namespace Verif

open Tm

/-- C80: `tm_tensor.scatter` with any region: if every dimension has an index or a dimension of the updates and all updates go
to places of the original, each place has what it had, combined with the updates that go there one after the other, in the order
of the updates.  All other places are as they were. -/
theorem C80_scatter {E : Type} (f : E → E → E) (sizes dimMap usizes : List Nat) (h0 : usizes ≠ []) (hr : usizes.length ≤ sizes.length + 1)
    (hc : Covered sizes.length usizes.length dimMap) (indices : Nat → Nat → Int) (updates original : List Nat → E)
    (hin : ∀ ivs, InBox usizes ivs → ∃ p, Target sizes dimMap indices ivs p) :
    ∃ out, scatter f sizes dimMap usizes indices updates original = some out ∧
      ∀ p, out p = ((box usizes).filter fun ivs => decide (Target sizes dimMap indices ivs p)).foldl
        (fun v ivs => f (updates ivs) v) (original p) := by
  have htar : ∀ ivs, InBox usizes ivs → ∀ p, scatterTarget sizes dimMap indices ivs = some p ↔ Target sizes dimMap indices ivs p := by
    intro ivs hi p
    have hl := hi.length
    exact target_iff sizes dimMap indices ivs (fun e => h0 (by rw [e] at hl; exact List.eq_nil_of_length_eq_zero hl.symm))
      (by omega) (by rw [hl]; exact hc) p
  unfold scatter
  rw [lower_box]
  obtain ⟨out, h1, h2⟩ := scatter_all f sizes dimMap indices updates (box usizes) original (fun ivs hi => by
    obtain ⟨p, hp⟩ := hin ivs (mem_box.1 hi)
    exact ⟨p, (htar ivs (mem_box.1 hi) p).2 hp⟩)
  refine ⟨out, h1, fun p => ?_⟩
  rw [h2 p]
  congr 1
  apply List.filter_congr
  intro ivs hi
  exact decide_eq_decide.2 (htar ivs (mem_box.1 hi) p)

/-- C80: there is no result if one of the updates goes nowhere. -/
theorem C80_out_of_range {E : Type} (f : E → E → E) (sizes dimMap usizes : List Nat) (h0 : usizes ≠ [])
    (hr : usizes.length ≤ sizes.length + 1) (indices : Nat → Nat → Int) (updates original : List Nat → E)
    (ivs : List Nat) (hi : InBox usizes ivs) (hn : ∀ p, ¬ Target sizes dimMap indices ivs p) :
    scatter f sizes dimMap usizes indices updates original = none := by
  unfold scatter
  rw [lower_box]
  have hl := hi.length
  have h0' : ivs ≠ [] := fun e => h0 (by rw [e] at hl; exact List.eq_nil_of_length_eq_zero hl.symm)
  refine scatter_bad f sizes dimMap indices updates _ _ ⟨ivs, mem_box.2 hi, ?_⟩
  by_cases hc : Covered sizes.length ivs.length dimMap
  · cases e : scatterTarget sizes dimMap indices ivs with
    | none => rfl
    | some p => exact absurd ((target_iff sizes dimMap indices ivs h0' (by omega) hc p).1 e) (hn p)
  · exact not_covered sizes dimMap indices ivs h0' (by omega) hc

/-- C80: what the verifier accepts covers every dimension, if the indices are for the first ones. -/
theorem C80_verified_partial (sizes usizes : List Nat) (rows depth : Nat)
    (h : verifyScatter sizes usizes rows depth ((List.range depth).map fun i : Nat => (i : Int)) = true) :
    usizes ≠ [] ∧ usizes.length ≤ sizes.length + 1 ∧ Covered sizes.length usizes.length (List.range depth) ∧
      ∀ ivs, InBox usizes ivs → ∀ row j, depth ≤ j → j < sizes.length →
        0 ≤ startAt sizes.length (List.range depth) row ivs j ∧
          startAt sizes.length (List.range depth) row ivs j < (sizes[j]?.getD 0 : Nat) := by
  unfold verifyScatter at h
  simp only [Bool.and_eq_true, decide_eq_true_eq, Bool.not_eq_true', decide_eq_false_iff_not] at h
  obtain ⟨⟨⟨⟨⟨⟨h1, h2⟩, h3⟩, h4⟩, h5⟩, h6⟩, h7, h8⟩ := h
  have hdr : depth ≤ sizes.length := by
    unfold dimMapInvalid at h2
    simp only [Bool.or_eq_false_iff, decide_eq_false_iff_not, List.length_map, List.length_range] at h2
    omega
  refine ⟨fun e => by rw [e] at h3; simp at h3, by omega, fun j _ hj => List.mem_range.2 (by omega), ?_⟩
  intro ivs hi row j hdj hj
  have hl := hi.length
  have hcol : columns (List.range depth) j = [] := columns_nil.2 (fun h => by have := List.mem_range.1 h; omega)
  have hge : sizes.length + 1 ≤ j + ivs.length := by omega
  unfold startAt
  rw [hcol, if_pos hge]
  unfold dimsFit at h7
  have hfit := List.all_eq_true.1 h7 (j - depth) (List.mem_range.2 (by omega))
  have hfit := of_decide_eq_true hfit
  have e1 : usizes.length - (sizes.length - depth) + (j - depth) = j + ivs.length - sizes.length := by omega
  have e2 : depth + (j - depth) = j := by omega
  rw [e1, e2] at hfit
  have hlt := hi.get' (j + ivs.length - sizes.length) (by omega)
  simp only [List.map_nil, List.sum_nil, Int.zero_add]
  omega

/-- C80: what the verifier accepts has one dimension of the original for each column of the indices, no two the same, and an index for
each slice of the updates. -/
theorem C80_verified_map (sizes usizes : List Nat) (rows depth : Nat) (dimMap : List Int)
    (h : verifyScatter sizes usizes rows depth dimMap = true) :
    dimMap.length = depth ∧ dimMap.Nodup ∧ (∀ i ∈ dimMap, 0 ≤ i ∧ i < sizes.length) ∧ usizes[0]? = some rows := by
  unfold verifyScatter dimMapInvalid at h
  simp only [Bool.and_eq_true, decide_eq_true_eq, Bool.not_eq_true', decide_eq_false_iff_not, Bool.or_eq_false_iff, List.any_eq_false,
    Bool.or_eq_true, not_or, Decidable.not_not] at h
  obtain ⟨⟨⟨⟨⟨⟨h1, ⟨h2, h3⟩, h4⟩, h5⟩, h6⟩, h7⟩, h8⟩, -⟩ := h
  refine ⟨h1, ?_, fun i hi => ⟨by have := (h4 i hi).1; omega, by have := (h4 i hi).2; omega⟩, h6.symm⟩
  rw [← List.dedup_eq_self]
  exact (List.dedup_sublist dimMap).eq_of_length h3.symm

/-- C80, violated: the verifier accepts a map of dimensions that leaves one without a place: an original of shape `[2, 2, 2]`,
updates of shape `[1, 2, 2]` with one index for dimension 1.  The loop then loads with an operand that is not there. -/
theorem C80_violated_dim_map : verifyScatter [2, 2, 2] [1, 2, 2] 1 1 [1] = true ∧
    ∀ (E : Type) (f : E → E → E) (indices : Nat → Nat → Int) (updates original : List Nat → E),
      scatter f [2, 2, 2] [1] [1, 2, 2] indices updates original = none := by
  refine ⟨by decide +kernel, fun E f indices updates original => ?_⟩
  unfold scatter
  rw [lower_box]
  refine scatter_bad f _ _ indices updates _ _ ⟨[0, 0, 0], by decide, ?_⟩
  refine not_covered _ _ _ _ (by decide) (by decide) ?_
  intro h
  have := h 0 (by decide) (by decide)
  simp at this

/-- C80: `aten.scatter.src`: each place of the result has the last element of `src` that goes there, or what it had. -/
theorem C80_src_partial {E : Type} (sizes isizes : List Nat) (d : Nat) (index : List Nat → Int) (src self : List Nat → E)
    (hok : ScatterOk sizes isizes d index) :
    ∃ out, atenScatter (fun update _ => update) sizes isizes d index src self = some out ∧
      ∀ p, out p = (((box isizes).filter fun place => decide (ScatterTo sizes d index place p)).map src).getLast?.getD (self p) := by
  obtain ⟨out, h1, h2⟩ := atenScatter_spec (fun update _ => update) sizes isizes d index src self hok
  refine ⟨out, h1, fun p => ?_⟩
  rw [h2 p]
  generalize self p = v
  generalize (box isizes).filter _ = L
  induction L generalizing v with
  | nil => rfl
  | cons a L ih =>
    rw [List.foldl_cons, ih, List.map_cons]
    cases L with
    | nil => rfl
    | cons b L => rw [List.map_cons, List.getLast?_cons_cons, ← List.map_cons]; simp [List.getLast?_cons]

/-- C80: `aten.scatter_add`, with the addition `add` of the element type: the elements of `src` that go to a place are added to
what it had, in the order they have in `src`. -/
theorem C80_add_partial {E : Type} (add : E → E → E) (sizes isizes : List Nat) (d : Nat) (index : List Nat → Int)
    (src self : List Nat → E) (hok : ScatterOk sizes isizes d index) :
    ∃ out, atenScatter (fun update current => add current update) sizes isizes d index src self = some out ∧
      ∀ p, out p = (((box isizes).filter fun place => decide (ScatterTo sizes d index place p)).map src).foldl add (self p) := by
  obtain ⟨out, h1, h2⟩ := atenScatter_spec (fun update current => add current update) sizes isizes d index src self hok
  refine ⟨out, h1, fun p => ?_⟩
  rw [h2 p, List.foldl_map]

/-- C80, violated: a dimension counted from the end is used as it is, and `yieldVals[dim]` is outside of the vector. -/
theorem C80_violated_negative_dim {E : Type} (f : E → E → E) (sizes isizes : List Nat) (d : Nat) (index : List Nat → Int)
    (src self : List Nat → E) (hok : ScatterOk sizes isizes d index) :
    atenScatter f sizes isizes ((d : Int) - sizes.length) index src self = none := by
  have := hok.dim
  unfold atenScatter
  rw [if_pos hok.rank.symm, if_neg (by omega)]

/-! The hypotheses can be met. -/

/-- `[[0, 0, 0], [0, 0, 0]]`, index `[[0, 2, 2], …]` of shape `[2, 2]` along dimension 1. -/
def C80_index : List Nat → Int
  | [0, 0] => 2
  | [0, 1] => 2
  | [1, 0] => 1
  | _ => 0

example : ScatterOk [2, 3] [2, 2] 1 C80_index where
  rank := rfl
  dim := by decide
  le := by decide
  range := by
    intro place h
    have key : ∀ place ∈ box [2, 2], 0 ≤ C80_index place ∧ C80_index place < ([2, 3][1]?.getD 0 : Nat) := by decide
    exact key place (mem_box.2 h)

example : ∃ out, atenScatter (fun update current => current + update) [2, 3] [2, 2] 1 C80_index
      (fun idx => (10 * idx.headD 0 + idx[1]?.getD 0 + 1 : Nat)) (fun _ => (100 : Nat)) = some out ∧
    (box [2, 3]).map out = [100, 100, 103, 112, 111, 100] := ⟨_, rfl, by decide +kernel⟩

example : ∃ out, atenScatter (fun update _ => update) [2, 3] [2, 2] 1 C80_index
      (fun idx => (10 * idx.headD 0 + idx[1]?.getD 0 + 1 : Nat)) (fun _ => (100 : Nat)) = some out ∧
    (box [2, 3]).map out = [100, 100, 2, 12, 11, 100] := ⟨_, rfl, by decide +kernel⟩

/-- Slices: two rows are written. -/
example : ∃ out, scatter (fun update _ => update) [3, 2] [0] [2, 2] (fun e _ => if e = 0 then 2 else 0)
      (fun idx => (10 * idx.headD 0 + idx[1]?.getD 0 : Nat)) (fun _ => (100 : Nat)) = some out ∧
    (box [3, 2]).map out = [10, 11, 100, 100, 0, 1] ∧ Covered 2 2 [0] ∧
    verifyScatter [3, 2] [2, 2] 2 1 [0] = true := by
  refine ⟨_, rfl, ?_, ?_, ?_⟩
  · decide +kernel
  · intro j _ h; have : j = 0 := by omega
    subst this; simp
  · decide +kernel

end Verif
