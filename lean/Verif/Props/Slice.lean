import Verif.Lemmas.Slice

/-!
# C32: the size of a slice is the number of selected indices

Sizes are non-negative and below `2^63 - 1` (`maxInt`); the library treats a start of exactly `maxInt` as
missing, which the statements exclude where it matters.
-/

namespace Verif

open Shape

/-- Slicing with a positive step: the dimension named by `dim` becomes the number of selected indices, for
all bounds, missing ones included. -/
theorem C32_slice (self : List Int) (dim : Int) (start end_ : Option Int) (step : Int) (c : List Int)
    (hself : ∀ x ∈ self, 0 ≤ x ∧ x < maxInt) (hs : start ≠ some maxInt) (hst : 0 < step) :
    sliceTensor self dim start end_ step = .ok c ↔
      IsSelection self dim (fun n => selected n start end_ step) c := by
  unfold sliceTensor
  rw [if_neg (by omega), slice_iff]
  have key : ∀ n : Nat, (n : Int) < maxInt →
      sliceSize n (some (start.getD 0)) (some (end_.getD maxInt)) step =
        (countBelow n (selected n start end_ step) : Int) := by
    intro n hn
    rw [← sliceSize_eq n start end_ step hst (by omega) hs]
    unfold sliceSize
    simp only [Option.getD_some]
  constructor
  · rintro ⟨d, x, h1, h2, _, h3⟩
    obtain ⟨n, rfl, hn⟩ := nat_of_mem hself h2
    rw [key n hn] at h3
    exact ⟨d, n, h1, h2, h3⟩
  · rintro ⟨d, n, h1, h2, h3⟩
    obtain ⟨n', hn', hn⟩ := nat_of_mem hself h2
    rw [← hn'] at hn
    exact ⟨d, n, h1, h2, hst, by rw [key n hn]; exact h3⟩

example : sliceTensor [10, 7] 1 (some (-6)) none 2 = .ok [10, 3] ∧
    countBelow 7 (selected 7 (some (-6)) none 2) = 3 := by
  refine ⟨?_, ?_⟩ <;> decide +kernel

/-- Slicing with a negative step and explicit bounds. -/
theorem C32_slice_down (self : List Int) (dim start end_ step : Int) (c : List Int)
    (hself : ∀ x ∈ self, 0 ≤ x ∧ x < maxInt) (he : end_ + 1 ≠ maxInt) (hst : step < 0)
    (hd : ∃ d, IsDim self.length dim d ∧ d < self.length) :
    sliceTensor self dim (some start) (some end_) step = .ok c ↔
      IsSelection self dim (fun n => selectedDown n start end_ step) c := by
  obtain ⟨d, hd, hdl⟩ := hd
  have hget := isDim_pyGet hd (List.getElem?_eq_getElem hdl)
  obtain ⟨n, hn, hnm⟩ := nat_of_mem hself (List.getElem?_eq_getElem hdl)
  unfold sliceTensor
  rw [if_pos hst]
  have hb : ∀ x low, negBound self dim x low =
      .ok (if x < 0 then (if x + n < 0 then low else x + n) else x) := by
    intro x low
    unfold negBound
    rw [hget, hn]
    split <;> rfl
  simp only [Option.getD_some, hb]
  rw [slice_iff]
  constructor
  · rintro ⟨d', x, h1, h2, _, h3⟩
    have := hd.unique h1
    subst this
    rw [List.getElem?_eq_getElem hdl, hn] at h2
    cases h2
    rw [sliceSize_down n start end_ step hst hnm he] at h3
    exact ⟨d, n, h1, by rw [List.getElem?_eq_getElem hdl, hn], h3⟩
  · rintro ⟨d', m, h1, h2, h3⟩
    have := hd.unique h1
    subst this
    rw [List.getElem?_eq_getElem hdl, hn] at h2
    have hmn : n = m := by
      have := Option.some.inj h2
      omega
    subst hmn
    refine ⟨d, n, h1, by rw [List.getElem?_eq_getElem hdl, hn], by omega, ?_⟩
    rw [sliceSize_down n start end_ step hst hnm he]
    exact h3

example : sliceTensor [5] 0 (some (-1)) (some (-6)) (-2) = .ok [3] ∧
    countBelow 5 (selectedDown 5 (-1) (-6) (-2)) = 3 := by
  refine ⟨?_, ?_⟩ <;> decide +kernel

/-- A start of `2^63 - 1` selects nothing but is taken for a missing one. -/
theorem C32_violated : ∃ c, sliceTensor [5] 0 (some maxInt) none 1 = .ok c ∧
    ¬ IsSelection [5] 0 (fun n => selected n (some maxInt) none 1) c := by
  refine ⟨[5], by decide +kernel, ?_⟩
  rintro ⟨d, n, h1, h2, h3⟩
  have hd : d = 0 := by
    have := h1.1
    simp at this
    omega
  subst hd
  have hn : n = 5 := by
    simp at h2
    omega
  subst hn
  revert h3
  decide +kernel

/-- With a negative step, missing bounds are read as the bounds of an ascending slice: reversing a whole
dimension is computed to have size one. -/
theorem C32_missing_violated : sliceTensor [5] 0 none (some (-6)) (-1) = .ok [1] ∧
    sliceTensor [5] 0 none none (-1) = .ok [0] := by
  refine ⟨?_, ?_⟩ <;> decide +kernel

/-- `narrow` keeps `length` indices when the range does not touch the end from below. -/
theorem C32_narrow_partial (self : List Int) (dim start length : Int) (d n : Nat)
    (hd : IsDim self.length dim d) (hn : self[d]? = some (n : Int)) (hl : 0 ≤ length)
    (h1 : -(n : Int) ≤ start) (h2 : start ≥ 0 → start + length ≤ n) (hmax : (n : Int) < maxInt)
    (h3 : start < 0 → start + length < 0) :
    narrow self dim start length = .ok (self.set d length) := by
  unfold narrow
  rw [slice_iff]
  refine ⟨d, n, hd, hn, by omega, ?_⟩
  congr 1
  unfold sliceSize
  simp only [Option.getD_some]
  have hs : start ≠ maxInt := by
    intro h
    have : maxInt > 0 := by decide
    have := h2 (by omega)
    omega
  rw [if_neg hs]
  by_cases h0 : start < 0
  · rw [if_pos h0, if_pos (h3 h0), if_neg (by omega), if_neg (by omega), if_neg (by omega), if_neg (by omega)]
    simp only [Int.fdiv_one]
    omega
  · have := h2 (by omega)
    simp only [if_neg h0, if_neg (show ¬ start + length < 0 by omega),
      if_neg (show ¬ start > (n : Int) by omega), Int.fdiv_one]
    split
    · omega
    · split <;> omega

example : narrow [4, 9] (-1) 2 3 = .ok [4, 3] := by decide +kernel

/-- `narrow` of the last elements from a negative start is computed empty, and a range beyond the end is
accepted. -/
theorem C32_narrow_violated : narrow [3] 0 (-1) 1 = .ok [0] ∧ narrow [3] 0 2 5 = .ok [1] := by
  refine ⟨?_, ?_⟩ <;> decide +kernel

end Verif
