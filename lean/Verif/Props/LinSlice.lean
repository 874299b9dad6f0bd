import Verif.Lemmas.Linalg

/-!
# C84: slices in the linalg backend
-/

namespace Verif

open Lin

variable {E : Type}

/-- The lowering of `aten.slice.Tensor` with a positive step gives the positions `start:end:step` of the dimension, whatever
the bounds (negative, out of range, absent), and reads nothing outside of the tensor.  What is missing: steps so large that the
size of the result overflows (`C84_violated_step`). -/
theorem C84_slice_partial (x : Tensor E) (hx : x.Ok) (dim : Int) (d n : Nat) (hd : d < x.sizes.length)
    (hdim : dim = d ∨ dim = (d : Int) - x.sizes.length) (hn : x.sizes.getD d 0 = n) (start end_ : Option Int) (const : Bool) (step : Int)
    (h1 : ∀ v, start = some v → Fold.Fits v) (h2 : ∀ v, end_ = some v → Fold.Fits v) (hs : 0 < step) (hfit : step + n ≤ Fold.maxI64) :
    ∃ t, lowerSlice x dim start end_ const step = some t ∧ t.Ok ∧ Same t (keep x d (FoldSlice.picked n start end_ step)) := by
  have hlt : ∀ p ∈ FoldSlice.picked n start end_ step, p < n := fun p hp => FoldSlice.picked_lt hp
  have hb := start_bounds start n h1 (by omega)
  have he := end_bounds end_ const n h2 (by omega)
  have hb' : 0 ≤ toPositiveValidDim start 0 (n : Int) ∧ toPositiveValidDim start 0 (n : Int) ≤ n := by
    rw [hb]
    cases start with
    | none => simp
    | some v => simp only [Option.elim, Shape.position]; omega
  have he' : -1 ≤ sliceEnd end_ const (n : Int) ∧ sliceEnd end_ const (n : Int) ≤ n := by
    rw [he]
    cases end_ with
    | none => simp only [Option.elim]; omega
    | some v => simp only [Option.elim]; omega
  obtain ⟨c, hc, hps⟩ := sliceSize_up hs hfit hb' he'
  rw [← picked_up_eq n start end_ const hs (by omega) h1 h2] at hps
  have main := slice_elem x d hd _ _ step n c _ hn hc hps hlt
  refine ⟨_, ?_, ok_of_same main (keep_ok hx hd hn hlt), main⟩
  unfold lowerSlice
  rw [prepare_eq hd hdim]
  simp only [hn]
  rw [getD_set_self (by simpa using hd), getD_set_self (by simpa using hd)]

/-- The same with a negative step: the positions from `start` down to `end`, exclusive.  What is missing: a start at or past the
end of the dimension (`C84_violated_start`), absent bounds (`C84_violated_default`), huge steps. -/
theorem C84_slice_down_partial (x : Tensor E) (hx : x.Ok) (dim : Int) (d n : Nat) (hd : d < x.sizes.length)
    (hdim : dim = d ∨ dim = (d : Int) - x.sizes.length) (hn : x.sizes.getD d 0 = n) (start end_ : Int) (const : Bool) (step : Int)
    (h1 : Fold.Fits start) (h2 : Fold.Fits end_) (hstart : start < n) (h0 : 0 < n) (hs : step < 0) (hfit : -step + n < Fold.maxI64) :
    ∃ t, lowerSlice x dim (some start) (some end_) const step = some t ∧ t.Ok ∧
      Same t (keep x d (FoldSlice.picked n (some start) (some end_) step)) := by
  have hlt : ∀ p ∈ FoldSlice.picked n (some start) (some end_) step, p < n := fun p hp => FoldSlice.picked_lt hp
  have hb := start_bounds (some start) n (by rintro v ⟨⟩; exact h1) (by omega)
  have he := end_bounds (some end_) const n (by rintro v ⟨⟩; exact h2) (by omega)
  have hb' : 0 ≤ toPositiveValidDim (some start) 0 (n : Int) ∧ toPositiveValidDim (some start) 0 (n : Int) < n := by
    rw [hb]
    simp only [Option.elim, Shape.position]
    split <;> omega
  have he' : -1 ≤ sliceEnd (some end_) const (n : Int) ∧ sliceEnd (some end_) const (n : Int) ≤ n := by
    rw [he]
    simp only [Option.elim]
    omega
  obtain ⟨c, hc, hps⟩ := sliceSize_down hs hfit hb' he'
  rw [← picked_down_eq n start end_ const hs (by omega) h1 h2 hstart h0] at hps
  have main := slice_elem x d hd _ _ step n c _ hn hc hps hlt
  refine ⟨_, ?_, ok_of_same main (keep_ok hx hd hn hlt), main⟩
  unfold lowerSlice
  rw [prepare_eq hd hdim]
  simp only [hn]
  rw [getD_set_self (by simpa using hd), getD_set_self (by simpa using hd)]

/-- The lowering of `aten.slice_scatter` replaces the positions `start:end:step` by those of the source, in order, and nothing else. -/
theorem C84_scatter_partial (x src : Tensor E) (hx : x.Ok) (hsrc : src.Ok) (dim : Int) (d n : Nat) (hd : d < x.sizes.length)
    (hdim : dim = d ∨ dim = (d : Int) - x.sizes.length) (hn : x.sizes.getD d 0 = n) (start end_ : Option Int) (const : Bool) (step : Int)
    (h1 : ∀ v, start = some v → Fold.Fits v) (h2 : ∀ v, end_ = some v → Fold.Fits v) (hs : 0 < step) (hfit : step + n ≤ Fold.maxI64)
    (hsizes : src.sizes = x.sizes.set d ((FoldSlice.picked n start end_ step).length : Int)) :
    ∃ t, lowerSliceScatter x src dim start end_ const step = some t ∧ t.Ok ∧
      Same t (replace x src d (FoldSlice.picked n start end_ step)) := by
  have hb := start_bounds start n h1 (by omega)
  have he := end_bounds end_ const n h2 (by omega)
  have hb' : 0 ≤ toPositiveValidDim start 0 (n : Int) ∧ toPositiveValidDim start 0 (n : Int) ≤ n := by
    rw [hb]
    cases start with
    | none => simp
    | some v => simp only [Option.elim, Shape.position]; omega
  have he' : -1 ≤ sliceEnd end_ const (n : Int) ∧ sliceEnd end_ const (n : Int) ≤ n := by
    rw [he]
    cases end_ with
    | none => simp only [Option.elim]; omega
    | some v => simp only [Option.elim]; omega
  obtain ⟨c, hc, hps⟩ := sliceSize_up hs hfit hb' he'
  have hpk := picked_up_eq n start end_ const hs (by omega) h1 h2
  rw [← hpk] at hps
  have hnd : (FoldSlice.picked n start end_ step).Nodup := by rw [hpk]; exact List.nodup_range.filter _
  have main := scatter_elem x src d hd _ _ step n c _ hn hc hps hs hnd hsizes
  refine ⟨_, ?_, ok_of_same main (replace_ok hx hsrc hd hsizes), main⟩
  unfold lowerSliceScatter
  rw [prepare_eq hd hdim, hn]

/-- A dimension that is not one of the tensor's is turned down. -/
theorem C84_rejects (x : Tensor E) (dim : Int) (start end_ : Option Int) (const : Bool) (step : Int)
    (h : dim < -(x.sizes.length : Int) ∨ (x.sizes.length : Int) ≤ dim) : lowerSlice x dim start end_ const step = none := by
  have hv : Tm.validDim (Tm.positiveDim dim x.sizes.length) x.sizes.length = false := by
    unfold Tm.validDim Tm.positiveDim
    simp only [decide_eq_false_iff_not]
    split <;> omega
  unfold lowerSlice prepareSlicing
  simp only [hv, Bool.not_false, if_true]

namespace Test84

/-- The tensor with the given sizes whose elements are their indices. -/
def iota (sizes : List Int) : Tensor (List Int) := ⟨sizes, fun idx => some idx⟩

theorem iota_ok {sizes : List Int} (h : ∀ n ∈ sizes, 0 ≤ n) : (iota sizes).Ok := ⟨h, fun idx _ => ⟨idx, rfl⟩⟩

example : FoldSlice.picked 7 (some (-6)) (some 100) 2 = [1, 3, 5] := by decide
example : ∃ t, lowerSlice (iota [2, 7]) (-1) (some (-6)) (some 100) true 2 = some t ∧ t.Ok ∧
    Same t (keep (iota [2, 7]) 1 [1, 3, 5]) :=
  C84_slice_partial (iota [2, 7]) (iota_ok (by decide)) (-1) 1 7 (by decide) (by decide) rfl (some (-6)) (some 100) true 2
    (by rintro v ⟨⟩; unfold Fold.Fits; decide) (by rintro v ⟨⟩; unfold Fold.Fits; decide) (by decide) (by decide)
example : (lowerSlice (iota [2, 7]) (-1) (some (-6)) (some 100) true 2).map (fun t => (t.sizes, t.elem [1, 2])) =
    some ([2, 3], some [1, 5]) := by decide
example : (lowerSlice (iota [7]) 0 (some 5) (some (-100)) false (-2)).map (fun t => (t.sizes, t.elem [0], t.elem [2])) =
    some ([3], some [5], some [1]) := by decide
example : (lowerSliceScatter (iota [7]) ⟨[3], fun idx => some (9 :: idx)⟩ 0 (some 1) none false 2).map (fun t => (t.sizes, t.elem [2], t.elem [5])) =
    some ([7], some [2], some [9, 2]) := by decide

end Test84

open Test84

/-- A start past the end with a negative step (all of the tensor, reversed): one element too many, and the first of them is read
from outside of the tensor. -/
theorem C84_violated_start : FoldSlice.picked 3 (some 5) (some (-4)) (-1) = [2, 1, 0] ∧
    (lowerSlice (iota [3]) 0 (some 5) (some (-4)) true (-1)).map (fun t => (t.sizes, t.elem [0])) = some ([4], none) := by
  refine ⟨?_, ?_⟩ <;> decide +kernel

/-- The reverse of an empty tensor has an element. -/
theorem C84_violated_empty : FoldSlice.picked 0 (some (-1)) (some (-1)) (-1) = [] ∧
    (lowerSlice (iota [0]) 0 (some (-1)) (some (-1)) true (-1)).map (fun t => (t.sizes, t.elem [0])) = some ([1], none) := by
  refine ⟨?_, ?_⟩ <;> decide +kernel

/-- Absent bounds are those of a positive step. -/
theorem C84_violated_default : FoldSlice.picked 3 none none (-1) = [2, 1, 0] ∧
    (lowerSlice (iota [3]) 0 none none true (-1)).map (fun t => t.sizes) = some [0] := by
  refine ⟨?_, ?_⟩ <;> decide +kernel

/-- The largest step there is: the size of the result overflows, and the only element is lost. -/
theorem C84_violated_step : FoldSlice.picked 2 (some 0) (some 2) Fold.maxI64 = [0] ∧
    (lowerSlice (iota [2]) 0 (some 0) (some 2) true Fold.maxI64).map (fun t => t.sizes) = some [0] := by
  refine ⟨?_, ?_⟩ <;> decide +kernel

end Verif
