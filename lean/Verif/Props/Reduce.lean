import Verif.Lemmas.Reduce

/-!
# C39: reductions remove or flatten exactly the named dimensions

The shape computed for a dimension reduction drops (or sets to one with keepdim) exactly the dimensions
named, counting negative ones from the end; no dimension list means all.
-/

namespace Verif

open Shape

/-- `sum_mean_dim` (sum, mean, var, std, amax, …) of a tensor with at least one dimension. -/
theorem C39_sum_mean (self : List Int) (dims : Option (List Int)) (keepdim : Bool) (c : List Int)
    (hr : 0 < self.length) :
    sumMeanDim self dims keepdim = .ok c ↔
      ∃ D, NamesDims self.length dims D ∧ Reduced self D keepdim c :=
  sumMeanDim_iff self dims keepdim c hr

/-- `argmax`/`argmin`/`aminmax` (the patched function) without a dimension, for any rank. -/
theorem C39_argmax_all (self : List Int) (keepdim : Bool) (c : List Int) :
    patchedArgmax self none keepdim = .ok c ↔ Reduced self (List.range self.length) keepdim c :=
  patchedArgmax_none self keepdim c

/-- With one dimension (`argmax`, `max.dim`, `any.dim`, `kthvalue`, …), for any rank. -/
theorem C39_one_dim (self : List Int) (d : Int) (keepdim : Bool) (c : List Int) :
    (argmax self (some d) keepdim = .ok c ↔ ∃ k, IsDim self.length d k ∧ Reduced self [k] keepdim c) ∧
    patchedArgmax self (some d) keepdim = argmax self (some d) keepdim :=
  ⟨argmax_iff self d keepdim c, patchedArgmax_some self d keepdim⟩

/-- Every reduction of the library, on a tensor with at least one dimension and with an argument its
signature allows. -/
theorem C39_ops (op : String) (line : Nat) (body : ReduceBody) (_ : (op, line, body) ∈ reduceOps)
    (self : List Int) (dim : DimArg) (keepdim : Bool) (r : Py (List Int)) (hr : 0 < self.length)
    (h : reduceShape body self dim keepdim = some r) (c : List Int) :
    r = .ok c ↔ ∃ D, ArgNames self.length dim D ∧ Reduced self D keepdim c :=
  reduceShape_iff body self dim keepdim r hr h c

/-- On a tensor without dimensions the dimension list is not checked: it always gives rank zero. -/
theorem C39_rank_zero_partial (dims : Option (List Int)) (keepdim : Bool) :
    sumMeanDim [] dims keepdim = .ok [] := by
  unfold sumMeanDim
  rfl

/-- So a dimension that does not exist is accepted. -/
theorem C39_rank_zero_violated : sumMeanDim [] (some [7]) false = .ok [] ∧ ¬ ∃ D, NamesDims 0 (some [7]) D := by
  refine ⟨rfl, ?_⟩
  rintro ⟨D, h⟩
  unfold NamesDims at h
  simp only [reduceCtorEq, Option.some.injEq, List.cons_ne_nil, or_self, if_false, Option.getD_some] at h
  match D, h with
  | [], h => exact absurd h.1 (by simp)
  | k :: _, h =>
    have := h.2 0 (by simp) (by simp)
    unfold IsDim at this
    simp at this
    omega

/-- `count_nonzero` refuses dimension 0 of a tensor without dimensions, which other reductions accept. -/
theorem C39_count_nonzero_violated : countNonzero [] (some 0) = .error .assertion ∧
    argmax [] (some 0) false = .ok [] := by
  refine ⟨?_, ?_⟩ <;> decide +kernel

/-- Otherwise it is a reduction. -/
theorem C39_count_nonzero_partial (self : List Int) (d : Int) (hr : 0 < self.length) (c : List Int) :
    (countNonzero self (some d) = .ok c ↔ ∃ D, ArgNames self.length (.one d) D ∧ Reduced self D false c) ∧
    (countNonzero self none = .ok c ↔ ∃ D, ArgNames self.length .none D ∧ Reduced self D false c) := by
  constructor
  · rw [← argmax_names]
    unfold countNonzero
    simp only []
    split
    · rename_i h
      simp only [reduceCtorEq, false_iff]
      rw [argmax_iff]
      rintro ⟨k, hk, _⟩
      unfold IsDim at hk
      omega
    · rfl
  · simp only [ArgNames, exists_eq_left, reduced_all]
    simp [countNonzero, eq_comm]

/-- Dimensions 0 and -1 of [2,3,4]. -/
example : sumMeanDim [2, 3, 4] (some [0, -1]) false = .ok [3] ∧
    sumMeanDim [2, 3, 4] (some [0, -1]) true = .ok [1, 3, 1] ∧ sumMeanDim [2, 3, 4] none true = .ok [1, 1, 1] ∧
    sumMeanDim [2, 3, 4] (some [3]) true = .error .assertion ∧
    patchedArgmax [2, 3, 4] none true = .ok [1, 1, 1] ∧ argmax [2, 3, 4] (some (-2)) false = .ok [2, 4] := by
  refine ⟨?_, ?_, ?_, ?_, ?_, ?_⟩ <;> decide +kernel

end Verif
