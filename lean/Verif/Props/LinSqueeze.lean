import Verif.Lemmas.LinUnflatten
import Verif.Props.LinView

/-!
# C90: dimensions added, removed and split in the linalg backend
-/

namespace Verif

open Lin

variable {E : Type}

/-- The lowering of `aten.unsqueeze` adds a dimension of size one where it is asked for, whatever is known of the sizes. -/
theorem C90_unsqueeze (x : Operand E) (ht : x.Typed) (hx : ∀ n ∈ x.tensor.sizes, 0 ≤ n) (dim : Int) (c : List Int) (h : IsUnsqueeze x.tensor.sizes dim c) :
    ∃ t, lowerUnsqueeze x dim = .ok t ∧ t.sizes = c ∧ IsReshapeOf t x.tensor :=
  lowerUnsqueeze_spec ht hx h

/-- The lowering of `aten.squeeze.dim` removes the dimension, of size one, if its size is known, or if there is another and the size of the
one it is merged with, the one before or else the second, is not known either.  What is missing: `C90_violated_squeeze_dim_known`,
`C90_violated_squeeze_dim_scalar`. -/
theorem C90_squeeze_dim_partial (x : Operand E) (ht : x.Typed) (hx : ∀ n ∈ x.tensor.sizes, 0 ≤ n) (dim : Int) (pre post : List Int)
    (hs : x.tensor.sizes = pre ++ 1 :: post) (hd : Shape.IsDim x.tensor.sizes.length dim pre.length)
    (hc : x.type.getD pre.length none = some 1 ∨ 2 ≤ x.type.length ∧ x.type.getD (if pre.length = 0 then 1 else pre.length - 1) none = none) :
    ∃ t, lowerSqueezeDim x dim = .ok t ∧ t.sizes = pre ++ post ∧ IsReshapeOf t x.tensor :=
  lowerSqueezeDim_one ht hx hs hd hc

/-- It leaves a tensor alone if the dimension is known to be of another size.  What is missing: `C90_violated_squeeze_dim_aborts`. -/
theorem C90_squeeze_dim_other_partial (x : Operand E) (dim : Int) (d : Nat) (m : Int) (h1 : x.type[d]? = some (some m)) (hm : m ≠ 1)
    (hd : Shape.IsDim x.type.length dim d) : lowerSqueezeDim x dim = .ok x.tensor :=
  lowerSqueezeDim_other h1 hm hd

/-- Whatever it makes without failing has the elements of the input in the same order and the sizes PyTorch gives. -/
theorem C90_squeeze_dim_sound (x : Operand E) (ht : x.Typed) (hx : ∀ n ∈ x.tensor.sizes, 0 ≤ n) (dim : Int) (t : Tensor E) (h : lowerSqueezeDim x dim = .ok t) :
    IsReshapeOf t x.tensor ∧ SqueezedDim x.tensor.sizes dim t.sizes :=
  ⟨lowerSqueezeDim_sound hx ht h, lowerSqueezeDim_sizes ht h⟩

/-- With the type of the input without the sizes known to be one as that of the result, the lowering of `aten.squeeze` removes these
dimensions. -/
theorem C90_squeeze_known (x : Operand E) (ht : x.Typed) (hx : ∀ n ∈ x.tensor.sizes, 0 ≤ n) (h0 : x.type ≠ []) :
    ∃ t, lowerSqueeze x (x.type.filter fun v => decide (v ≠ some 1)) = .ok t ∧ t.sizes = dropKnownOnes x.type x.tensor.sizes ∧ IsReshapeOf t x.tensor :=
  lowerSqueeze_spec ht hx h0

/-- It removes all dimensions of size one if none of unknown size is.  What is missing: `C90_violated_squeeze`, `C90_violated_squeeze_scalar`,
`C90_violated_squeeze_wrong`;
scalars are left to the folder. -/
theorem C90_squeeze_partial (x : Operand E) (ht : x.Typed) (hx : ∀ n ∈ x.tensor.sizes, 0 ≤ n) (h0 : x.type ≠ [])
    (h1 : ∀ i : Nat, x.type[i]? = some none → x.tensor.sizes[i]? ≠ some 1) :
    ∃ t, lowerSqueeze x (x.type.filter fun v => decide (v ≠ some 1)) = .ok t ∧ t.sizes = x.tensor.sizes.filter (fun n => decide (n ≠ 1)) ∧ IsReshapeOf t x.tensor := by
  obtain ⟨t, e1, e2, e3⟩ := lowerSqueeze_spec ht hx h0
  exact ⟨t, e1, e2.trans (drop_filter ht h1), e3⟩

/-- Whatever the type of the result, it makes nothing but reshapes of that type.  (With a type less precise than the input allows, the sizes
can be wrong: `C90_violated_squeeze_wrong`.) -/
theorem C90_squeeze_sound (x : Operand E) (ht : x.Typed) (hx : ∀ n ∈ x.tensor.sizes, 0 ≤ n) (resTy : List (Option Int)) (hr : ∀ n, some n ∈ resTy → 0 ≤ n) (t : Tensor E)
    (h : lowerSqueeze x resTy = .ok t) : IsReshapeOf t x.tensor ∧ TypeOf resTy t.sizes :=
  ⟨lowerSqueeze_sound hx ht h, lowerSqueeze_typed ht hr h⟩

/-- The lowering of `aten.unflatten.int` views one dimension as several, if all sizes of the result are known; or at most one of the new
dimensions is of unknown size, exactly if the one split is, and the types agree on the others; or two of the new
dimensions are of unknown size and no size is to be inferred.  What is missing: `C90_violated_unflatten`, `C90_violated_unflatten_other`,
`C90_violated_unflatten_infer`, `C90_violated_unflatten_zero`. -/
theorem C90_unflatten_partial (x : Operand E) (ht : x.Typed) (hx : ∀ n ∈ x.tensor.sizes, 0 ≤ n) (dim : Int) (size pre post v : List Int) (n : Int)
    (A M B : List (Option Int)) (hs : x.tensor.sizes = pre ++ n :: post) (hd : Shape.IsDim x.tensor.sizes.length dim pre.length)
    (hv : Shape.IsView n size v) (hr : TypeOf (A ++ M ++ B) (pre ++ v ++ post)) (hA : A.length = pre.length) (hM : M.length = size.length)
    (hc : (∀ o ∈ A ++ M ++ B, o ≠ none) ∨ (∃ w, x.type = A ++ w :: B ∧ (w = none ↔ none ∈ M) ∧ M.count none ≤ 1 ∧ (none ∈ M → ∀ k ∈ v, 1 ≤ k)) ∨
      (2 ≤ M.count none ∧ v = size)) :
    ∃ t, lowerUnflatten x dim size (A ++ M ++ B) = .ok t ∧ t.sizes = pre ++ v ++ post ∧ IsReshapeOf t x.tensor :=
  lowerUnflatten_spec ht hx hs hd hv hr hA hM hc

/-- It makes nothing but reshapes. -/
theorem C90_unflatten_sound (x : Operand E) (ht : x.Typed) (hx : ∀ n ∈ x.tensor.sizes, 0 ≤ n) (dim : Int) (size : List Int) (resTy : List (Option Int)) (t : Tensor E)
    (hr : ∀ n, some n ∈ resTy → 0 ≤ n) (h : lowerUnflatten x dim size resTy = .ok t) : IsReshapeOf t x.tensor :=
  lowerUnflatten_sound hx ht hr h

/-! ## Violations -/

open Test89

/-- A dimension of unknown size one next to one of known size: the `collapse_shape` is invalid. -/
theorem C90_violated_squeeze_dim_known : (operand [1, 3] [none, some 3]).Typed ∧ IsSqueeze [1, 3] 0 [3] ∧
    see (lowerSqueezeDim (operand [1, 3] [none, some 3]) 0) = .bad := by
  refine ⟨typed (by decide +kernel), ⟨[], [3], rfl, by unfold Shape.IsDim; decide, rfl⟩, by decide +kernel⟩

/-- A vector of unknown size one. -/
theorem C90_violated_squeeze_dim_scalar : (operand [1] [none]).Typed ∧ IsSqueeze [1] 0 [] ∧ see (lowerSqueezeDim (operand [1] [none]) 0) = .bad := by
  refine ⟨typed (by decide +kernel), ⟨[], [], rfl, by unfold Shape.IsDim; decide, rfl⟩, by decide +kernel⟩

/-- A dimension of unknown size that is not one: the program aborts, where PyTorch leaves the tensor alone. -/
theorem C90_violated_squeeze_dim_aborts : (operand [2, 3] [none, some 3]).Typed ∧ see (lowerSqueezeDim (operand [2, 3] [none, some 3]) 0) = .aborts := by
  refine ⟨typed (by decide +kernel), by decide +kernel⟩

/-- `squeeze` of a dimension of unknown size one: with the result PyTorch has, the lowering fails or makes an invalid operation. -/
theorem C90_violated_squeeze : (operand [1, 3] [none, some 3]).Typed ∧ (operand [3, 1] [none, none]).Typed ∧
    see (lowerSqueeze (operand [1, 3] [none, some 3]) [some 3]) = .bad ∧ see (lowerSqueeze (operand [3, 1] [none, none]) [none]) = .unmatched := by
  refine ⟨typed (by decide +kernel), typed (by decide +kernel), by decide +kernel, by decide +kernel⟩

/-- A known size where the type of the result has an unknown one: dimensions are merged that are not of size one. -/
theorem C90_violated_squeeze_wrong : (operand [1, 3, 4] [none, some 3, none]).Typed ∧ TypeOf [none, none] (([1, 3, 4] : List Int).filter fun n => decide (n ≠ 1)) ∧
    see (lowerSqueeze (operand [1, 3, 4] [none, some 3, none]) [none, none]) = .ok [1, 12] (upTo 12) := by
  refine ⟨typed (by decide +kernel), typed (by decide +kernel), by decide +kernel⟩

theorem C90_violated_squeeze_scalar : (operand [1] [none]).Typed ∧ see (lowerSqueeze (operand [1] [none]) []) = .bad := by
  refine ⟨typed (by decide +kernel), by decide +kernel⟩

/-- A dimension of unknown size split into ones of known sizes, and another of unknown size: the `expand_shape` is invalid. -/
theorem C90_violated_unflatten : (operand [6, 4] [none, none]).Typed ∧ Shape.IsUnflatten [6, 4] 0 [2, 3] [2, 3, 4] ∧ TypeOf [some 2, some 3, none] [2, 3, 4] ∧
    see (lowerUnflatten (operand [6, 4] [none, none]) 0 [2, 3] [some 2, some 3, none]) = .bad := by
  refine ⟨typed (by decide +kernel), ⟨[], 6, [4], [2, 3], rfl, by unfold Shape.IsDim; decide, Or.inl ⟨by unfold Shape.NonNeg; decide, rfl, by decide⟩, rfl⟩, typed (by decide +kernel), by decide +kernel⟩

/-- More known of the other dimensions in the result than in the input. -/
theorem C90_violated_unflatten_other : (operand [6, 4] [none, none]).Typed ∧ Shape.IsUnflatten [6, 4] 0 [2, 3] [2, 3, 4] ∧ TypeOf [none, some 3, some 4] [2, 3, 4] ∧
    see (lowerUnflatten (operand [6, 4] [none, none]) 0 [2, 3] [none, some 3, some 4]) = .bad := by
  refine ⟨typed (by decide +kernel), ⟨[], 6, [4], [2, 3], rfl, by unfold Shape.IsDim; decide, Or.inl ⟨by unfold Shape.NonNeg; decide, rfl, by decide⟩, rfl⟩, typed (by decide +kernel), by decide +kernel⟩

/-- A size to be inferred, and two not known from the type: -1 itself is made a size. -/
theorem C90_violated_unflatten_infer : (operand [6] [none]).Typed ∧ Shape.IsUnflatten [6] 0 [2, -1] [2, 3] ∧ TypeOf [none, none] [2, 3] ∧
    see (lowerUnflatten (operand [6] [none]) 0 [2, -1] [none, none]) = .bad := by
  refine ⟨typed (by decide +kernel), ⟨[], 6, [], [2, 3], rfl, by unfold Shape.IsDim; decide, Or.inr ⟨[2], 3, [], rfl, by unfold Shape.NonNeg; decide, by unfold Shape.NonNeg; decide, rfl, by decide, by decide⟩, rfl⟩, typed (by decide +kernel), by decide +kernel⟩

/-- A size of zero beside the unknown one: the unknown one is computed by a division by zero. -/
theorem C90_violated_unflatten_zero : (operand [0] [none]).Typed ∧ Shape.IsUnflatten [0] 0 [3, 0] [3, 0] ∧ TypeOf [none, some 0] [3, 0] ∧
    ∀ e, see (lowerUnflatten (operand [0] [none]) 0 [3, 0] [none, some 0]) ≠ .ok [3, 0] e := by
  refine ⟨typed (by decide +kernel), ⟨[], 0, [], [3, 0], rfl, by unfold Shape.IsDim; decide, Or.inl ⟨by unfold Shape.NonNeg; decide, rfl, by decide⟩, rfl⟩, typed (by decide +kernel), ?_⟩
  intro e
  have : see (lowerUnflatten (operand [0] [none]) 0 [3, 0] [none, some 0]) = .ok [0, 0] [] := by decide +kernel
  rw [this]
  simp

/-! ## Examples -/

namespace Test90

example : see (lowerUnsqueeze (operand [2, 3] [some 2, none]) 1) = .ok [2, 1, 3] (upTo 6) := by decide +kernel
example : see (lowerUnsqueeze (operand [2, 3] [none, none]) (-1)) = .ok [2, 3, 1] (upTo 6) := by decide +kernel
example : see (lowerUnsqueeze (operand [] []) 0) = .ok [1] (upTo 1) := by decide +kernel
example : see (lowerSqueezeDim (operand [2, 1, 3] [none, some 1, some 3]) (-2)) = .ok [2, 3] (upTo 6) := by decide +kernel
example : see (lowerSqueezeDim (operand [2, 1, 3] [none, none, some 3]) 1) = .ok [2, 3] (upTo 6) := by decide +kernel
example : see (lowerSqueeze (operand [1, 2, 1, 3, 1] [some 1, none, some 1, some 3, some 1]) [none, some 3]) = .ok [2, 3] (upTo 6) := by decide +kernel
example : see (lowerSqueeze (operand [1, 1] [some 1, some 1]) []) = .ok [] (upTo 1) := by decide +kernel
example : see (lowerUnflatten (operand [2, 6] [none, some 6]) 1 [3, 2] [none, some 3, some 2]) = .ok [2, 3, 2] (upTo 12) := by decide +kernel
example : see (lowerUnflatten (operand [2, 6] [none, none]) 1 [3, -1] [none, some 3, none]) = .ok [2, 3, 2] (upTo 12) := by decide +kernel
example : see (lowerUnflatten (operand [2, 6] [none, none]) 1 [3, 2] [none, none, none]) = .ok [2, 3, 2] (upTo 12) := by decide +kernel
example : see (lowerUnflatten (operand [2, 6] [none, none]) (-1) [3, 2] [some 2, some 3, some 2]) = .ok [2, 3, 2] (upTo 12) := by decide +kernel

end Test90

end Verif
