import Verif.Spec.LinView
import Verif.Spec.Reshape
import Verif.Model.LinSqueeze

/-! # Adding, removing and splitting dimensions -/

namespace Verif.Lin

/-- `c` is `sizes` with a dimension of size one more at `dim`. -/
def IsUnsqueeze (sizes : List Int) (dim : Int) (c : List Int) : Prop :=
  ∃ pre post, sizes = pre ++ post ∧ Shape.IsDim (sizes.length + 1) dim pre.length ∧ c = pre ++ 1 :: post

/-- `c` is `sizes` without the dimension `dim`, which is of size one. -/
def IsSqueeze (sizes : List Int) (dim : Int) (c : List Int) : Prop :=
  ∃ pre post, sizes = pre ++ 1 :: post ∧ Shape.IsDim sizes.length dim pre.length ∧ c = pre ++ post

/-- The sizes after `squeeze.dim`: without the dimension if it is of size one, unchanged otherwise. -/
def SqueezedDim (sizes : List Int) (dim : Int) (c : List Int) : Prop :=
  IsSqueeze sizes dim c ∨ ((¬∃ c, IsSqueeze sizes dim c) ∧ c = sizes)

/-- The sizes but those known to be one from the type. -/
def dropKnownOnes (ty : List (Option Int)) (sizes : List Int) : List Int :=
  ((ty.zip sizes).filter fun p => decide (p.1 ≠ some 1)).map (·.2)

end Verif.Lin
