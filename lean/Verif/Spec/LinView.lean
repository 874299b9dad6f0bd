import Verif.Spec.LinBroadcast
import Verif.Model.LinView

/-! # Views of tensors -/

namespace Verif.Lin

/-- The number of the element at an index, counted in row-major order. -/
def position : List Int → List Int → Int
  | _ :: ns, i :: is => i * ns.prod + position ns is
  | _, _ => 0

/-- `t` has as many elements as `x`, and the same in row-major order. -/
def IsReshapeOf {E : Type} (t x : Tensor E) : Prop :=
  t.sizes.prod = x.sizes.prod ∧ (∀ n ∈ t.sizes, 0 ≤ n) ∧
  (∀ i, inRange t.sizes i = true → ∃ j, inRange x.sizes j = true ∧ position x.sizes j = position t.sizes i) ∧
  ∀ i j, inRange t.sizes i = true → inRange x.sizes j = true → position t.sizes i = position x.sizes j → t.elem i = x.elem j

/-- `target` is the sizes asked for, with -1 replaced by some size. -/
def Fills (size target : List Int) : Prop := List.Forall₂ (fun s n => s = n ∨ s = -1) size target ∧ size.count (-1) ≤ 1

/-- A size given as a number. -/
def ViewSize.isNumber : ViewSize → Bool
  | .const n => decide (n ≠ -1)
  | _ => false

/-- The sizes given as numbers. -/
def numbers (size : List ViewSize) : List Int :=
  size.filterMap fun s => match s with
    | .const n => if n = -1 then none else some n
    | _ => none

/-- The sizes known from a type. -/
def knownSizes (ty : List (Option Int)) : List Int := ty.filterMap id

/-- No size is given as the size of a dimension of the input. -/
def NoSizeOf (size : List ViewSize) : Prop := ∀ s ∈ size, ∀ d, s ≠ .sizeOf d

end Verif.Lin
