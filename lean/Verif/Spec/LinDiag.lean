import Verif.Spec.Linalg
import Verif.Model.LinDiag
import Verif.Spec.DimOps

/-! # Diagonals and windows of tensors -/

namespace Verif.Lin

/-- Everything but the positions `d1`, `d2`, in order. -/
def others (d1 d2 : Nat) (l : List Int) : List Int := ((l.zipIdx.filter fun p => decide (p.2 ≠ d1 ∧ p.2 ≠ d2)).map (·.1))

/-- `t` is the diagonal of `x`: the elements at which the index of `d2` is `offset` larger than that of `d1`, in order, along the last
dimension. -/
def IsDiagonalOf {E : Type} (t x : Tensor E) (offset : Int) (d1 d2 : Nat) : Prop :=
  t.sizes = others d1 d2 x.sizes ++ [(Shape.countBelow (x.sizes.getD d1 0).toNat
    (fun i => decide (0 ≤ (i : Int) + offset ∧ (i : Int) + offset < x.sizes.getD d2 0)) : Int)] ∧
  (∀ j, inRange x.sizes j = true → j.getD d2 0 - j.getD d1 0 = offset →
    inRange t.sizes (others d1 d2 j ++ [min (j.getD d1 0) (j.getD d2 0)]) = true ∧
    t.elem (others d1 d2 j ++ [min (j.getD d1 0) (j.getD d2 0)]) = x.elem j) ∧
  (∀ idx, inRange t.sizes idx = true → ∃ j, inRange x.sizes j = true ∧ j.getD d2 0 - j.getD d1 0 = offset ∧
    idx = others d1 d2 j ++ [min (j.getD d1 0) (j.getD d2 0)])

/-- `t` has `x` on a diagonal, and `zero` elsewhere. -/
def IsDiagEmbedOf {E : Type} (zero : E) (t x : Tensor E) (offset : Int) (d1 d2 : Nat) : Prop :=
  others d1 d2 t.sizes = x.sizes.dropLast ∧ t.sizes.length = x.sizes.length + 1 ∧
  (∀ d, d = d1 ∨ d = d2 → t.sizes.getD d 0 = x.sizes.getD (x.sizes.length - 1) 0 + offset.natAbs) ∧
  ∀ j, inRange t.sizes j = true →
    t.elem j = if j.getD d2 0 - j.getD d1 0 = offset then x.elem (others d1 d2 j ++ [min (j.getD d1 0) (j.getD d2 0)]) else some zero

/-- `t` has the windows of dimension `d` of `x`: `size` positions each, beginning at the multiples of `step`, as many as there are. -/
def IsUnfoldOf {E : Type} (t x : Tensor E) (d n size step : Nat) : Prop :=
  t.sizes = x.sizes.set d (Shape.windows n size step) ++ [(size : Int)] ∧
  ∀ idx k, inRange t.sizes (idx ++ [k]) = true → t.elem (idx ++ [k]) = x.elem (idx.set d (idx.getD d 0 * step + k))

end Verif.Lin
