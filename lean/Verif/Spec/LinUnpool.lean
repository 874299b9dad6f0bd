import Verif.Model.LinUnpool
import Verif.Spec.LinPool
import Verif.Spec.LinPerm
import Verif.Spec.LinBroadcast

/-! # Unpoolings -/

namespace Verif.Unpool

open Lin

variable {E : Type}

/-- The unpooling of `vx`: each of its elements stands at the place with the number that `vi` says, counted in row-major order; all other places hold zero. -/
def IsUnpool (t : Tensor E) (lead ins outs : List Int) (vx : List Int → E) (vi : List Int → Int) (zero : E) : Prop :=
  t.sizes = lead ++ outs ∧ ∀ b o, inRange lead b = true → inRange outs o = true →
    (∀ p, inRange ins p = true → vi (b ++ p) = position outs o → t.elem (b ++ o) = some (vx (b ++ p))) ∧
    ((∀ p, inRange ins p = true → vi (b ++ p) ≠ position outs o) → t.elem (b ++ o) = some zero)

/-- Place `o` of the result lies among the `stride` places that begin with window `p`, in every dimension. -/
def Within : List Win → List Int → List Int → Prop
  | w :: ws, p :: ps, o :: os => (p * w.stride ≤ o + w.padding ∧ o + w.padding < (p + 1) * w.stride) ∧ Within ws ps os
  | [], [], [] => True
  | _, _, _ => False

/-- Each index is that of a place within the window it comes from. -/
def InWindows (ws : List Win) (lead ins outs : List Int) (vi : List Int → Int) : Prop :=
  ∀ b p, inRange lead b = true → inRange ins p = true → ∃ o, inRange outs o = true ∧ vi (b ++ p) = position outs o ∧ Within ws p o

/-- Strides and paddings torch accepts, for sizes that are not negative; the last window begins in the result. -/
def Good : List Win → List Int → List Int → Prop
  | w :: ws, n :: ins, out :: outs => (0 < w.stride ∧ 0 ≤ w.padding ∧ 0 ≤ n ∧ 0 ≤ out ∧ (n - 1) * w.stride < out + w.padding) ∧ Good ws ins outs
  | [], [], [] => True
  | _, _, _ => False

/-- The windows cover the result. -/
def Covers : List Win → List Int → List Int → Prop
  | w :: ws, n :: ins, out :: outs => out + 2 * w.padding ≤ n * w.stride ∧ Covers ws ins outs
  | _, _, _ => True

/-- The windows of a pooling, as far as an unpooling knows them, and no longer than the strides. -/
def Apart : List Win → List Pool.Axis → Prop
  | w :: ws, a :: as => (w.stride = a.stride ∧ w.padding = a.low ∧ 0 < a.dilation ∧ a.dilation * (a.kernel - 1) < a.stride) ∧ Apart ws as
  | [], [] => True
  | _, _ => False

/-- Each index is that of a place in a window of a pooling. -/
def Pooled (as : List Pool.Axis) (lead ins outs : List Int) (vi : List Int → Int) : Prop :=
  ∀ b p, inRange lead b = true → inRange ins p = true → ∃ o ∈ Pool.window outs as p, vi (b ++ p) = position outs o

end Verif.Unpool
