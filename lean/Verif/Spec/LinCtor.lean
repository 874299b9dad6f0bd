import Verif.Model.LinCtor
import Verif.Spec.LinPool
import Verif.Spec.LinBroadcast

/-! # Padding and constructors of tensors -/

namespace Verif.Ctor

open Lin

variable {E : Type}

/-- The padding before dimension `d`: pairs are given from the last dimension on. -/
def before (rank : Nat) (pads : List Int) (d : Nat) : Int := pads.getD (2 * (rank - 1 - d)) 0

/-- The padding after dimension `d`. -/
def after (rank : Nat) (pads : List Int) (d : Nat) : Int := pads.getD (2 * (rank - 1 - d) + 1) 0

/-- The sizes of a tensor with padding. -/
def IsPaddedSize (sizes padded : List Int) (l r : Nat → Int) : Prop :=
  padded.length = sizes.length ∧ ∀ d, d < sizes.length → padded.getD d 0 = l d + sizes.getD d 0 + r d

/-- `t` is `x` surrounded by `v`. -/
def IsConstantPadOf (t x : Tensor E) (l r : Nat → Int) (v : E) : Prop :=
  IsPaddedSize x.sizes t.sizes l r ∧
  ∀ idx j, inRange t.sizes idx = true → j.length = x.sizes.length → (∀ d, d < x.sizes.length → j.getD d 0 = idx.getD d 0 - l d) →
    t.elem idx = if inRange x.sizes j then x.elem j else some v

/-- The nearest index of `n` positions. -/
def nearest (n i : Int) : Int := if i < 0 then 0 else if n ≤ i then n - 1 else i

/-- `t` is `x` surrounded by its nearest elements. -/
def IsReplicationPadOf (t x : Tensor E) (l r : Nat → Int) : Prop :=
  IsPaddedSize x.sizes t.sizes l r ∧
  ∀ idx j, inRange t.sizes idx = true → j.length = x.sizes.length →
    (∀ d, d < x.sizes.length → j.getD d 0 = nearest (x.sizes.getD d 0) (idx.getD d 0 - l d)) → t.elem idx = x.elem j

/-- A number is not at the end yet. -/
def Within (stop step v : Int) : Prop := if 0 < step then v < stop else stop < v

/-- `t` has the numbers from `start` to `stop`, without it, by `step`. -/
def IsRange {w : Nat} (t : Tensor (BitVec w)) (start stop step : Int) : Prop :=
  ∃ n : Int, 0 ≤ n ∧ t.sizes = [n] ∧ ∀ i : Int, 0 ≤ i → (i < n ↔ Within stop step (start + i * step)) ∧
    (i < n → t.elem [i] = some (BitVec.ofInt w (start + i * step)))

/-- A number of `w` bits with sign. -/
def FitsIn (w : Nat) (v : Int) : Prop := -2 ^ (w - 1) ≤ v ∧ v < 2 ^ (w - 1)

end Verif.Ctor
