import Verif.Spec.DimOps

/-! # Windows of poolings and convolutions (for C34, C35) -/

namespace Verif.Shape

/-- The parameters of a pooling or convolution in one dimension. -/
structure Window where
  kernel : Nat
  stride : Nat
  padding : Nat
  dilation : Nat
  deriving DecidableEq, Repr

/-- The number of positions a window covers. -/
def Window.span (w : Window) : Nat := w.dilation * (w.kernel - 1) + 1

/-- The number of places of a window in a dimension of size `n`, padded on both sides.  Places are at
multiples of the stride.  Without `ceil` the whole window lies in the padded dimension.  With `ceil` a
window may stick out when the window before it does not reach the end of the padded dimension, but it
must not start in the padding on the right. -/
def Window.places (w : Window) (n : Nat) (ceil : Bool) : Nat :=
  if ceil then countBelow (n + w.padding)
    (fun s => decide (w.stride ∣ s ∧ s + w.span < n + 2 * w.padding + w.stride))
  else windows (n + 2 * w.padding) w.span w.stride

/-- A parameter list gives one value for every dimension, or one value for all. -/
def PerDim (l : List Int) (values : List Nat) : Prop :=
  l = values.map (Int.ofNat ·) ∨ ∃ a : Nat, l = [(a : Int)] ∧ ∀ v ∈ values, v = a

/-- The parameters torch accepts for a pooling: everything positive, and the padding at most half the
kernel. -/
def Window.Pool (w : Window) : Prop :=
  0 < w.kernel ∧ 0 < w.stride ∧ 0 < w.dilation ∧ 2 * w.padding ≤ w.kernel

/-- The parameter lists describe the windows, one for each dimension; an omitted stride is the kernel. -/
structure PoolArgs (ws : List Window) (kernel stride padding dilation : List Int) : Prop where
  kernel : PerDim kernel (ws.map (·.kernel))
  stride : PerDim stride (ws.map (·.stride)) ∨ (stride = [] ∧ ∀ w ∈ ws, w.stride = w.kernel)
  padding : PerDim padding (ws.map (·.padding))
  dilation : PerDim dilation (ws.map (·.dilation))

/-- `out` is the size from which a convolution makes `n` places, the smallest such size plus `extra`. -/
def Window.Undoes (w : Window) (n extra : Nat) (out : Nat) : Prop :=
  ∃ m, w.places m false = n ∧ (∀ m', w.places m' false = n → m ≤ m') ∧ out = m + extra

end Verif.Shape
