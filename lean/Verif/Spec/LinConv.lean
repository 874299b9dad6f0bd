import Verif.Model.LinConv
import Verif.Spec.LinPool
import Verif.Spec.LinBroadcast

/-! # Convolutions -/

namespace Verif.Conv

open Lin

variable {A B C R : Type}

/-- The sum over the numbers below `n`. -/
def sumTo [AddCommMonoid C] (n : Int) (f : Int → C) : C := ((List.range n.toNat).map fun (i : Nat) => f i).sum

/-- The sum over the indices of the given sizes. -/
def sumOver [AddCommMonoid C] : List Int → (List Int → C) → C
  | [], f => f []
  | k :: ks, f => sumTo k fun i => sumOver ks fun r => f (i :: r)

/-- Where the kernel with its first element at place `o` has the element `k`. -/
def reach : List Axis → List Int → List Int → List Int
  | a :: as, o :: os, k :: ks => (o * a.stride - a.padding + k * a.dilation) :: reach as os ks
  | _, _, _ => []

/-- The parameters torch accepts. -/
def Good (transposed : Bool) : List Int → List Int → List Axis → Prop
  | n :: ns, k :: ks, a :: as => (0 < k ∧ 0 < a.stride ∧ 0 < a.dilation ∧ 0 ≤ a.padding ∧
      (if transposed then 0 < n ∧ 0 ≤ a.outPad ∧ 2 * a.padding ≤ (n - 1) * a.stride + a.dilation * (k - 1) + a.outPad ∧
        (n - 1) * a.stride + 2 * (a.dilation * (k - 1)) + a.outPad + 1 < 2 ^ 63 else 0 ≤ n ∧ a.dilation * (k - 1) < n + 2 * a.padding)) ∧ Good transposed ns ks as
  | [], [], [] => True
  | _, _, _ => False

/-- There is a result for each place at which the kernel lies in the padded input. -/
def Places : List Int → List Int → List Axis → List Int → Prop
  | n :: ns, k :: ks, a :: as, m :: ms => (∀ o, 0 ≤ o → (o < m ↔ o * a.stride + a.dilation * (k - 1) < n + 2 * a.padding)) ∧ 0 ≤ m ∧ Places ns ks as ms
  | [], [], [], [] => True
  | _, _, _, _ => False

/-- The sizes of a transposed convolution: from the first place the kernel at an input reaches to the last, less the padding on both sides, and the output padding. -/
def TransposedPlaces : List Int → List Int → List Axis → List Int → Prop
  | n :: ns, k :: ks, a :: as, m :: ms => m = (n - 1) * a.stride + a.dilation * (k - 1) + 1 - 2 * a.padding + a.outPad ∧ TransposedPlaces ns ks as ms
  | [], [], [], [] => True
  | _, _, _, _ => False

/-- The bias of channel `f`. -/
def HasBias [Zero C] (bias : Option (Tensor C)) (f : Int) (vb : Int → C) : Prop :=
  match bias with
  | some b => b.sizes = [f] ∧ ∀ i, 0 ≤ i → i < f → b.elem [i] = some (vb i)
  | none => ∀ i, vb i = 0

/-- `t` is the convolution of inputs `vx` of sizes `n`, `g * c` and `ns` with weights `vw` of sizes `g * f`, `c` and `ks`, in `g` groups of channels. -/
def IsConv [CommSemiring C] (ar : Arith A B C R) (t : Tensor R) (g n c f : Int) (ns ks outs : List Int) (as : List Axis) (vx : List Int → A) (vw : List Int → B)
    (vb : Int → C) : Prop :=
  t.sizes = n :: g * f :: outs ∧ ∀ b q j o, 0 ≤ b → b < n → 0 ≤ q → q < g → 0 ≤ j → j < f → inRange outs o = true →
    t.elem (b :: (q * f + j) :: o) = some (ar.finish (vb (q * f + j) + sumTo c fun l => sumOver ks fun k =>
      if inRange ns (reach as o k) then ar.liftX (vx (b :: (q * c + l) :: reach as o k)) * ar.liftW (vw ((q * f + j) :: l :: k)) else 0))

/-- `t` is the transposed convolution of inputs `vx` of sizes `n`, `g * c` and `ns` with weights `vw` of sizes `g * c`, `f` and `ks`: each input is put wherever the kernel
at it reaches. -/
def IsTransposedConv [CommSemiring C] (ar : Arith A B C R) (t : Tensor R) (g n c f : Int) (ns ks outs : List Int) (as : List Axis) (vx : List Int → A) (vw : List Int → B)
    (vb : Int → C) : Prop :=
  t.sizes = n :: g * f :: outs ∧ ∀ b q j o, 0 ≤ b → b < n → 0 ≤ q → q < g → 0 ≤ j → j < f → inRange outs o = true →
    t.elem (b :: (q * f + j) :: o) = some (ar.finish (vb (q * f + j) + sumTo c fun l => sumOver ks fun k => sumOver ns fun i =>
      if reach as i k = o then ar.liftX (vx (b :: (q * c + l) :: i)) * ar.liftW (vw ((q * c + l) :: j :: k)) else 0))

/-- No dimension is cropped that is not known to be, and none that has output padding for which there is no place. -/
def Cropped : List Int → List Axis → Prop
  | k :: ks, a :: as => (a.dilation * (k - 1) < a.padding → a.known = true ∧ a.outPad ≤ a.padding - a.dilation * (k - 1)) ∧ Cropped ks as
  | _, _ => True

/-- What is lowered: quantized elements in one dimension only with groups; groups in three dimensions only for floating point, and not if each channel is known to be a group
(`alone`); a transposed convolution not if each channel is known to be a group. -/
def Supported (kind : Mat.Kind) (dims : Nat) (g : Int) (transposed : Bool) (alone : Prop) : Prop :=
  (g = 1 → kind = .quantized → dims ≠ 1) ∧ (g ≠ 1 → (dims = 3 → kind = .float ∧ ¬ alone) ∧ (transposed = true → ¬ alone))

/-- Each channel of the input is known to be a group, and has one channel of the result. -/
def Alone (g : Int) (transposed : Bool) (xTy wTy : List (Option Int)) : Prop :=
  xTy[1]? = some (some g) ∧ (transposed = false → wTy[0]? = some (some g)) ∧ wTy[1]? = some (some 1)

/-- `m` says for each of `dims` dimensions what `l` does, if a single number stands for all of them. -/
def Means (dims : Nat) (l m : List Int) : Prop := m.length = dims ∧ ∀ d, d < dims → m[d]? = if l.length = 1 then l[0]? else l[d]?

/-- A number for all dimensions or one for each. -/
def Complete (dims : Nat) (l : List Int) : Prop := l.length = 1 ∨ l.length = dims

end Verif.Conv
