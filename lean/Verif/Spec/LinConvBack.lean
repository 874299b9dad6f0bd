import Verif.Model.LinConvBack
import Verif.Spec.LinConv

/-! # Gradients of convolutions -/

namespace Verif.Conv

open Lin

variable {E C R : Type}

/-- `t` is the gradient of the input of a convolution: at each input the sum of the gradients of the results it has a part in, times the weight by which it has it. -/
def IsInputGrad [CommSemiring C] (ar : GradArith E C R) (t : Tensor R) (g n c f : Int) (ns ks outs : List Int) (as : List Axis) (vg vw : List Int → E) : Prop :=
  t.sizes = n :: g * c :: ns ∧ ∀ b q l i, 0 ≤ b → b < n → 0 ≤ q → q < g → 0 ≤ l → l < c → inRange ns i = true →
    t.elem (b :: (q * c + l) :: i) = some (ar.finish (sumTo f fun j => sumOver ks fun k => sumOver outs fun o =>
      if reach as o k = i then ar.lift (vg (b :: (q * f + j) :: o)) * ar.lift (vw ((q * f + j) :: l :: k)) else 0))

/-- `t` is the gradient of the weight: the sum of the gradients of all results times the inputs the weight has a part in them by. -/
def IsWeightGrad [CommSemiring C] (ar : GradArith E C R) (t : Tensor R) (g n c f : Int) (ns ks outs : List Int) (as : List Axis) (vg vx : List Int → E) : Prop :=
  t.sizes = g * f :: c :: ks ∧ ∀ q j l k, 0 ≤ q → q < g → 0 ≤ j → j < f → 0 ≤ l → l < c → inRange ks k = true →
    t.elem ((q * f + j) :: l :: k) = some (ar.finish (sumTo n fun b => sumOver outs fun o =>
      if inRange ns (reach as o k) then ar.lift (vx (b :: (q * c + l) :: reach as o k)) * ar.lift (vg (b :: (q * f + j) :: o)) else 0))

/-- `t` is the gradient of the bias of `m` channels. -/
def IsBiasGrad [CommSemiring C] (ar : GradArith E C R) (t : Tensor R) (m n : Int) (outs : List Int) (vg : List Int → E) : Prop :=
  t.sizes = [m] ∧ ∀ j, 0 ≤ j → j < m → t.elem [j] = some (ar.finish (sumTo n fun b => sumOver outs fun o => ar.lift (vg (b :: j :: o))))

/-- No dimension is padded by more than the kernel reaches. -/
def Within : List Int → List Axis → Prop
  | k :: ks, a :: as => a.padding ≤ a.dilation * (k - 1) ∧ Within ks as
  | _, _ => True

/-- The type of a gradient: that of its operand, if there are groups. -/
def GradType (g : Int) (ty resTy : List (Option Int)) (sizes : List Int) : Prop := TypeOf resTy sizes ∧ (1 < g → resTy = ty)

/-- The sum of the products of two tensors of the same sizes. -/
def pairing [CommSemiring C] (sizes : List Int) (u v : List Int → C) : C := sumOver sizes fun i => u i * v i

end Verif.Conv
