import Verif.Model.DecShape
import Verif.Spec.DecMove
import Verif.Spec.LinView
import Verif.Spec.LinBroadcast

/-! # Shuffles and repetitions -/

namespace Verif.Dec

open Lin

variable {E : Type}

/-- `t` is `x` with the `r * r` parts of each channel laid out as squares of pixels. -/
def IsPixelShuffleOf (t x : Tensor E) (lead : List Int) (C H W r : Int) : Prop :=
  t.sizes = lead ++ [C, H * r, W * r] ∧
  ∀ l c h w p q, inRange lead l = true → 0 ≤ c ∧ c < C → 0 ≤ h ∧ h < H → 0 ≤ w ∧ w < W → 0 ≤ p ∧ p < r → 0 ≤ q ∧ q < r →
    t.elem (l ++ [c, h * r + p, w * r + q]) = x.elem (l ++ [c * (r * r) + p * r + q, h, w])

/-- `t` is `x` with the pixels of each square in channels of their own. -/
def IsPixelUnshuffleOf (t x : Tensor E) (lead : List Int) (C H W r : Int) : Prop :=
  t.sizes = lead ++ [C * (r * r), H, W] ∧
  ∀ l c h w p q, inRange lead l = true → 0 ≤ c ∧ c < C → 0 ≤ h ∧ h < H → 0 ≤ w ∧ w < W → 0 ≤ p ∧ p < r → 0 ≤ q ∧ q < r →
    t.elem (l ++ [c * (r * r) + p * r + q, h, w]) = x.elem (l ++ [c, h * r + p, w * r + q])

/-- `t` is `x` with its `g` groups of `c` channels interleaved. -/
def IsChannelShuffleOf (t x : Tensor E) (n : Int) (space : List Int) (g c : Int) : Prop :=
  t.sizes = n :: (g * c) :: space ∧
  ∀ b s p q, 0 ≤ b ∧ b < n → inRange space s = true → 0 ≤ p ∧ p < g → 0 ≤ q ∧ q < c →
    t.elem (b :: (q * g + p) :: s) = x.elem (b :: (p * c + q) :: s)

/-- `t` is copies of `x` next to each other in every dimension; there may be more dimensions than those of `x`. -/
def IsRepeatOf (t x : Tensor E) (reps : List Int) : Prop :=
  t.sizes = List.zipWith (· * ·) reps (List.replicate (reps.length - x.sizes.length) 1 ++ x.sizes) ∧
  ∀ idx, inRange t.sizes idx = true →
    t.elem idx = x.elem (List.zipWith (fun i n => i % n) (idx.drop (reps.length - x.sizes.length)) x.sizes)

/-- Like repetition, where dimensions at the front may be left out. -/
def IsTileOf (t x : Tensor E) (reps : List Int) : Prop :=
  IsRepeatOf t x (List.replicate (x.sizes.length - reps.length) 1 ++ reps)

/-- `t` is `x` with each position of dimension `d` repeated. -/
def IsInterleaveOf (t x : Tensor E) (d : Nat) (reps : Int) : Prop :=
  t.sizes = x.sizes.set d (x.sizes.getD d 0 * reps) ∧
  ∀ idx, inRange t.sizes idx = true → t.elem idx = x.elem (idx.set d (idx.getD d 0 / reps))

/-- `t` is the elements of `x` in order, each repeated. -/
def IsInterleaveAll (t x : Tensor E) (reps : Int) : Prop :=
  t.sizes = [x.sizes.prod * reps] ∧
  ∀ j k, inRange x.sizes j = true → 0 ≤ k ∧ k < reps → t.elem [position x.sizes j * reps + k] = x.elem j

end Verif.Dec
