import Verif.Model.LinMatmul
import Verif.Spec.LinReduce
import Verif.Spec.LinBroadcast

/-! # Matrix products -/

namespace Verif.Mat

open Lin

variable {A B C R : Type}

/-- The sum of `n` products, in order. -/
def total (ar : Arith A B C R) (n : Int) (f : Int → A) (g : Int → B) : R :=
  ar.finish ((List.range n.toNat).foldl (fun c (k : Nat) => ar.mac (f k) (g k) c) ar.zero)

/-- `t` has the products of the matrices of `x` and `y`, with the elements `vx` and `vy` and batches of sizes `lb` and `rb`, which are broadcast. -/
def IsProduct (ar : Arith A B C R) (t : Tensor R) (batch lb rb : List Int) (m k n : Int) (vx : List Int → A) (vy : List Int → B) : Prop :=
  t.sizes = batch ++ [m, n] ∧ ∀ b i j, inRange batch b = true → 0 ≤ i → i < m → 0 ≤ j → j < n →
    t.elem (b ++ [i, j]) = some (total ar k (fun l => vx (bcIndex lb b ++ [i, l])) (fun l => vy (bcIndex rb b ++ [l, j])))

/-- A type does not know the size at `p` of the result. -/
def Unknown (ty resTy : List (Option Int)) (p : Nat) : Prop := ∃ k, k + (resTy.length - ty.length) = p ∧ ty[k]? = some none

/-- The type of the result knows the sizes of the batch that both types know, and those of the matrices. -/
def Precise (resTy lty rty : List (Option Int)) : Prop :=
  (∀ p, p + 2 < resTy.length → (resTy[p]? = some none ↔ Unknown lty resTy p ∨ Unknown rty resTy p)) ∧
  resTy[resTy.length - 2]? = lty[lty.length - 2]? ∧ resTy[resTy.length - 1]? = rty[rty.length - 1]?

/-- The sum of `k` products of integers. -/
def dot (k : Int) (f g : Int → Int) : Int := ((List.range k.toNat).map fun (l : Nat) => f l * g l).sum

/-- `t` has the products of the matrices of integers `fx` and `fy`, modulo `2 ^ w`. -/
def IsIntProduct {w : Nat} (t : Tensor (BitVec w)) (batch lb rb : List Int) (m k n : Int) (fx fy : List Int → Int) : Prop :=
  t.sizes = batch ++ [m, n] ∧ ∀ b i j, inRange batch b = true → 0 ≤ i → i < m → 0 ≤ j → j < n →
    t.elem (b ++ [i, j]) = some (BitVec.ofInt w (dot k (fun l => fx (bcIndex lb b ++ [i, l])) (fun l => fy (bcIndex rb b ++ [l, j]))))

end Verif.Mat
