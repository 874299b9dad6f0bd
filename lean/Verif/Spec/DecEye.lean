import Mathlib.Algebra.BigOperators.Group.Finset.Basic
import Verif.Model.DecEye

/-! # Identity matrices and diagonals -/

namespace Verif.Eye

open Lin

/-- A size in a type is right if it is unknown or the one at run time. -/
def SizeOk (type size : Int) : Prop := type = -1 ∨ type = size

/-- A matrix with these sizes and elements. -/
def IsMatrix {E : Type} (t : Tensor E) (n m : Int) (a : Int → Int → E) : Prop :=
  t.sizes = [n, m] ∧ ∀ i j, 0 ≤ i → i < n → 0 ≤ j → j < m → t.elem [i, j] = some (a i j)

/-- A vector with this size and these elements. -/
def IsVector {E : Type} (t : Tensor E) (n : Int) (a : Int → E) : Prop :=
  t.sizes = [n] ∧ ∀ i, 0 ≤ i → i < n → t.elem [i] = some (a i)

end Verif.Eye
