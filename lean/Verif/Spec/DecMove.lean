import Verif.Model.DecMove
import Verif.Spec.LinPerm

/-! # What the decomposed operators do -/

namespace Verif.Dec

open Lin

variable {E : Type}

/-- `dim` names dimension `d` of `r`, counted from the front or from the end. -/
def Dim (r : Nat) (dim : Int) (d : Nat) : Prop := d < r ∧ (dim = d ∨ dim = (d : Int) - r)

/-- `t` is the part of `x` at `i` in dimension `d`. -/
def IsSelectOf (t x : Tensor E) (d : Nat) (i : Int) : Prop :=
  t.sizes = x.sizes.eraseIdx d ∧ ∀ idx, inRange t.sizes idx = true → t.elem idx = x.elem (idx.insertIdx d i)

/-- `t` is the `len` positions of `x` from `s` in dimension `d`. -/
def IsNarrowOf (t x : Tensor E) (d : Nat) (s len : Int) : Prop :=
  t.sizes = x.sizes.set d len ∧ ∀ idx, inRange t.sizes idx = true → t.elem idx = x.elem (idx.set d (idx.getD d 0 + s))

/-- `ts` are consecutive parts of `x` along dimension `d`, of the given sizes. -/
def IsSplitOf (ts : List (Tensor E)) (x : Tensor E) (d : Nat) (sizes : List Int) : Prop :=
  ts.length = sizes.length ∧
  ∀ (k : Nat) (t : Tensor E) (n : Int), ts[k]? = some t → sizes[k]? = some n → IsNarrowOf t x d (sizes.take k).sum n

/-- By how much dimension `d` is rolled. -/
def shiftOf (moves : List (Int × Nat)) (d : Nat) : Int := ((moves.filter fun p => decide (p.2 = d)).map (·.1)).sum

/-- `t` is `x` rolled: what is shifted out at the end of a dimension comes in again at its front. -/
def IsRollOf (t x : Tensor E) (moves : List (Int × Nat)) : Prop :=
  t.sizes = x.sizes ∧ ∀ idx, inRange x.sizes idx = true →
    t.elem idx = x.elem (idx.zipIdx.map fun p => (p.1 - shiftOf moves p.2) % x.sizes.getD p.2 0)

/-- `t` is the tensors `xs` of the given sizes next to each other in a new dimension `d`. -/
def IsStackOf (t : Tensor E) (xs : List (Tensor E)) (sizes : List Int) (d : Nat) : Prop :=
  t.sizes = sizes.insertIdx d xs.length ∧
  ∀ (k : Nat) (x : Tensor E), xs[k]? = some x → ∀ j, inRange sizes j = true → t.elem (j.insertIdx d k) = x.elem j

/-- `t` is `x` with its dimensions in reverse order. -/
def IsReversalOf (t x : Tensor E) : Prop :=
  t.sizes = x.sizes.reverse ∧ ∀ j, inRange x.sizes j = true → t.elem j.reverse = x.elem j

/-- `t` is `x` with dimension `s` moved to `d`. -/
def IsMoveOf (t x : Tensor E) (s d : Nat) : Prop :=
  t.sizes = (x.sizes.eraseIdx s).insertIdx d (x.sizes.getD s 0) ∧
  ∀ j, inRange x.sizes j = true → t.elem ((j.eraseIdx s).insertIdx d (j.getD s 0)) = x.elem j

/-- `t` is `x` but for position `i` of dimension `d`, where it is `src`. -/
def IsSelectScatterOf (t x src : Tensor E) (d : Nat) (i : Int) : Prop :=
  t.sizes = x.sizes ∧ ∀ idx, inRange x.sizes idx = true →
    t.elem idx = if idx.getD d 0 = i then src.elem (idx.eraseIdx d) else x.elem idx

/-- `t` is `x` turned by a quarter from dimension `a` towards dimension `b`: row `p` becomes column `p`, column `q` of `n` row `n - 1 - q`. -/
def IsQuarterTurn (t x : Tensor E) (a b : Nat) : Prop :=
  t.sizes = exchange a b x.sizes ∧ ∀ j, inRange x.sizes j = true →
    t.elem ((j.set b (j.getD a 0)).set a (x.sizes.getD b 0 - 1 - j.getD b 0)) = x.elem j

/-- `t` is `x` turned by `n` quarters. -/
def Turns (a b : Nat) : Nat → Tensor E → Tensor E → Prop
  | 0, t, x => Same t x
  | n + 1, t, x => ∃ u, Turns a b n u x ∧ IsQuarterTurn t u a b

/-- Turned by `k` quarters, backwards if negative. -/
def IsRot90Of (t x : Tensor E) (k : Int) (a b : Nat) : Prop :=
  if 0 ≤ k then Turns a b k.toNat t x else Turns a b (-k).toNat x t

/-- The list without its elements at `ds`. -/
def without (ds : List Nat) (l : List Int) : List Int := (l.zipIdx.filter fun p => decide (p.2 ∉ ds)).map (·.1)

/-- `t` is `x` without its dimensions `ds`. -/
def IsDropOf (t x : Tensor E) (ds : List Nat) : Prop :=
  t.sizes = without ds x.sizes ∧ ∀ j, inRange x.sizes j = true → t.elem (without ds j) = x.elem j

/-- A tensor as one of at least one dimension. -/
def IsAtleast (t x : Tensor E) (r : Nat) : Prop :=
  t.sizes = List.replicate (r - x.sizes.length) 1 ++ x.sizes ∧
  ∀ j, inRange x.sizes j = true → t.elem (List.replicate (r - x.sizes.length) 0 ++ j) = x.elem j

end Verif.Dec
