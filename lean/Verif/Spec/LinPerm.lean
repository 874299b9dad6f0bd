import Verif.Spec.Linalg
import Verif.Model.LinPerm

/-! # Flips, permutations and concatenations of tensors -/

namespace Verif.Lin

/-- `dims` names the dimensions `ds` of `r`, counted from the front or from the end. -/
def Names (r : Nat) (dims : List Int) (ds : List Nat) : Prop :=
  List.Forall₂ (fun (dim : Int) (d : Nat) => d < r ∧ (dim = d ∨ dim = (d : Int) - r)) dims ds

/-- `t` is `x` with the dimensions `ds` reversed. -/
def IsFlipOf {E : Type} (t x : Tensor E) (ds : List Nat) : Prop :=
  t.sizes = x.sizes ∧ ∀ idx, inRange x.sizes idx = true →
    t.elem idx = x.elem (idx.zipIdx.map fun p => if p.2 ∈ ds then x.sizes.getD p.2 0 - 1 - p.1 else p.1)

/-- `t` is `x` with its dimensions in the order `ds`. -/
def IsPermuteOf {E : Type} (t x : Tensor E) (ds : List Nat) : Prop :=
  t.sizes = ds.map (fun d => x.sizes.getD d 0) ∧
  (∀ j, inRange x.sizes j = true → t.elem (ds.map fun d => j.getD d 0) = x.elem j) ∧
  (∀ idx, inRange t.sizes idx = true → ∃ j, inRange x.sizes j = true ∧ idx = ds.map fun d => j.getD d 0)

/-- The elements at `a` and `b` exchanged. -/
def exchange (a b : Nat) (l : List Int) : List Int := (l.set a (l.getD b 0)).set b (l.getD a 0)

/-- `t` is `x` with the dimensions `a` and `b` exchanged. -/
def IsTransposeOf {E : Type} (t x : Tensor E) (a b : Nat) : Prop :=
  t.sizes = exchange a b x.sizes ∧ ∀ j, inRange x.sizes j = true → t.elem (exchange a b j) = x.elem j

/-- How much of dimension `d` a tensor takes up in a concatenation of rank `r`: nothing, if it is of another rank. -/
def share {E : Type} (r d : Nat) (x : Tensor E) : Int := if x.sizes.length = r then x.sizes.getD d 0 else 0

/-- `t` is the tensors `xs` one after the other along dimension `d`. -/
def IsCatOf {E : Type} (t : Tensor E) (xs : List (Tensor E)) (r d : Nat) : Prop :=
  (∀ x ∈ xs, x.sizes.length = r → t.sizes = x.sizes.set d ((xs.map (share r d)).sum)) ∧
  (∀ k x, xs[k]? = some x → ∀ j, inRange x.sizes j = true → t.elem (j.set d (j.getD d 0 + ((xs.take k).map (share r d)).sum)) = x.elem j) ∧
  (∀ idx, inRange t.sizes idx = true → ∃ k x j, xs[k]? = some x ∧ inRange x.sizes j = true ∧
    idx = j.set d (j.getD d 0 + ((xs.take k).map (share r d)).sum))

/-- The type is true of the tensor. -/
def Operand.Typed {E : Type} (o : Operand E) : Prop :=
  o.type.length = o.tensor.sizes.length ∧ ∀ (d : Nat) (n : Int), o.type[d]? = some (some n) → o.tensor.sizes[d]? = some n

/-- Operands that can be concatenated: of the rank of the result and with the same sizes but for dimension `d`, or of size `[0]`, and
then known to be. -/
def Operand.Fits {E : Type} (r d : Nat) (base : List Int) (o : Operand E) : Prop :=
  o.Typed ∧ o.tensor.Ok ∧ ((o.tensor.sizes.length = r ∧ o.tensor.sizes.set d 0 = base) ∨ o.type = [some 0])

end Verif.Lin
