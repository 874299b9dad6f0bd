import Verif.Spec.Dims

/-! # Reshaping (for C33) -/

namespace Verif.Shape

/-- The number of elements of a tensor. -/
def numel : List Int → Int
  | [] => 1
  | x :: xs => x * numel xs

/-- No negative size. -/
def NonNeg (l : List Int) : Prop := ∀ x ∈ l, 0 ≤ x

/-- `c` is the shape of a tensor of `n` elements viewed as `size`: the request itself, or the request with
its one -1 replaced by the size the others leave. -/
def IsView (n : Int) (size c : List Int) : Prop :=
  (NonNeg size ∧ c = size ∧ numel c = n) ∨
  ∃ pre x post, size = pre ++ -1 :: post ∧ NonNeg pre ∧ NonNeg post ∧ c = pre ++ x :: post ∧
    numel c = n ∧ numel pre * numel post ≠ 0

/-- `c` is `self` with the dimensions from `start` to `end_` merged into one; a scalar becomes a vector of
one element. -/
def IsFlatten (self : List Int) (start end_ : Int) (c : List Int) : Prop :=
  (self = [] ∧ IsDim 0 start 0 ∧ IsDim 0 end_ 0 ∧ c = [1]) ∨
  ∃ pre x mid post, self = pre ++ (x :: mid) ++ post ∧ IsDim self.length start pre.length ∧
    IsDim self.length end_ (pre.length + mid.length) ∧ c = pre ++ [numel (x :: mid)] ++ post

/-- `c` is `self` with dimension `dim` viewed as `sizes`. -/
def IsUnflatten (self : List Int) (dim : Int) (sizes c : List Int) : Prop :=
  ∃ pre x post v, self = pre ++ x :: post ∧ IsDim self.length dim pre.length ∧ IsView x sizes v ∧
    c = pre ++ v ++ post

end Verif.Shape
