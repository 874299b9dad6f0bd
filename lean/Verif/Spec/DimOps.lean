import Verif.Spec.Dims
import Verif.Spec.Slice

/-! # Operations with a dimension argument (for C42), diagonals and windows (for C60, C62) -/

namespace Verif.Shape

/-- Operations with one dimension argument; the other arguments are part of the operation. -/
inductive DimOp where
  | unsqueeze
  | squeeze
  | select (index : Int)
  | slice (start end_ : Option Int) (step : Int)
  | narrow (start length : Int)
  | narrowTensor (length : Int)
  | indexSelect (index : List Int)
  | flattenFrom (end_ : Int)
  | flattenTo (start : Int)
  | transposeFst (dim1 : Int)
  | transposeSnd (dim0 : Int)
  | reduce (keepdim : Bool)
  | glu
  | unflatten (sizes : List Int)
  | topk (k : Int)
  | fftRfft
  | unfold (size step : Int)
  | diagonalFst (offset dim2 : Int)
  | diagonalSnd (offset dim1 : Int)
  | cosineSimilarity (x2 : List Int)
  | repeatInterleave (repeats : Int)
  | diagEmbedFst (offset dim2 : Int)
  | diagEmbedSnd (offset dim1 : Int)
  deriving DecidableEq, Repr

/-- The number of dimensions the argument ranges over: those of the result where the operation adds
dimensions, of the broadcast operands for `cosine_similarity`, otherwise of the operand. -/
def DimOp.dims : DimOp → List Int → Nat
  | .unsqueeze, s => s.length + 1
  | .diagEmbedFst _ _, s => s.length + 1
  | .diagEmbedSnd _ _, s => s.length + 1
  | .cosineSimilarity x2, s => max s.length x2.length
  | _, s => s.length

/-- Two lists name the same dimensions, one by one. -/
def SameDims (rank : Nat) (dims dims' : List Int) : Prop :=
  ∃ ds, IsDims rank dims ds ∧ IsDims rank dims' ds

/-- `c` is the shape of the diagonal of `self` in dimensions `dim1`, `dim2`: the other dimensions in order,
then the number of positions `(i, i + offset)` inside. -/
def IsDiagonal (self : List Int) (offset dim1 dim2 : Int) (c : List Int) : Prop :=
  ∃ (d1 d2 n1 n2 : Nat) (rest : List Int), IsDim self.length dim1 d1 ∧ IsDim self.length dim2 d2 ∧ d1 ≠ d2 ∧
    self[d1]? = some (n1 : Int) ∧ self[d2]? = some (n2 : Int) ∧
    Picks self ((List.range self.length).filter (· ∉ [d1, d2])) rest ∧
    c = rest ++ [(countBelow n1 (fun i => decide (0 ≤ (i : Int) + offset ∧ (i : Int) + offset < n2)) : Int)]

/-- `c` is the shape of the tensor with `self`'s last dimension laid out along the diagonal of dimensions
`d1`, `d2`: these two are as long as the diagonal needs, the others are `self`'s leading dimensions. -/
def IsDiagEmbed (self : List Int) (offset : Int) (d1 d2 : Nat) (c : List Int) : Prop :=
  ∃ n, self[self.length - 1]? = some n ∧ c.length = self.length + 1 ∧
    c[d1]? = some (n + offset.natAbs) ∧ c[d2]? = some (n + offset.natAbs) ∧
    Picks c ((List.range c.length).filter (· ∉ [d1, d2])) self.dropLast

/-- `c` is `self` with a new dimension of size one at position `d`. -/
def IsUnsqueeze (self : List Int) (d : Nat) (c : List Int) : Prop :=
  c.length = self.length + 1 ∧ c[d]? = some 1 ∧ c.eraseIdx d = self

/-- The number of places for a window of `size` moved by `step` inside `n` positions. -/
def windows (n size step : Nat) : Nat :=
  countBelow (n + 1) (fun s => decide (step ∣ s ∧ s + size ≤ n))

end Verif.Shape
