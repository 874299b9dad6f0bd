/-!
# Specification vocabulary for `as_strided` (C01–C03)

Independent of the model: what a strided tensor *is*.
-/

namespace Verif.AsStridedSpec

/-- Storage address of the element at multi-index `idx` of a tensor with the given storage offset
and strides: `offset + Σ idx[d]·stride[d]`. -/
def address (offset : Int) : List Int → List Int → Int
  | s :: ss, i :: is => i * s + address offset ss is
  | _, _ => offset

/-- `b` is a valid multi-index of a tensor of the given shape. -/
def InBounds : List Nat → List Int → Prop
  | [], [] => True
  | n :: ns, i :: is => 0 ≤ i ∧ i < (n : Int) ∧ InBounds ns is
  | _, _ => False

/-- Number of elements. -/
def numel : List Nat → Nat
  | [] => 1
  | n :: ns => n * numel ns

/-- The multi-index of the `k`-th element, in row-major order, of a tensor of the given shape. -/
def unflatten : List Nat → Nat → List Int
  | [], _ => []
  | _ :: ns, k => ((k / numel ns : Nat) : Int) :: unflatten ns (k % numel ns)

/-- Row-major ("contiguous") strides of a shape. -/
def contiguousStrides : List Nat → List Int
  | [] => []
  | _ :: ns => (numel ns : Int) :: contiguousStrides ns

/-- Product of the extents of the listed dimensions. -/
def extents (shape : List Nat) (p : List Nat) : Nat := numel (p.map fun d => shape.getD d 0)

/-- Strides along the dimension order `p` are the products of the extents that follow. -/
def DenseAlong (shape : List Nat) (ss : List Int) : List Nat → Prop
  | [] => True
  | d :: ds => ss.getD d 0 = (extents shape ds : Int) ∧ DenseAlong shape ss ds

instance (shape : List Nat) (ss : List Int) : (p : List Nat) → Decidable (DenseAlong shape ss p)
  | [] => isTrue trivial
  | d :: ds =>
    have : Decidable (DenseAlong shape ss ds) := instDecidableDenseAlong shape ss ds
    inferInstanceAs (Decidable (ss.getD d 0 = (extents shape ds : Int) ∧ DenseAlong shape ss ds))

end Verif.AsStridedSpec
