import Verif.Spec.Linalg

/-!
# What the primitive ATen operators do

The operators into which `DecomposeComplexOps` (lib/Dialect/Torch/Transforms/DecomposeComplexOps.cpp) rewrites data movement, read as
PyTorch defines them, on tensors as functions of multi-indices.  `none` stands for an error.  Dimensions count from the end if negative.

Simplified: sizes and indices are unbounded integers; `cat` does not skip tensors of size `[0]` of another rank; `slice` has step one.
-/

namespace Verif.Dec

open Lin

variable {E : Type}

/-- A dimension of a tensor of rank `r`. -/
def wrapDim (r : Nat) (dim : Int) : Option Nat :=
  if 0 ≤ dim ∧ dim < r then some dim.toNat else if -(r : Int) ≤ dim ∧ dim < 0 then some (dim + r).toNat else none

/-- A bound of a slice of a dimension of size `n`. -/
def clampBound (n i : Int) : Int := if i < 0 then max 0 (i + n) else min i n

def sliceAt (x : Tensor E) (d : Nat) (s e : Int) : Tensor E :=
  ⟨x.sizes.set d (max 0 (e - s)), fun idx => x.elem (idx.set d (idx.getD d 0 + s))⟩

/-- `aten.slice.Tensor` with step one. -/
def slice (x : Tensor E) (dim : Int) (start stop : Option Int) : Option (Tensor E) :=
  match wrapDim x.sizes.length dim with
  | some d =>
    let n := x.sizes.getD d 0
    some (sliceAt x d (clampBound n (start.getD 0)) (match stop with | some e => clampBound n e | none => n))
  | none => none

/-- The element of a concatenation. -/
def catElem (d : Nat) : List (Tensor E) → List Int → Option E
  | [], _ => none
  | x :: xs, idx => if idx.getD d 0 < x.sizes.getD d 0 then x.elem idx else catElem d xs (idx.set d (idx.getD d 0 - x.sizes.getD d 0))

/-- `aten.cat`. -/
def cat (xs : List (Tensor E)) (dim : Int) : Option (Tensor E) :=
  match xs with
  | [] => none
  | x :: _ =>
    match wrapDim x.sizes.length dim with
    | some d =>
      if xs.all fun y => decide (y.sizes.set d 0 = x.sizes.set d 0) then
        some ⟨x.sizes.set d ((xs.map fun y => y.sizes.getD d 0).sum), catElem d xs⟩
      else none
    | none => none

/-- `aten.unsqueeze`. -/
def unsqueeze (x : Tensor E) (dim : Int) : Option (Tensor E) :=
  match wrapDim (x.sizes.length + 1) dim with
  | some d => some ⟨x.sizes.insertIdx d 1, fun idx => x.elem (idx.eraseIdx d)⟩
  | none => none

/-- `aten.squeeze.dim`: nothing happens if the size is not one. -/
def squeezeDim (x : Tensor E) (dim : Int) : Option (Tensor E) :=
  match wrapDim x.sizes.length dim with
  | some d => if x.sizes.getD d 0 = 1 then some ⟨x.sizes.eraseIdx d, fun idx => x.elem (idx.insertIdx d 0)⟩ else some x
  | none => none

def wrapDims (r : Nat) : List Int → Option (List Nat)
  | [] => some []
  | dim :: dims =>
    match wrapDim r dim, wrapDims r dims with
    | some d, some ds => some (d :: ds)
    | _, _ => none

/-- `aten.flip`: a dimension may be named once. -/
def flip (x : Tensor E) (dims : List Int) : Option (Tensor E) :=
  match wrapDims x.sizes.length dims with
  | some ds =>
    if ds.Nodup then
      some ⟨x.sizes, fun idx => x.elem (idx.zipIdx.map fun p => if p.2 ∈ ds then x.sizes.getD p.2 0 - 1 - p.1 else p.1)⟩
    else none
  | none => none

/-- Two elements of a list exchanged. -/
def swapAt (a b : Nat) (l : List Int) : List Int := (l.set a (l.getD b 0)).set b (l.getD a 0)

/-- `aten.transpose.int`. -/
def transpose (x : Tensor E) (dim0 dim1 : Int) : Option (Tensor E) :=
  match wrapDim x.sizes.length dim0, wrapDim x.sizes.length dim1 with
  | some a, some b => some ⟨swapAt a b x.sizes, fun idx => x.elem (swapAt a b idx)⟩
  | _, _ => none

/-- `aten.permute`: each dimension is named once. -/
def permute (x : Tensor E) (dims : List Int) : Option (Tensor E) :=
  match wrapDims x.sizes.length dims with
  | some ds =>
    if ds.Nodup ∧ ds.length = x.sizes.length then
      some ⟨ds.map (fun d => x.sizes.getD d 0), fun idx => x.elem ((List.range ds.length).map fun (d : Nat) => idx.getD (ds.idxOf d) 0)⟩
    else none
  | none => none

/-- `aten.slice_scatter` with step one. -/
def sliceScatter (x src : Tensor E) (dim start stop : Int) : Option (Tensor E) :=
  match wrapDim x.sizes.length dim with
  | some d =>
    let n := x.sizes.getD d 0
    let s := clampBound n start
    let e := clampBound n stop
    if src.sizes = x.sizes.set d (max 0 (e - s)) then
      some ⟨x.sizes, fun idx => if s ≤ idx.getD d 0 ∧ idx.getD d 0 < e then src.elem (idx.set d (idx.getD d 0 - s)) else x.elem idx⟩
    else none
  | none => none

end Verif.Dec
