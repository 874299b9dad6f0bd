import Verif.Model.Fold
import Verif.Model.TmAten

/-!
# Tensors of the linalg backend

What `tensor.extract`, `tensor.extract_slice`, `tensor.insert_slice` and `linalg.generic` without reductions do, on tensors
as functions of multi-indices.  `none` stands for an undefined element: one read from outside of a tensor.

Simplified: sizes and indices are unbounded integers, except where a lowering computes with values from the program
(`Fold.wrap`); static and dynamic sizes are the same and casts between them are left out, except where a lowering looks at them.
-/

namespace Verif.Lin

structure Tensor (E : Type) where
  sizes : List Int
  elem : List Int → Option E

def inRange : List Int → List Int → Bool
  | [], [] => true
  | n :: ns, i :: is => decide (0 ≤ i ∧ i < n) && inRange ns is
  | _, _ => false

/-- `tensor.extract`. -/
def Tensor.get {E : Type} (t : Tensor E) (idx : List Int) : Option E := if inRange t.sizes idx then t.elem idx else none

/-- The index in the source of a slice. -/
def place : List Int → List Int → List Int → List Int
  | o :: os, s :: ss, i :: is => (o + i * s) :: place os ss is
  | _, _, _ => []

/-- `tensor.extract_slice`. -/
def extractSlice {E : Type} (t : Tensor E) (offsets sizes strides : List Int) : Tensor E :=
  ⟨sizes, fun idx => t.get (place offsets strides idx)⟩

/-- The index in the slice, if the index of the destination is one of it. -/
def unplace : List Int → List Int → List Int → List Int → Option (List Int)
  | o :: os, n :: ns, s :: ss, i :: is =>
    if (i - o) % s = 0 ∧ 0 ≤ (i - o) / s ∧ (i - o) / s < n then
      match unplace os ns ss is with
      | some js => some ((i - o) / s :: js)
      | none => none
    else none
  | [], [], [], [] => some []
  | _, _, _, _ => none

/-- `tensor.insert_slice` with positive strides. -/
def insertSlice {E : Type} (src dest : Tensor E) (offsets sizes strides : List Int) : Tensor E :=
  ⟨dest.sizes, fun idx =>
    match unplace offsets sizes strides idx with
    | some j => src.get j
    | none => dest.get idx⟩

/-- `linalg.fill` of an empty tensor (`createZeroInitTensor`, Conversion/Utils/Utils.cpp 132-150). -/
def fill {E : Type} (sizes : List Int) (e : E) : Tensor E := ⟨sizes, fun _ => some e⟩

/-- `flipTensor` (TorchToLinalg/Utils.cpp 733-771): the size of each axis less one, then the indices counted from the end. -/
def flipIndex (sizes : List Int) (axes : List Nat) (idx : List Int) : List Int :=
  let dims := axes.foldl (fun ds a => ds.set a (ds.getD a 0 - 1)) sizes
  axes.foldl (fun is a => is.set a (dims.getD a 0 - is.getD a 0)) idx

def flipTensor {E : Type} (t : Tensor E) (axes : List Nat) : Tensor E := ⟨t.sizes, fun idx => t.get (flipIndex t.sizes axes idx)⟩

/-! ## Slices (DataMovement.cpp) -/

/-- `toPositiveValidDim` (Conversion/Utils/Utils.cpp 455-478). -/
def toPositiveValidDim (x : Option Int) (default n : Int) : Int :=
  match x with
  | none => default
  | some x =>
    let p := if x ≥ 0 then x else Fold.wrap (x + n)
    let p := if p < 0 then 0 else p
    if p > n then n else p

/-- Lines 80-105: the end.  `const`: the end is a constant of the program. -/
def sliceEnd (x : Option Int) (const : Bool) (n : Int) : Int :=
  match x with
  | none => n
  | some x =>
    if const && decide (x = Fold.maxI64) then n else
    let e := if x < 0 then Fold.wrap (x + n) else x
    let e := if e < 0 then -1 else e
    if e > n then n else e

/-- Lines 107-124: the size of the result. -/
def sliceSize (start end_ step : Int) : Int :=
  let len := Fold.wrap (end_ - start)
  let sign : Int := if step ≥ 0 then 1 else -1
  let r := Fold.wrap (len + step)
  let r := Fold.wrap (r - sign)
  let r := r.fdiv step
  if r < 0 then 0 else r

structure Slicing where
  dim : Nat
  shape : List Int
  offsets : List Int
  strides : List Int

/-- `prepareArgumentsForSlicingOp` (lines 41-133). -/
def prepareSlicing (sizes : List Int) (dim : Int) (start end_ : Option Int) (const : Bool) (step : Int) : Option Slicing :=
  let dim := Tm.positiveDim dim sizes.length
  if !Tm.validDim dim sizes.length then none else
  let d := dim.toNat
  let n := sizes.getD d 0
  let start := toPositiveValidDim start 0 n
  let end_ := sliceEnd end_ const n
  some ⟨d, sizes.set d (sliceSize start end_ step), (List.replicate sizes.length 0).set d start, (List.replicate sizes.length 1).set d step⟩

/-- `ConvertAtenSliceTensorOp` (lines 1846-1912). -/
def lowerSlice {E : Type} (x : Tensor E) (dim : Int) (start end_ : Option Int) (const : Bool) (step : Int) : Option (Tensor E) :=
  match prepareSlicing x.sizes dim start end_ const step with
  | none => none
  | some s =>
    let stride := s.strides.getD s.dim 0
    let offset := s.offsets.getD s.dim 0
    let neg := decide (stride < 0)
    let strides := s.strides.set s.dim (stride.natAbs : Int)
    let flipped := x.sizes.getD s.dim 0 - 1 - offset
    let offsets := s.offsets.set s.dim (if neg then flipped else offset)
    let input := if neg then flipTensor x [s.dim] else x
    some (extractSlice input offsets s.shape strides)

/-- `ConvertAtenSliceScatterOp` (lines 2119-2163). -/
def lowerSliceScatter {E : Type} (x src : Tensor E) (dim : Int) (start end_ : Option Int) (const : Bool) (step : Int) : Option (Tensor E) :=
  match prepareSlicing x.sizes dim start end_ const step with
  | none => none
  | some s => some (insertSlice src x s.offsets s.shape s.strides)

end Verif.Lin
