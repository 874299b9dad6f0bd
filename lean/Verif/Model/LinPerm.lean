import Verif.Model.Linalg

/-!
# Flips, permutations and concatenation in the linalg backend

`lib/Conversion/TorchToLinalg/Linear.cpp` 251-279, `DataMovement.cpp` 1749-1842 and 1914-1974, `Utils.cpp` 678-731.  Operations that
do not pass their verifier (`linalg.transpose` with something that is no permutation, `tensor.concat` of nothing or of different
ranks) are `none`, as are patterns that do not match.
-/

namespace Verif.Lin

/-- `ConvertAtenFlipOp` (Linear.cpp 251-279). -/
def lowerFlip {E : Type} (x : Tensor E) (dims : List Int) : Option (Tensor E) :=
  let axes := dims.map fun d => Tm.positiveDim d x.sizes.length
  if axes.all fun a => Tm.validDim a x.sizes.length then some (flipTensor x (axes.map Int.toNat)) else none

/-- `linalg.transpose`: dimension `i` of the result is dimension `perm[i]` of the input. -/
def linalgTranspose {E : Type} (x : Tensor E) (perm : List Nat) : Option (Tensor E) :=
  let r := x.sizes.length
  if perm.length = r ∧ (List.range r).all (fun k => decide (k ∈ perm)) then
    some ⟨perm.map fun d => x.sizes.getD d 0, fun idx => x.get ((List.range r).map fun k => idx.getD (perm.idxOf k) 0)⟩
  else none

/-- `permuteTensor` (Utils.cpp 678-731), `ConvertAtenPermuteOp` (DataMovement.cpp 1817-1842). -/
def lowerPermute {E : Type} (x : Tensor E) (dims : List Int) : Option (Tensor E) :=
  let r := x.sizes.length
  if r = 0 then some x else
  if dims.length ≠ r then none else
  let dims := dims.map fun d => if d < 0 then Tm.positiveDim d r else d
  if !dims.all (fun d => Tm.validDim d r) then none else
  if dims = (List.range r).map (fun i : Nat => (i : Int)) then some x else
  linalgTranspose x (dims.map Int.toNat)

/-- `ConvertAtenTransposeIntOp` (DataMovement.cpp 1751-1812).  `same`: the types of input and result are the same. -/
def lowerTranspose {E : Type} (x : Tensor E) (same : Bool) (dim0 dim1 : Int) : Option (Tensor E) :=
  let r := x.sizes.length
  if r ≤ 1 ∧ same = true then some x else
  let dim0 := Tm.positiveDim dim0 r
  if !Tm.validDim dim0 r then none else
  let dim1 := Tm.positiveDim dim1 r
  if !Tm.validDim dim1 r then none else
  linalgTranspose x (((List.range r).set dim0.toNat dim1.toNat).set dim1.toNat dim0.toNat)

/-- An operand: a tensor and what its type says of its sizes. -/
structure Operand (E : Type) where
  tensor : Tensor E
  type : List (Option Int)

/-- The elements of `tensor.concat`. -/
def concatElem {E : Type} (d : Nat) : List (Operand E) → List Int → Option E
  | [], _ => none
  | o :: os, idx =>
    if idx.getD d 0 < o.tensor.sizes.getD d 0 then o.tensor.get idx
    else concatElem d os (idx.set d (idx.getD d 0 - o.tensor.sizes.getD d 0))

/-- `tensor.concat`. -/
def concat {E : Type} (d : Nat) (os : List (Operand E)) : Option (Tensor E) :=
  match os with
  | [] => none
  | o :: _ =>
    if os.all fun p => decide (p.type.length = o.type.length) then
      some ⟨o.tensor.sizes.set d ((os.map fun p => p.tensor.sizes.getD d 0).sum), concatElem d os⟩
    else none

/-- Lines 1952-1966: operands known to be empty are dropped. -/
def keepOperand {E : Type} (d : Nat) (o : Operand E) : Bool :=
  if o.type.length = 1 ∧ o.type.getD 0 none = some 0 then false else decide (o.type.getD d none ≠ some 0)

/-- `ConvertAtenCatOp` (lines 1914-1974); `rank` is that of the result. -/
def lowerCat {E : Type} (rank : Nat) (os : List (Operand E)) (dim : Int) : Option (Tensor E) :=
  let dim := Tm.positiveDim dim rank
  if !Tm.validDim dim rank then none else
  concat dim.toNat (os.filter (keepOperand dim.toNat))

end Verif.Lin
