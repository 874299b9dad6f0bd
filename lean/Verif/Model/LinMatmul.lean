import Verif.Model.LinReduce

/-!
# Matrix products lowered to linalg (TorchToLinalg/Linear.cpp 31-246, 282-735, 737-804)

Simplified: ranks are at least one; what is computed with the elements is a parameter; operations of linalg take the size they sum over
from the left operand, and an element they read outside of an operand is undefined; the static sizes of operands of linalg are not verified
against each other.
-/

namespace Verif.Mat

open Lin Red

variable {A B C R : Type}

/-- What is computed: the initial value, a multiplication with its addition, and the conversion to the elements of the result. -/
structure Arith (A B C R : Type) where
  zero : C
  mac : A → B → C → C
  finish : C → R

/-- The kinds of elements: they decide which operations are made. -/
inductive Kind where
  | float
  | int
  | quantized
  deriving DecidableEq

/-- `linalg.dot`, `linalg.vecmat`, `linalg.matvec`, `linalg.matmul`, `linalg.batch_matmul` and the quantized ones, on a tensor of zeros of the given
sizes: the sum over `n` of the products of the elements at the indices `li` and `ri`. -/
def contract (ar : Arith A B C R) (x : Tensor A) (y : Tensor B) (sizes : List Int) (n : Int) (li ri : List Int → Int → List Int) : Tensor C :=
  ⟨sizes, fun idx => (List.range n.toNat).foldl (fun acc (k : Nat) => acc.bind fun c => (x.get (li idx k)).bind fun a => (y.get (ri idx k)).map fun b => ar.mac a b c)
    (some ar.zero)⟩

/-- `convertTensorToElementType` (Utils.cpp 631-642) and `tensor.cast`. -/
def close (ar : Arith A B C R) (resTy : List (Option Int)) (t : Tensor C) : Outcome (Tensor R) :=
  if castOk resTy t.sizes then .ok ⟨t.sizes, fun idx => (t.get idx).map ar.finish⟩ else .bad

/-- `getDimOp`. -/
def dim {E : Type} (x : Operand E) (d : Nat) : Int := x.tensor.sizes.getD d 0

/-- The same, if the fold of it is a constant. -/
def dimTy {E : Type} (x : Operand E) (d : Nat) : Option Int := x.type.getD d none

/-- The index of a product of two matrices. -/
def at2 (a b : Int) : List Int := [a, b]

/-- Lines 352-399: products with vectors of quantized elements. -/
def quantizedVec (ar : Arith A B C R) (x : Operand A) (y : Operand B) (resTy : List (Option Int)) : Outcome (Tensor R) :=
  let l := if x.type.length = 1 then (expandTo x [1, (dimTy x 0).getD unknown] [[0, 1]]).bind fun t => .ok (⟨t, [some 1, dimTy x 0]⟩ : Operand A) else .ok x
  let r := if y.type.length = 1 then (expandTo y [(dimTy y 0).getD unknown, 1] [[0, 1]]).bind fun t => .ok (⟨t, [dimTy y 0, some 1]⟩ : Operand B) else .ok y
  l.bind fun l => r.bind fun r =>
    if dim l 1 ≠ dim r 0 then .aborts else
    let t := contract ar l.tensor r.tensor [dim l 0, dim r 1] (dim l 1) (fun idx k => at2 (idx.getD 0 0) k) (fun idx k => at2 k (idx.getD 1 0))
    (collapseTo ⟨t, [dimTy l 0, dimTy r 1]⟩ (typeSizes resTy) (if resTy.length = 0 then [] else [[0, 1]])).bind fun t => close ar resTy t

/-- `broadcastedBatchShape` (lines 514-530), the entry at `p`: its size, and the constant it folds to. -/
def batchDim (x : Operand A) (y : Operand B) (p : Nat) : Int × Option Int :=
  let lr := x.type.length
  let rr := y.type.length
  let i := max lr rr - 2 - p
  if i ≤ min lr rr - 2 then
    (max (dim x (lr - 2 - i)) (dim y (rr - 2 - i)),
      match dimTy x (lr - 2 - i), dimTy y (rr - 2 - i) with
      | some a, some b => some (max a b)
      | _, _ => none)
  else if rr < lr then (dim x (max lr rr - 2 - i), dimTy x (max lr rr - 2 - i))
  else (dim y (max lr rr - 2 - i), dimTy y (max lr rr - 2 - i))

/-- `createOrFold<arith::MulIOp>` on constants. -/
def foldMul : Option Int → Option Int → Option Int
  | some a, some b => some (a * b)
  | some a, none => if a = 0 then some 0 else none
  | none, some b => if b = 0 then some 0 else none
  | none, none => none

/-- The groups of lines 625-630. -/
def batchGroups (batchRank : Nat) : List (List Nat) := [List.range batchRank, [batchRank], [batchRank + 1]]

/-- Lines 503-735, once both operands are broadcast. -/
def batched (kind : Kind) (ar : Arith A B C R) (x : Operand A) (y : Operand B) (batch : List (Int × Option Int)) (l : Tensor A) (r : Tensor B)
    (resTy : List (Option Int)) : Outcome (Tensor R) :=
  let br := batch.length
  let m := dim x (x.type.length - 2)
  let k := dim x (x.type.length - 1)
  let n := dim y (y.type.length - 1)
  let loops := fun (b : Nat) (l : Tensor A) (r : Tensor B) (sizes : List Int) => contract ar l r sizes k
    (fun idx k => idx.take b ++ at2 (idx.getD b 0) k) (fun idx k => idx.take b ++ at2 k (idx.getD (b + 1) 0))
  if br = 1 then close ar resTy (loops 1 l r (batch.map (·.1) ++ at2 m n))
  else if (resTy.take (resTy.length - 2)).count none ≤ 1 then
    let t := loops 1 (collapseShape l (batchGroups br)) (collapseShape r (batchGroups br)) ((batch.map (·.1)).prod :: at2 m n)
    let ty := [(batch.map (·.2)).foldl foldMul (some 1), dimTy x (x.type.length - 2), dimTy y (y.type.length - 1)]
    (expandTo ⟨t, ty⟩ (typeSizes resTy) (batchGroups br)).bind fun t => close ar resTy t
  else if kind ≠ .float then .bad
  else close ar resTy (loops br l r (batch.map (·.1) ++ at2 m n))

/-- `ConvertAtenMatmulOp` (lines 282-735), after the checks of the types of the elements. -/
def lowerMatmul (strict : Bool) (kind : Kind) (ar : Arith A B C R) (x : Operand A) (y : Operand B) (resTy : List (Option Int)) : Outcome (Tensor R) :=
  let lr := x.type.length
  let rr := y.type.length
  if kind = .quantized ∧ (lr = 1 ∧ rr ≤ 2 ∨ lr ≤ 2 ∧ rr = 1) then quantizedVec ar x y resTy
  else if lr = 1 ∧ rr = 1 then
    if dim x 0 ≠ dim y 0 then .aborts
    else close ar resTy (contract ar x.tensor y.tensor [] (dim x 0) (fun _ k => [k]) (fun _ k => [k]))
  else if lr = 1 ∧ rr = 2 then
    if dim x 0 ≠ dim y 0 then .aborts
    else close ar resTy (contract ar x.tensor y.tensor [dim y 1] (dim x 0) (fun _ k => [k]) (fun idx k => at2 k (idx.getD 0 0)))
  else if lr = 2 ∧ rr = 1 then
    if dim x 1 ≠ dim y 0 then .aborts
    else close ar resTy (contract ar x.tensor y.tensor [dim x 0] (dim x 1) (fun idx k => at2 (idx.getD 0 0) k) (fun _ k => [k]))
  else if lr = 2 ∧ rr = 2 then
    if dim x 1 ≠ dim y 0 then .aborts
    else close ar resTy (contract ar x.tensor y.tensor [dim x 0, dim y 1] (dim x 1) (fun idx k => at2 (idx.getD 0 0) k) (fun idx k => at2 k (idx.getD 1 0)))
  else if 1 < lr ∧ 1 < rr then
    let batch := (List.range (max lr rr - 2)).map (batchDim x y)
    match broadcastToGivenShape strict x (batch.map (·.1) ++ at2 (dim x (lr - 2)) (dim x (lr - 1))) (batch.map (·.2) ++ [dimTy x (lr - 2), dimTy x (lr - 1)]) [],
      broadcastToGivenShape strict y (batch.map (·.1) ++ at2 (dim y (rr - 2)) (dim y (rr - 1))) (batch.map (·.2) ++ [dimTy y (rr - 2), dimTy y (rr - 1)]) [] with
    | some (some l), some (some r) => if dim x (lr - 1) ≠ dim y (rr - 2) then .aborts else batched kind ar x y batch l r resTy
    | none, _ => .unmatched
    | _, none => .unmatched
    | _, _ => .aborts
  else .unmatched

/-- `ConvertAtenBmmOp` (lines 737-804), after the conversion of the elements. -/
def lowerBmm (ar : Arith A B C R) (x : Operand A) (y : Operand B) (resTy : List (Option Int)) : Outcome (Tensor R) :=
  if x.type.length ≠ 3 ∨ y.type.length ≠ 3 then .unmatched
  else if dim x 0 ≠ dim y 0 ∨ dim x 2 ≠ dim y 1 then .aborts
  else close ar resTy (contract ar x.tensor y.tensor [dim x 0, dim x 1, dim y 2] (dim x 2) (fun idx k => [idx.getD 0 0, idx.getD 1 0, k])
    (fun idx k => [idx.getD 0 0, k, idx.getD 2 0]))

/-- The part of `ConvertAtenMmOp` (lines 75-246) after the checks of the types of the elements. -/
def lowerMm (strict : Bool) (ar : Arith A B C R) (x : Operand A) (y : Operand B) (resTy : List (Option Int)) : Outcome (Tensor R) :=
  if x.type.length ≠ 2 ∨ y.type.length ≠ 2 then .unmatched
  else if strict = false ∧ dim x 1 ≠ dim y 0 then .aborts
  else close ar resTy (contract ar x.tensor y.tensor [dim x 0, dim y 1] (dim x 1) (fun idx k => at2 (idx.getD 0 0) k) (fun idx k => at2 k (idx.getD 1 0)))

/-! ## Integers -/

/-- `getDefaultAccType` (Torch/Utils/Utils.cpp 751-760) on integers. -/
def accWidth (w : Nat) : Nat := if w = 8 then 32 else if w = 16 ∨ w = 32 ∨ w = 64 then 64 else w

/-- `arith.extui` or `arith.extsi` to the type of the sum; nothing if it is the same. -/
def widen (unsigned : Bool) {w : Nat} (v : Nat) (e : BitVec w) : BitVec v := if unsigned then e.setWidth v else if w = v then e.setWidth v else e.signExtend v

/-- The sums of products of integers, extended with or without sign, converted to `res` (`convertScalarToDtype` without the original types). -/
def intArith (w v : Nat) (ul ur : Bool) (acc res : Nat) : Arith (BitVec w) (BitVec v) (BitVec acc) (BitVec res) :=
  ⟨0, fun a b c => c + widen ul acc a * widen ur acc b, convert acc res⟩

/-- `aten.mm` on integers without zero points: unsigned ones are extended with zeros (lines 195-229). -/
def lowerMmInt (strict : Bool) (l r res : IntTy) (x : Operand (BitVec l.width)) (y : Operand (BitVec r.width)) (resTy : List (Option Int)) :
    Outcome (Tensor (BitVec res.width)) :=
  if l.width ≠ r.width then .unmatched
  else if !convertible (accWidth l.width) res.width then .crash
  else lowerMm strict (intArith l.width r.width l.unsigned r.unsigned (accWidth l.width) res.width) x y resTy

/-- `aten.matmul` and `aten.bmm` on integers of one type: always extended with their sign. -/
def signedArith (t : IntTy) : Arith (BitVec t.width) (BitVec t.width) (BitVec (accWidth t.width)) (BitVec t.width) :=
  intArith t.width t.width false false (accWidth t.width) t.width

/-- If the sum cannot be converted to the type of the result the compiler stops, once the pattern matches. -/
def orCrash {T : Type} (ok : Bool) (o : Outcome T) : Outcome T :=
  match o with
  | .unmatched => .unmatched
  | o => if ok then o else .crash

/-- `aten.matmul` on integers. -/
def lowerMatmulInt (strict : Bool) (t : IntTy) (x y : Operand (BitVec t.width)) (resTy : List (Option Int)) : Outcome (Tensor (BitVec t.width)) :=
  orCrash (convertible (accWidth t.width) t.width) (lowerMatmul strict .int (signedArith t) x y resTy)

/-- `aten.bmm` on integers of one type. -/
def lowerBmmInt (t : IntTy) (x y : Operand (BitVec t.width)) (resTy : List (Option Int)) : Outcome (Tensor (BitVec t.width)) :=
  orCrash (convertible (accWidth t.width) t.width) (lowerBmm (signedArith t) x y resTy)

/-- `signShift` (lines 33-52) of an element. -/
def shiftElem (unsigned : Bool) {w : Nat} (e : BitVec w) : BitVec w := if unsigned then e + BitVec.ofInt w (-2 ^ (w - 1)) else e

/-- `signShift` of the zero point. -/
def shiftZero (unsigned : Bool) (w : Nat) (z : BitVec 32) : BitVec 32 := if unsigned then z + BitVec.ofInt 32 (-2 ^ (w - 1)) else z

/-- `linalg.quantized_matmul` and `linalg.quantized_batch_matmul` on shifted elements and zero points. -/
def quantArith (l r : IntTy) (zl zr : BitVec 32) : Arith (BitVec l.width) (BitVec r.width) (BitVec 32) (BitVec 32) :=
  ⟨0, fun a b c => c + (widen false 32 (shiftElem l.unsigned a) - shiftZero l.unsigned l.width zl) *
    (widen false 32 (shiftElem r.unsigned b) - shiftZero r.unsigned r.width zr), id⟩

end Verif.Mat
