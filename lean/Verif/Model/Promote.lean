import Verif.Py.Basic

/-!
# Model of dtype promotion

`lib/Dialect/Torch/Utils/TorchUpstream.cpp`, the promotion op of
`lib/Dialect/Torch/Transforms/SimplifyDtypeCalculations.cpp`, the scalar-type conversions of
`lib/Dialect/Torch/Utils/Utils.cpp` and the Python-level promotion in
`projects/pt1/python/torch_mlir/jit_ir_importer/build_tools/library_generator.py`.
-/

namespace Verif.Promote

/-- `enum class ScalarType` (`include/torch-mlir/Dialect/Torch/Utils/TorchUpstream.h:88-126`). -/
inductive ScalarType where
  | byte | char | short | int | long | half | float | double
  | complexHalf | complexFloat | complexDouble | bool
  | qint8 | quint8 | qint32 | bfloat16
  | quint4x2 | quint2x4 | bits1x8 | bits2x4 | bits4x2 | bits8 | bits16
  | float8_e5m2 | float8_e4m3fn | float8_e5m2fnuz | float8_e4m3fnuz
  | qint16 | float8_e8m0fnu | float4_e2m1fn_x2
  | undefined
  deriving DecidableEq, Repr

open ScalarType

/-- The enumerators in declaration order; the position is the integer code. -/
def ScalarType.all : List ScalarType :=
  [byte, char, short, int, long, half, float, double, complexHalf, complexFloat, complexDouble, bool,
   qint8, quint8, qint32, bfloat16, quint4x2, quint2x4, bits1x8, bits2x4, bits4x2, bits8, bits16,
   float8_e5m2, float8_e4m3fn, float8_e5m2fnuz, float8_e4m3fnuz, qint16, float8_e8m0fnu,
   float4_e2m1fn_x2, undefined]

/-- The integer value of an enumerator. -/
def ScalarType.code (t : ScalarType) : Nat := ScalarType.all.idxOf t

/-- `isQIntType` (`TorchUpstream.cpp:20-25`). -/
def isQIntType (t : ScalarType) : Bool :=
  t == qint8 || t == quint8 || t == qint32 || t == quint4x2 || t == quint2x4 || t == qint16

/-- `_promoteTypesLookup` (`TorchUpstream.cpp:64-83`): the sixteen initialised rows. -/
def promoteTable : List (List ScalarType) :=
  let u1 := byte; let i1 := char; let i2 := short; let i4 := int; let i8 := long
  let f2 := half; let f4 := float; let f8 := double
  let c2 := complexHalf; let c4 := complexFloat; let c8 := complexDouble
  let b1 := bool; let bf := bfloat16; let ud := undefined
  [[u1, i2, i2, i4, i8, f2, f4, f8, ud, c4, c8, u1, ud, ud, ud, bf],
   [i2, i1, i2, i4, i8, f2, f4, f8, ud, c4, c8, i1, ud, ud, ud, bf],
   [i2, i2, i2, i4, i8, f2, f4, f8, ud, c4, c8, i2, ud, ud, ud, bf],
   [i4, i4, i4, i4, i8, f2, f4, f8, ud, c4, c8, i4, ud, ud, ud, bf],
   [i8, i8, i8, i8, i8, f2, f4, f8, ud, c4, c8, i8, ud, ud, ud, bf],
   [f2, f2, f2, f2, f2, f2, f4, f8, ud, c4, c8, f2, ud, ud, ud, f4],
   [f4, f4, f4, f4, f4, f4, f4, f8, ud, c4, c8, f4, ud, ud, ud, f4],
   [f8, f8, f8, f8, f8, f8, f8, f8, ud, c8, c8, f8, ud, ud, ud, f8],
   [ud, ud, ud, ud, ud, ud, ud, ud, c2, c4, c8, ud, ud, ud, ud, ud],
   [c4, c4, c4, c4, c4, c4, c4, c8, c4, c4, c8, c4, ud, ud, ud, c4],
   [c8, c8, c8, c8, c8, c8, c8, c8, c8, c8, c8, c8, ud, ud, ud, c8],
   [u1, i1, i2, i4, i8, f2, f4, f8, ud, c4, c8, b1, ud, ud, ud, bf],
   [ud, ud, ud, ud, ud, ud, ud, ud, ud, ud, ud, ud, ud, ud, ud, ud],
   [ud, ud, ud, ud, ud, ud, ud, ud, ud, ud, ud, ud, ud, ud, ud, ud],
   [ud, ud, ud, ud, ud, ud, ud, ud, ud, ud, ud, ud, ud, ud, ud, ud],
   [bf, bf, bf, bf, bf, f4, f4, f8, ud, c4, c8, bf, ud, ud, ud, bf]]

/-- `_promoteTypesLookup[a][b]` (`TorchUpstream.cpp:84`).  The array is declared
`NumOptions × NumOptions` (31×31, `:64-65`) with only 16×16 initialisers; C++ zero-initialises the
rest, i.e. to `Byte`. -/
def promoteLookup (a b : ScalarType) : ScalarType :=
  match promoteTable[a.code]? with
  | none => byte
  | some row => (row[b.code]?).getD byte

/-- `promoteTypes` (`TorchUpstream.cpp:31-85`); `assert(false)` on mixed quantized types
(`:56-59`) is modelled as the error `assertion` (builds with assertions). -/
def promoteTypes (a b : ScalarType) : Py ScalarType :=
  if a = undefined ∨ b = undefined then .ok undefined
  else if isQIntType a ∧ a = b then .ok a
  else if isQIntType a ∨ isQIntType b then .error .assertion
  else .ok (promoteLookup a b)

/-- `isFloatingType` (`TorchUpstream.cpp:87-90`). -/
def isFloatingType (t : ScalarType) : Bool :=
  t == double || t == float || t == half || t == bfloat16

/-- `isComplexType` (`TorchUpstream.cpp:92-95`). -/
def isComplexType (t : ScalarType) : Bool :=
  t == complexHalf || t == complexFloat || t == complexDouble

/-- `promote_skip_undefined` (`TorchUpstream.cpp:115-123`). -/
def promoteSkipUndefined (a b : ScalarType) : Py ScalarType :=
  if a = undefined then .ok b
  else if b = undefined then .ok a
  else promoteTypes a b

/-- `combine_categories` (`TorchUpstream.cpp:97-113`). -/
def combineCategories (higher lower : ScalarType) : Py ScalarType :=
  if isComplexType higher then .ok higher
  else if !isComplexType lower && isFloatingType higher then .ok higher
  else if higher = bool ∨ isFloatingType lower ∨ isComplexType lower then
    promoteSkipUndefined higher lower
  else if higher ≠ undefined then .ok higher
  else .ok lower

/-- `struct ResultTypeState` (`TorchUpstream.h:132-136`). -/
structure State where
  dim : ScalarType
  wrapped : ScalarType
  zero : ScalarType
  deriving DecidableEq, Repr

/-- `ResultTypeState{}`. -/
def State.init : State := ⟨undefined, undefined, undefined⟩

/-- `result_type` (`TorchUpstream.cpp:125-129`). -/
def resultType (st : State) : Py ScalarType := do
  let low ← combineCategories st.zero st.wrapped
  combineCategories st.dim low

/-- `getTorchTypeForScalarType` followed by `getBuiltInTypeForTorchScalar` (scalar-only op) or
`getDefaultDtypeForTorchScalar`, then `getScalarTypeForType`
(`Utils.cpp:204-243`, used at `SimplifyDtypeCalculations.cpp:138-148`). -/
def scalarTypeForScalar (scalarOnly : Bool) (t : ScalarType) : Py ScalarType :=
  match t with
  | double => .ok (if scalarOnly then double else float)
  | long => .ok long
  | _ => .error .typeError

/-- An operand of `torch.promote_dtypes`: `none` for a scalar, else the rank, with its dtype. -/
abbrev Operand := Option Int × ScalarType

/-- Loop body of `DecomposePromoteDtypesOp` (`SimplifyDtypeCalculations.cpp:120-158`);
`notifyMatchFailure` is modelled as an error. -/
def addOperand (scalarOnly : Bool) (st : State) (o : Operand) : Py State :=
  match o.1 with
  | none => do
    let t ← scalarTypeForScalar scalarOnly o.2
    let w ← promoteSkipUndefined st.wrapped t
    .ok { st with wrapped := w }
  | some r =>
    if r = 0 then do
      let z ← promoteSkipUndefined st.zero o.2
      .ok { st with zero := z }
    else if 0 < r then do
      let d ← promoteSkipUndefined st.dim o.2
      .ok { st with dim := d }
    else .error .valueError

/-- The loop (`SimplifyDtypeCalculations.cpp:119-158`). -/
def addOperands (scalarOnly : Bool) : State → List Operand → Py State
  | st, [] => .ok st
  | st, o :: os => do
    let st ← addOperand scalarOnly st o
    addOperands scalarOnly st os

/-- `DecomposePromoteDtypesOp::matchAndRewrite` (`SimplifyDtypeCalculations.cpp:94-164`), for
constant operand lists of equal length. -/
def promoteDtypes (os : List Operand) : Py ScalarType :=
  if os = [] then .error .valueError
  else do
    let scalarOnly := os.all fun o => o.1.isNone
    let st ← addOperands scalarOnly State.init os
    resultType st

/-! ### The Python-level computation -/

/-- `torch.result_type` on two tensors given by rank and dtype, by the upstream rules quoted in
`TorchUpstream.cpp` (`library_generator.py:118-125`). -/
def promoteTensorTensor (lr : Int) (lt : ScalarType) (rr : Int) (rt : ScalarType) : Py ScalarType := do
  let st ← addOperand false State.init (some lr, lt)
  let st ← addOperand false st (some rr, rt)
  resultType st

/-- `_promote_scalar_tensor` (`library_generator.py:108-115`); `_get_scalar_with_dtype`
(`:98-105`) raises `ValueError` except for int64 and float64. -/
def promoteScalarTensor (st : ScalarType) (tr : Int) (tt : ScalarType) : Py ScalarType :=
  match st with
  | long | double => do
    let s ← addOperand false State.init (none, st)
    let s ← addOperand false s (some tr, tt)
    resultType s
  | _ => .error .valueError

/-- Loop body of `__torch_mlir_internal_promote_dtypes` (`library_generator.py:160-174`). -/
def pyStep (acc : Option Int × ScalarType) (rhs : Operand) : Py (Option Int × ScalarType) :=
  match acc.1, rhs.1 with
  | none, none => do
    let t ← promoteTensorTensor 0 acc.2 0 rhs.2
    .ok (none, t)
  | none, some r => do
    let t ← promoteScalarTensor acc.2 r rhs.2
    .ok (some r, t)
  | some l, none => do
    let t ← promoteScalarTensor rhs.2 l acc.2
    .ok (some l, t)
  | some l, some r => do
    let t ← promoteTensorTensor l acc.2 r rhs.2
    .ok (some (max l r), t)

/-- The loop of `__torch_mlir_internal_promote_dtypes`. -/
def pyLoop : Option Int × ScalarType → List Operand → Py ScalarType
  | acc, [] => .ok acc.2
  | acc, o :: os => do
    let acc ← pyStep acc o
    pyLoop acc os

/-- `__torch_mlir_internal_promote_dtypes` (`library_generator.py:147-174`): starts from operand 0
and then visits all operands, operand 0 included. -/
def pyPromoteDtypes (os : List Operand) : Py ScalarType :=
  match os with
  | [] => .error .indexError
  | o :: _ => pyLoop o os

end Verif.Promote
