import Verif.Model.Promote

/-!
# The dtype tables of the importers

/repo/python/torch_mlir/extras/fx_importer.py:154–267,
/repo/projects/pt1/python/torch_mlir/_dynamo_fx_importer.py:198–216 and
/repo/lib/Dialect/Torch/Utils/Utils.cpp:64–201.  The optional entries are present (a PyTorch that has
the float8/float4 dtypes, `ml_dtypes` installed).
-/

namespace Verif.Dtypes

open Verif.Promote (ScalarType)

/-- The `torch.dtype` objects named in the tables. -/
inductive Dtype where
  | uint8 | int8 | int16 | int32 | int64
  | float16 | float32 | float64 | bfloat16
  | complex32 | complex64 | complex128
  | bool | qint8 | quint8
  | float8_e5m2 | float8_e4m3fn | float8_e5m2fnuz | float8_e4m3fnuz | float8_e8m0fnu
  | float4_e2m1fn_x2
  deriving DecidableEq, Repr

/-- MLIR floating-point types. -/
inductive FloatTy where
  | f16 | bf16 | f32 | f64
  | f8E5M2 | f8E4M3FN | f8E5M2FNUZ | f8E4M3FNUZ | f8E8M0FNU | f4E2M1FN
  deriving DecidableEq, Repr

/-- MLIR element types. -/
inductive ElemTy where
  | float (f : FloatTy)
  | signed (bits : Nat)
  | unsigned (bits : Nat)
  | signless (bits : Nat)
  | complex (f : FloatTy)
  | qint8 | quint8 | qint16 | qint32
  deriving DecidableEq, Repr

/-- `TORCH_DTYPE_TO_MLIR_TYPE_ASM` with its optional entries (fx_importer.py:154–181). -/
def mlirTypeAsm : Dtype → Option String
  | .float16 => "f16"
  | .bfloat16 => "bf16"
  | .float32 => "f32"
  | .float64 => "f64"
  | .uint8 => "ui8"
  | .int8 => "si8"
  | .int16 => "si16"
  | .int32 => "si32"
  | .int64 => "si64"
  | .bool => "i1"
  | .qint8 => "!torch.qint8"
  | .quint8 => "!torch.quint8"
  | .complex32 => "complex<f16>"
  | .complex64 => "complex<f32>"
  | .complex128 => "complex<f64>"
  | .float8_e5m2 => "f8E5M2"
  | .float8_e4m3fn => "f8E4M3FN"
  | .float8_e5m2fnuz => "f8E5M2FNUZ"
  | .float8_e4m3fnuz => "f8E4M3FNUZ"
  | .float8_e8m0fnu => "f8E8M0FNU"
  | .float4_e2m1fn_x2 => "f4E2M1FN"

/-- `TORCH_DTYPE_TO_MLIR_TYPE` with its optional entries (fx_importer.py:183–211). -/
def mlirType : Dtype → Option ElemTy
  | .float16 => some (.float .f16)
  | .bfloat16 => some (.float .bf16)
  | .float32 => some (.float .f32)
  | .float64 => some (.float .f64)
  | .uint8 => some (.unsigned 8)
  | .int8 => some (.signed 8)
  | .int16 => some (.signed 16)
  | .int32 => some (.signed 32)
  | .int64 => some (.signed 64)
  | .bool => some (.signless 1)
  | .qint8 => some (.signed 8)
  | .quint8 => some (.unsigned 8)
  | .complex32 => some (.complex .f16)
  | .complex64 => some (.complex .f32)
  | .complex128 => some (.complex .f64)
  | .float8_e5m2 => some (.float .f8E5M2)
  | .float8_e4m3fn => some (.float .f8E4M3FN)
  | .float8_e5m2fnuz => some (.float .f8E5M2FNUZ)
  | .float8_e4m3fnuz => some (.float .f8E4M3FNUZ)
  | .float8_e8m0fnu => some (.float .f8E8M0FNU)
  | .float4_e2m1fn_x2 => some (.float .f4E2M1FN)

/-- numpy and `ml_dtypes` scalar types. -/
inductive NpTy where
  | uint8 | int8 | int16 | int32 | int64 | float16 | float32 | float64 | bool_
  | complex64 | complex128
  | bfloat16 | float8_e5m2 | float8_e4m3fn | float8_e5m2fnuz | float8_e4m3fnuz | float8_e8m0fnu
  deriving DecidableEq, Repr

/-- `TORCH_DTYPE_TO_NPY_TYPE` (fx_importer.py:213–236). -/
def npyType : Dtype → Option NpTy
  | .uint8 => some .uint8
  | .int8 => some .int8
  | .int16 => some .int16
  | .int32 => some .int32
  | .int64 => some .int64
  | .float16 => some .float16
  | .float32 => some .float32
  | .float64 => some .float64
  | .bool => some .bool_
  | .complex64 => some .complex64
  | .complex128 => some .complex128
  | .bfloat16 => some .bfloat16
  | .float8_e5m2 => some .float8_e5m2
  | .float8_e4m3fn => some .float8_e4m3fn
  | .float8_e5m2fnuz => some .float8_e5m2fnuz
  | .float8_e4m3fnuz => some .float8_e4m3fnuz
  | .float8_e8m0fnu => some .float8_e8m0fnu
  | _ => none

/-- `TORCH_DTYPE_TO_INT` with its optional entries (fx_importer.py:238–267). -/
def dtypeToInt : Dtype → Option Nat
  | .uint8 => some 0
  | .int8 => some 1
  | .int16 => some 2
  | .int32 => some 3
  | .int64 => some 4
  | .float16 => some 5
  | .float32 => some 6
  | .float64 => some 7
  | .complex32 => some 9
  | .complex64 => some 10
  | .bool => some 11
  | .bfloat16 => some 15
  | .float8_e5m2 => some 23
  | .float8_e4m3fn => some 24
  | .float8_e5m2fnuz => some 25
  | .float8_e4m3fnuz => some 26
  | .float8_e8m0fnu => some 28
  | .float4_e2m1fn_x2 => some 29
  | _ => none

/-- `DTYPE_TO_INT` of the TorchDynamo importer (_dynamo_fx_importer.py:198–216). -/
def dynamoDtypeToInt : Dtype → Option Nat
  | .uint8 => some 0
  | .int8 => some 1
  | .int16 => some 2
  | .int32 => some 3
  | .int64 => some 4
  | .float16 => some 5
  | .float32 => some 6
  | .float64 => some 7
  | .complex64 => some 9
  | .complex128 => some 10
  | .bool => some 11
  | .qint8 => some 12
  | .quint8 => some 13
  | .bfloat16 => some 15
  | _ => none

/-- `getScalarTypeForType` (Utils.cpp:64–135); `none` is the fatal error. -/
def scalarTypeForType : ElemTy → Option ScalarType
  | .float .f32 => some .float
  | .float .f64 => some .double
  | .signed n =>
    if n = 64 then some .long else if n = 32 then some .int else if n = 16 then some .short
    else if n = 8 then some .char else none
  | .signless n => if n = 1 then some .bool else none
  | .float .bf16 => some .bfloat16
  | .float .f16 => some .half
  | .unsigned n => if n = 8 then some .byte else none
  | .quint8 => some .quint8
  | .qint8 => some .qint8
  | .qint16 => some .qint16
  | .qint32 => some .qint32
  | .complex f => match f with
    | .f16 => some .complexHalf
    | .f32 => some .complexFloat
    | .f64 => some .complexDouble
    | _ => none
  | .float .f8E5M2 => some .float8_e5m2
  | .float .f8E4M3FN => some .float8_e4m3fn
  | .float .f8E5M2FNUZ => some .float8_e5m2fnuz
  | .float .f8E4M3FNUZ => some .float8_e4m3fnuz
  | .float .f8E8M0FNU => some .float8_e8m0fnu
  | .float .f4E2M1FN => some .float4_e2m1fn_x2

/-- `getTypeForScalarType` (Utils.cpp:148–201); `none` is `failure()` or the fatal error. -/
def typeForScalarType : ScalarType → Option ElemTy
  | .float => some (.float .f32)
  | .double => some (.float .f64)
  | .long => some (.signed 64)
  | .int => some (.signed 32)
  | .short => some (.signed 16)
  | .bool => some (.signless 1)
  | .bfloat16 => some (.float .bf16)
  | .half => some (.float .f16)
  | .byte => some (.unsigned 8)
  | .char => some (.signed 8)
  | .quint8 => some .quint8
  | .qint8 => some .qint8
  | .qint16 => some .qint16
  | .qint32 => some .qint32
  | .complexHalf => some (.complex .f16)
  | .complexFloat => some (.complex .f32)
  | .complexDouble => some (.complex .f64)
  | .float8_e5m2 => some (.float .f8E5M2)
  | .float8_e4m3fn => some (.float .f8E4M3FN)
  | .float8_e5m2fnuz => some (.float .f8E5M2FNUZ)
  | .float8_e4m3fnuz => some (.float .f8E4M3FNUZ)
  | .float8_e8m0fnu => some (.float .f8E8M0FNU)
  | .float4_e2m1fn_x2 => some (.float .f4E2M1FN)
  | _ => none

end Verif.Dtypes
