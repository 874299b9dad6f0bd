import Verif.Model.Dtypes

/-!
# What a dtype is

A description of the values of a dtype (kind, width, format), given separately for `torch` dtypes,
for the `ScalarType` enumerators (from their C++ types in `TorchUpstream.h:88–118`), for numpy types
and for MLIR element types.  Two encodings agree when the descriptions are equal.
-/

namespace Verif.Dtypes

open Verif.Promote (ScalarType)

/-- Floating-point formats: IEEE of some width, and the named others. -/
inductive Format where
  | ieee (bits : Nat)
  /-- `exponent` and `mantissa` bits; `inf`: has infinities; `fnuz`: no negative zero. -/
  | small (exponent mantissa : Nat) (inf fnuz : Bool)
  deriving DecidableEq, Repr

/-- The values of an element. -/
inductive Desc where
  | int (signed : Bool) (bits : Nat)
  | bool
  | float (f : Format)
  | complex (f : Format)
  | quantized (signed : Bool) (bits : Nat)
  deriving DecidableEq, Repr

def bf16 : Format := .small 8 7 true false
def e5m2 : Format := .small 5 2 true false
def e4m3fn : Format := .small 4 3 false false
def e5m2fnuz : Format := .small 5 2 false true
def e4m3fnuz : Format := .small 4 3 false true
def e8m0fnu : Format := .small 8 0 false true
def e2m1fn : Format := .small 2 1 false false

def Dtype.desc : Dtype → Desc
  | .uint8 => .int false 8
  | .int8 => .int true 8
  | .int16 => .int true 16
  | .int32 => .int true 32
  | .int64 => .int true 64
  | .float16 => .float (.ieee 16)
  | .float32 => .float (.ieee 32)
  | .float64 => .float (.ieee 64)
  | .bfloat16 => .float bf16
  | .complex32 => .complex (.ieee 16)
  | .complex64 => .complex (.ieee 32)
  | .complex128 => .complex (.ieee 64)
  | .bool => .bool
  | .qint8 => .quantized true 8
  | .quint8 => .quantized false 8
  | .float8_e5m2 => .float e5m2
  | .float8_e4m3fn => .float e4m3fn
  | .float8_e5m2fnuz => .float e5m2fnuz
  | .float8_e4m3fnuz => .float e4m3fnuz
  | .float8_e8m0fnu => .float e8m0fnu
  | .float4_e2m1fn_x2 => .float e2m1fn

/-- From the C++ type next to the enumerator (`uint8_t`, …, `c10::complex<float>`, …). -/
def scalarDesc : ScalarType → Option Desc
  | .byte => some (.int false 8)
  | .char => some (.int true 8)
  | .short => some (.int true 16)
  | .int => some (.int true 32)
  | .long => some (.int true 64)
  | .half => some (.float (.ieee 16))
  | .float => some (.float (.ieee 32))
  | .double => some (.float (.ieee 64))
  | .complexHalf => some (.complex (.ieee 16))
  | .complexFloat => some (.complex (.ieee 32))
  | .complexDouble => some (.complex (.ieee 64))
  | .bool => some .bool
  | .qint8 => some (.quantized true 8)
  | .quint8 => some (.quantized false 8)
  | .qint16 => some (.quantized true 16)
  | .qint32 => some (.quantized true 32)
  | .bfloat16 => some (.float bf16)
  | .float8_e5m2 => some (.float e5m2)
  | .float8_e4m3fn => some (.float e4m3fn)
  | .float8_e5m2fnuz => some (.float e5m2fnuz)
  | .float8_e4m3fnuz => some (.float e4m3fnuz)
  | .float8_e8m0fnu => some (.float e8m0fnu)
  | .float4_e2m1fn_x2 => some (.float e2m1fn)
  | _ => none

/-- The dtype an integer code stands for: the enumerator at that position. -/
def codeDesc (c : Nat) : Option Desc :=
  match ScalarType.all[c]? with
  | some t => scalarDesc t
  | none => none

def FloatTy.format : FloatTy → Format
  | .f16 => .ieee 16
  | .f32 => .ieee 32
  | .f64 => .ieee 64
  | .bf16 => Dtypes.bf16
  | .f8E5M2 => e5m2
  | .f8E4M3FN => e4m3fn
  | .f8E5M2FNUZ => e5m2fnuz
  | .f8E4M3FNUZ => e4m3fnuz
  | .f8E8M0FNU => e8m0fnu
  | .f4E2M1FN => e2m1fn

/-- A one-bit signless integer is the boolean type of the torch dialect. -/
def ElemTy.desc : ElemTy → Option Desc
  | .float f => some (.float f.format)
  | .signed n => some (.int true n)
  | .unsigned n => some (.int false n)
  | .signless n => if n = 1 then some .bool else none
  | .complex f => some (.complex f.format)
  | .qint8 => some (.quantized true 8)
  | .quint8 => some (.quantized false 8)
  | .qint16 => some (.quantized true 16)
  | .qint32 => some (.quantized true 32)

def NpTy.desc : NpTy → Desc
  | .uint8 => .int false 8
  | .int8 => .int true 8
  | .int16 => .int true 16
  | .int32 => .int true 32
  | .int64 => .int true 64
  | .float16 => .float (.ieee 16)
  | .float32 => .float (.ieee 32)
  | .float64 => .float (.ieee 64)
  | .bool_ => .bool
  | .complex64 => .complex (.ieee 32)
  | .complex128 => .complex (.ieee 64)
  | .bfloat16 => .float bf16
  | .float8_e5m2 => .float e5m2
  | .float8_e4m3fn => .float e4m3fn
  | .float8_e5m2fnuz => .float e5m2fnuz
  | .float8_e4m3fnuz => .float e4m3fnuz
  | .float8_e8m0fnu => .float e8m0fnu

/-- MLIR's text for the element types (built-in types and the torch dialect's quantized ones). -/
def FloatTy.asm : FloatTy → String
  | .f16 => "f16" | .bf16 => "bf16" | .f32 => "f32" | .f64 => "f64"
  | .f8E5M2 => "f8E5M2" | .f8E4M3FN => "f8E4M3FN" | .f8E5M2FNUZ => "f8E5M2FNUZ"
  | .f8E4M3FNUZ => "f8E4M3FNUZ" | .f8E8M0FNU => "f8E8M0FNU" | .f4E2M1FN => "f4E2M1FN"

def ElemTy.asm : ElemTy → String
  | .float f => f.asm
  | .signed n => "si" ++ toString n
  | .unsigned n => "ui" ++ toString n
  | .signless n => "i" ++ toString n
  | .complex f => "complex<" ++ f.asm ++ ">"
  | .qint8 => "!torch.qint8"
  | .quint8 => "!torch.quint8"
  | .qint16 => "!torch.qint16"
  | .qint32 => "!torch.qint32"

/-- Quantized dtypes. -/
def Dtype.quantized : Dtype → Bool
  | .qint8 | .quint8 => true
  | _ => false

end Verif.Dtypes
