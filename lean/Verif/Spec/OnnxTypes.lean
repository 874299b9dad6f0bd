import Verif.Model.OnnxProto
import Verif.Spec.Dtypes

/-!
# What an ONNX type says
-/

namespace Verif.Onnx

open Verif.Dtypes

/-- The values of a `TensorProto.DataType` (the comments in onnx.proto); not strings. -/
def onnxDesc : Nat → Option Desc
  | 1 => some (.float (.ieee 32))
  | 2 => some (.int false 8)
  | 3 => some (.int true 8)
  | 4 => some (.int false 16)
  | 5 => some (.int true 16)
  | 6 => some (.int true 32)
  | 7 => some (.int true 64)
  | 9 => some .bool
  | 10 => some (.float (.ieee 16))
  | 11 => some (.float (.ieee 64))
  | 12 => some (.int false 32)
  | 13 => some (.int false 64)
  | 14 => some (.complex (.ieee 32))
  | 15 => some (.complex (.ieee 64))
  | 16 => some (.float bf16)
  | 17 => some (.float e4m3fn)
  | 18 => some (.float e4m3fnuz)
  | 19 => some (.float e5m2)
  | 20 => some (.float e5m2fnuz)
  | 21 => some (.int false 4)
  | 22 => some (.int true 4)
  | 23 => some (.float e2m1fn)
  | _ => none

/-- The sizes of a torch type (`-1`: dynamic) say what the ONNX dimensions say: the same rank, the known
sizes, nothing about the others. -/
def SizesOf (dims : List Dim) (sizes : List Int) : Prop :=
  sizes.length = dims.length ∧
  ∀ (i : Nat) (d : Dim), dims[i]? = some d → sizes[i]? = some (match d with | .value n => n | _ => -1)

/-- Sizes a tensor can have (they are 64-bit). -/
def ValidDims (dims : List Dim) : Prop := ∀ n, Dim.value n ∈ dims → 0 ≤ n ∧ n ≤ 9223372036854775807

/-- The number of entries a tensor of these sizes has. -/
def entries : List Int → Int
  | [] => 1
  | d :: r => d * entries r

end Verif.Onnx
