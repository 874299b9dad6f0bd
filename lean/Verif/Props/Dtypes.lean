import Verif.Spec.Dtypes

/-!
# C18: dtype encodings agree

The integer code, element type and buffer type assigned to a dtype by the importers describe the same
dtype, and two dtypes never share an integer code.
-/

namespace Verif

open Dtypes
open Promote (ScalarType)

/-- Within either table, two dtypes never share an integer code. -/
theorem C18_codes_distinct (d d' : Dtype) (c : Nat) :
    (dtypeToInt d = some c → dtypeToInt d' = some c → d = d') ∧
    (dynamoDtypeToInt d = some c → dynamoDtypeToInt d' = some c → d = d') := by
  constructor
  · cases d <;> intro h <;> (first | (cases h; done) | skip) <;> cases h <;>
      cases d' <;> intro h' <;> first | rfl | (cases h'; done)
  · cases d <;> intro h <;> (first | (cases h; done) | skip) <;> cases h <;>
      cases d' <;> intro h' <;> first | rfl | (cases h'; done)

/-- The element type printed for a dtype (`TORCH_DTYPE_TO_MLIR_TYPE_ASM`) is the text of an element
type that describes that dtype. -/
theorem C18_asm (d : Dtype) (s : String) (h : mlirTypeAsm d = some s) :
    ∃ t : ElemTy, t.asm = s ∧ t.desc = some d.desc := by
  cases d <;> cases h
  case uint8 => exact ⟨.unsigned 8, by decide +kernel, rfl⟩
  case int8 => exact ⟨.signed 8, by decide +kernel, rfl⟩
  case int16 => exact ⟨.signed 16, by decide +kernel, rfl⟩
  case int32 => exact ⟨.signed 32, by decide +kernel, rfl⟩
  case int64 => exact ⟨.signed 64, by decide +kernel, rfl⟩
  case float16 => exact ⟨.float .f16, by decide +kernel, rfl⟩
  case float32 => exact ⟨.float .f32, by decide +kernel, rfl⟩
  case float64 => exact ⟨.float .f64, by decide +kernel, rfl⟩
  case bfloat16 => exact ⟨.float .bf16, by decide +kernel, rfl⟩
  case complex32 => exact ⟨.complex .f16, by decide +kernel, rfl⟩
  case complex64 => exact ⟨.complex .f32, by decide +kernel, rfl⟩
  case complex128 => exact ⟨.complex .f64, by decide +kernel, rfl⟩
  case bool => exact ⟨.signless 1, by decide +kernel, rfl⟩
  case qint8 => exact ⟨.qint8, by decide +kernel, rfl⟩
  case quint8 => exact ⟨.quint8, by decide +kernel, rfl⟩
  case float8_e5m2 => exact ⟨.float .f8E5M2, by decide +kernel, rfl⟩
  case float8_e4m3fn => exact ⟨.float .f8E4M3FN, by decide +kernel, rfl⟩
  case float8_e5m2fnuz => exact ⟨.float .f8E5M2FNUZ, by decide +kernel, rfl⟩
  case float8_e4m3fnuz => exact ⟨.float .f8E4M3FNUZ, by decide +kernel, rfl⟩
  case float8_e8m0fnu => exact ⟨.float .f8E8M0FNU, by decide +kernel, rfl⟩
  case float4_e2m1fn_x2 => exact ⟨.float .f4E2M1FN, by decide +kernel, rfl⟩

/-- The buffer type of a literal (`TORCH_DTYPE_TO_NPY_TYPE`) and the element type of the literal
(`TORCH_DTYPE_TO_MLIR_TYPE`) describe the dtype. -/
theorem C18_buffer (d : Dtype) (n : NpTy) (h : npyType d = some n) :
    n.desc = d.desc ∧ ∃ t, mlirType d = some t ∧ t.desc = some d.desc ∧
      mlirTypeAsm d = some t.asm := by
  cases d <;> cases h <;> exact ⟨rfl, _, rfl, rfl, by decide +kernel⟩

/-- The element types of `TORCH_DTYPE_TO_MLIR_TYPE`, quantized dtypes excepted. -/
theorem C18_element_partial (d : Dtype) (t : ElemTy) (h : mlirType d = some t)
    (hq : d.quantized = false) : t.desc = some d.desc ∧ mlirTypeAsm d = some t.asm := by
  cases d <;> cases h <;> first | (cases hq; done) | exact ⟨rfl, by decide +kernel⟩

/-- `TORCH_DTYPE_TO_MLIR_TYPE` sends the quantized `qint8` to the plain `si8`, while
`TORCH_DTYPE_TO_MLIR_TYPE_ASM` says `!torch.qint8`. -/
theorem C18_element_violated : ∃ d t, mlirType d = some t ∧ t.desc ≠ some d.desc ∧
    mlirTypeAsm d ≠ some t.asm :=
  ⟨.qint8, .signed 8, rfl, by decide, by decide +kernel⟩

/-- The codes of the FX importer, complex dtypes excepted. -/
theorem C18_code_partial (d : Dtype) (c : Nat) (h : dtypeToInt d = some c)
    (h32 : d ≠ .complex32) (h64 : d ≠ .complex64) : codeDesc c = some d.desc := by
  cases d <;> cases h <;> first | (exact absurd rfl h32) | (exact absurd rfl h64) | rfl

/-- The FX importer's code for `complex32` is that of `complex64`, its code for `complex64` that of
`complex128`; and `complex128` has none. -/
theorem C18_code_violated :
    (∃ c, dtypeToInt .complex32 = some c ∧ codeDesc c = some Dtype.complex64.desc) ∧
    (∃ c, dtypeToInt .complex64 = some c ∧ codeDesc c = some Dtype.complex128.desc) ∧
    dtypeToInt .complex128 = none ∧ Dtype.complex32.desc ≠ Dtype.complex64.desc ∧
    Dtype.complex64.desc ≠ Dtype.complex128.desc :=
  ⟨⟨9, rfl, rfl⟩, ⟨10, rfl, rfl⟩, rfl, by decide, by decide⟩

/-- The codes of the TorchDynamo importer all stand for their dtypes. -/
theorem C18_dynamo (d : Dtype) (c : Nat) (h : dynamoDtypeToInt d = some c) :
    codeDesc c = some d.desc := by
  cases d <;> cases h <;> rfl

/-- The two importers give the same code to the same dtype — except `complex64`. -/
theorem C18_importers_agree_partial (d : Dtype) (c c' : Nat) (h : dtypeToInt d = some c)
    (h' : dynamoDtypeToInt d = some c') (hc : d ≠ .complex64) : c = c' := by
  cases d <;> cases h <;> cases h' <;> first | rfl | exact absurd rfl hc

/-- On the C++ side: the element type made for a `ScalarType` describes it, every described
`ScalarType` has an element type, and going back gives the same `ScalarType`. -/
theorem C18_scalar_type (s : ScalarType) :
    (∀ t, typeForScalarType s = some t → t.desc = scalarDesc s ∧ scalarTypeForType t = some s) ∧
    ((scalarDesc s).isSome → (typeForScalarType s).isSome) := by
  constructor
  · intro t h; cases s <;> cases h <;> exact ⟨rfl, rfl⟩
  · intro h; cases s <;> first | rfl | (cases h; done)

/-- And the `ScalarType` found for an element type describes it and leads back to that type. -/
theorem C18_element_type (t : ElemTy) (s : ScalarType) (h : scalarTypeForType t = some s) :
    scalarDesc s = t.desc ∧ typeForScalarType s = some t := by
  cases t with
  | float f => cases f <;> cases h <;> exact ⟨rfl, rfl⟩
  | complex f => cases f <;> first | (cases h; done) | (cases h; exact ⟨rfl, rfl⟩)
  | signed n =>
    simp only [scalarTypeForType] at h
    repeat' split at h
    all_goals first | (cases h; done) | skip
    all_goals subst_vars; cases h; exact ⟨rfl, rfl⟩
  | unsigned n =>
    simp only [scalarTypeForType] at h
    split at h
    · subst_vars; cases h; exact ⟨rfl, rfl⟩
    · cases h
  | signless n =>
    simp only [scalarTypeForType] at h
    split at h
    · subst_vars; cases h; exact ⟨rfl, rfl⟩
    · cases h
  | qint8 => cases h; exact ⟨rfl, rfl⟩
  | quint8 => cases h; exact ⟨rfl, rfl⟩
  | qint16 => cases h; exact ⟨rfl, rfl⟩
  | qint32 => cases h; exact ⟨rfl, rfl⟩

/-- End to end for a dtype argument: the code the FX importer emits, decoded by the compiler, is the
element type the FX importer gives tensors of that dtype. -/
theorem C18_end_to_end_partial (d : Dtype) (c : Nat) (h : dtypeToInt d = some c)
    (h32 : d ≠ .complex32) (h64 : d ≠ .complex64) :
    ∃ s t, ScalarType.all[c]? = some s ∧ typeForScalarType s = some t ∧ mlirType d = some t := by
  cases d <;> cases h <;>
    first | (exact absurd rfl h32) | (exact absurd rfl h64) | exact ⟨_, _, rfl, rfl, rfl⟩

/-- `bfloat16`: code 15, `bf16`, `ml_dtypes.bfloat16`. -/
example : dtypeToInt .bfloat16 = some 15 ∧ codeDesc 15 = some Dtype.bfloat16.desc ∧
    mlirType .bfloat16 = some (.float .bf16) ∧ npyType .bfloat16 = some .bfloat16 :=
  ⟨rfl, rfl, rfl, rfl⟩

end Verif
