import Verif.Model.Fx

/-!
# Builtin scalar operations

The table `PY_BUILTIN_TO_TORCH_OP` (python/torch_mlir/extras/fx_importer.py:285–299) and the schemas
of the torch overloads `_import_symbolic_torch_op` picks from it.
-/

namespace Verif.Fx

/-- `PY_BUILTIN_TO_TORCH_OP` (fx_importer.py:285–299). -/
def pyBuiltinToTorchOp : List (String × String) :=
  [("truediv", "div"), ("mul", "mul"), ("add", "add"), ("sub", "sub"), ("lt", "lt"), ("le", "le"),
   ("ge", "ge"), ("ne", "ne"), ("gt", "gt"), ("mod", "fmod"), ("eq", "eq"), ("floordiv", "floordiv"),
   ("neg", "neg")]

/-- Parameter types of the overloads `int`, `float` and `float_int` of a scalar operation with `n`
operands (PyTorch's schemas, e.g. `aten::add.float_int(float a, int b) -> float`). -/
def overloadTys (ov : String) (n : Nat) : List JitTy :=
  match ov with
  | "int" => List.replicate n .int
  | "float" => List.replicate n .float
  | "float_int" => [.float, .int]
  | _ => []

/-- `getattr(PY_BUILTIN_TO_TORCH_OP[name], overload)` (lines 1711–1716): `none` when the builtin is
not in the table. The parameters are called `a` and `b` and have no defaults. -/
def builtinSchema (name ov : String) : Option Schema :=
  match pyBuiltinToTorchOp.lookup name with
  | none => none
  | some op =>
    let tys := overloadTys ov (if op = "neg" then 1 else 2)
    some ⟨"torch.aten." ++ op ++ "." ++ ov, (["a", "b"].zip tys).map fun p => ⟨p.1, p.2, .lit .none⟩, 1⟩

/-- `aten::Float.Scalar(Scalar a) -> float` (line 1646). -/
def floatScalarSchema : Schema := ⟨"torch.aten.Float.Scalar", [⟨"a", .number, .lit .none⟩], 1⟩

end Verif.Fx
