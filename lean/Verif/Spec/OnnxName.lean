/-!
# MLIR identifiers

`bare-id ::= (letter|[_]) (letter|digit|[_$.])*` (https://mlir.llvm.org/docs/LangRef, the page the code cites).
-/

namespace Verif.Onnx

/-- A valid MLIR identifier. -/
def IsBareId (s : List Char) : Prop :=
  ∃ c cs, s = c :: cs ∧ (c.isAlpha = true ∨ c = '_') ∧
    ∀ d ∈ cs, d.isAlphanum = true ∨ d = '_' ∨ d = '$' ∨ d = '.'

/-- Only ASCII characters. -/
def IsAscii (s : List Char) : Prop := ∀ c ∈ s, c.toNat < 128

end Verif.Onnx
