import Verif.Model.Compile

/-!
# What the compiler driver should do
-/

namespace Verif.Compile

/-- Whether axis `i` of a tensor of rank `n` is among the given axes, which may count from the end. -/
def IsAxis (n : Nat) (axes : List Int) (i : Nat) : Prop := (i : Int) ∈ axes ∨ (i : Int) - n ∈ axes

/-- Whether a given character stands for the character `b` of a name: in any case, and `-` for `_`. -/
def SameChar (a b : Char) : Prop := a.toUpper = b ∨ (a = '-' ∧ b = '_')

/-- Whether a given text stands for a name. -/
def SameName (s name : List Char) : Prop :=
  s.length = name.length ∧ ∀ (i : Nat) (a b : Char), s[i]? = some a → name[i]? = some b → SameChar a b

/-- The name of an output type. -/
def typeName : OutputType → String
  | .torch => "TORCH"
  | .linalgOnTensors => "LINALG_ON_TENSORS"
  | .tosa => "TOSA"
  | .stablehlo => "STABLEHLO"
  | .raw => "RAW"

/-- The value of an output type, as documented. -/
def typeValue : OutputType → String
  | .torch => "torch"
  | .linalgOnTensors => "linalg-on-tensors"
  | .tosa => "tosa"
  | .stablehlo => "stablehlo"
  | .raw => "raw"

/-- A step leaves `sys.stderr` alone. -/
def Keeps {σ : Type} (m : M σ) : Prop := ∀ w, (m w).2.stderr = w.stderr

/-- A step never raises. -/
def Succeeds {σ : Type} (m : M σ) : Prop := ∀ w, (m w).1 = .ok ()

end Verif.Compile
