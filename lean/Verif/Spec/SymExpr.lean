import Verif.Model.SymExpr

/-!
# Values of symbolic dimensions

What a sympy expression and an affine expression are worth under an assignment of the symbols.
Independent of the translation.
-/

namespace Verif.SymExpr

/-- `b ** k` for an integer `k`. -/
def ratPow (b : Rat) (k : Int) : Rat :=
  if 0 ≤ k then b ^ k.toNat else (b ^ (-k).toNat)⁻¹

/-- Python's and sympy's `%`: the remainder of floor division. -/
def ratMod (p q : Rat) : Rat := p - q * (p / q).floor

mutual
/-- The value of a sympy expression when the symbols have the values `ρ`.  `opq` gives the value of
everything the translation does not know: nothing is assumed about it. -/
def Sym.value (opq : Sym → Rat) (ρ : Symbol → Int) : Sym → Rat
  | .sym s => ρ s
  | .int k => k
  | .add args => sumValue opq ρ args
  | .mul args => prodValue opq ρ args
  | .pow b e => match e with
    | .int k => ratPow (Sym.value opq ρ b) k
    | e => opq (.pow b e)
  | .mod p q => ratMod (Sym.value opq ρ p) (Sym.value opq ρ q)
  | .other c args => opq (.other c args)

def sumValue (opq : Sym → Rat) (ρ : Symbol → Int) : List Sym → Rat
  | [] => 0
  | x :: xs => Sym.value opq ρ x + sumValue opq ρ xs

def prodValue (opq : Sym → Rat) (ρ : Symbol → Int) : List Sym → Rat
  | [] => 1
  | x :: xs => Sym.value opq ρ x * prodValue opq ρ xs
end

/-- The value of an affine expression, `σ i` being the value of symbol `i`.  MLIR leaves `mod` with a
divisor that is not positive undefined. -/
def Aff.value (σ : Nat → Int) : Aff → Option Int
  | .const k => some k
  | .sym i => some (σ i)
  | .add a b => match a.value σ, b.value σ with
    | some x, some y => some (x + y)
    | _, _ => none
  | .mul a b => match a.value σ, b.value σ with
    | some x, some y => some (x * y)
    | _, _ => none
  | .mod a b => match a.value σ, b.value σ with
    | some x, some y => if 0 < y then some (x % y) else none
    | _, _ => none

mutual
/-- The fragment the importer supports, given the names it knows: symbols, int64 constants, sums,
products, positive literal powers and remainders. -/
inductive Supported (known : String → Prop) : Sym → Prop
  | sym {s : Symbol} : known s.name → Supported known (.sym s)
  | int {k : Int} : int64Min ≤ k → k ≤ int64Max → Supported known (.int k)
  | add {args : List Sym} : SupportedAll known args → Supported known (.add args)
  | mul {args : List Sym} : SupportedAll known args → Supported known (.mul args)
  | pow {b : Sym} {k : Int} : Supported known b → 0 < k → Supported known (.pow b (.int k))
  | mod {p q : Sym} : Supported known p → Supported known q → Supported known (.mod p q)

inductive SupportedAll (known : String → Prop) : List Sym → Prop
  | nil : SupportedAll known []
  | cons {x : Sym} {xs : List Sym} :
    Supported known x → SupportedAll known xs → SupportedAll known (x :: xs)
end

mutual
/-- Is the symbol used in the expression? (`free_symbols`) -/
def Sym.free : Sym → List Symbol
  | .sym s => [s]
  | .int _ => []
  | .add args => freeList args
  | .mul args => freeList args
  | .pow b e => b.free ++ e.free
  | .mod p q => p.free ++ q.free
  | .other _ args => freeList args

def freeList : List Sym → List Symbol
  | [] => []
  | x :: xs => x.free ++ freeList xs
end

mutual
/-- Every remainder in the expression has a positive divisor under `ρ`. -/
def Sym.ModsOk (opq : Sym → Rat) (ρ : Symbol → Int) : Sym → Prop
  | .sym _ => True
  | .int _ => True
  | .add args => ModsOkAll opq ρ args
  | .mul args => ModsOkAll opq ρ args
  | .pow b _ => b.ModsOk opq ρ
  | .mod p q => p.ModsOk opq ρ ∧ q.ModsOk opq ρ ∧ 0 < q.value opq ρ
  | .other _ _ => True

def ModsOkAll (opq : Sym → Rat) (ρ : Symbol → Int) : List Sym → Prop
  | [] => True
  | x :: xs => x.ModsOk opq ρ ∧ ModsOkAll opq ρ xs
end

/-! ## Ranges -/

/-- The integer `n` is at or above the lower bound. -/
def Bound.below (n : Int) : Bound → Prop
  | .int k => k ≤ n
  | .rat q => q ≤ (n : Rat)
  | .negOo | .negIntOo => True
  | .oo | .intOo => False
  | .bool _ => False

/-- The integer `n` is at or below the upper bound. -/
def Bound.above (n : Int) : Bound → Prop
  | .int k => n ≤ k
  | .rat q => (n : Rat) ≤ q
  | .oo | .intOo => True
  | .negOo | .negIntOo => False
  | .bool _ => False

/-- The range constraint allows the integer. -/
def Range.allows (r : Range) (n : Int) : Prop := r.lower.below n ∧ r.upper.above n

/-- The lower bound is not `+oo`, the upper bound not `-oo`. -/
def Range.Proper (r : Range) : Prop :=
  r.lower ≠ .oo ∧ r.lower ≠ .intOo ∧ r.upper ≠ .negOo ∧ r.upper ≠ .negIntOo

/-- `n` is an int64. -/
def IsInt64 (n : Int) : Prop := int64Min ≤ n ∧ n ≤ int64Max

end Verif.SymExpr
