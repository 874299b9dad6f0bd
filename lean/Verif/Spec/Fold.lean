import Verif.Model.Fold

/-!
# What scalar integer operators compute

The numbers `torch.aten.*.int` operators denote, as in Python; an execution gives every SSA value a number of 64 bits.
-/

namespace Verif.Fold

/-- A number `!torch.int` can hold. -/
def Fits (x : Int) : Prop := -2 ^ 63 ≤ x ∧ x < 2 ^ 63

/-- `ρ` is what the values are in some execution without overflow: constants are what they say, sizes are not negative,
products are products. -/
structure Holds (g : Ctx) (ρ : V → Int) : Prop where
  fits : ∀ v, Fits (ρ v)
  const : ∀ v c, g.defn v = .const c → ρ v = c
  size : ∀ v, g.defn v = .size → 0 ≤ ρ v
  mul : ∀ v p q, g.defn v = .mul p q → ρ v = ρ p * ρ q

/-- The answer of a folder is right for an operator that computes `x`: no answer is, undefined behaviour is not. -/
def Correct (ρ : V → Int) (x : Int) : Res → Prop
  | .none => True
  | .attr c => c = x
  | .value v => ρ v = x
  | .undef => False

/-- The folder gives an answer. -/
def Answers (r : Res) : Prop := r ≠ .none

/-- A constant operand. -/
def IsConst (g : Ctx) (v : V) : Prop := ∃ c, g.defn v = .const c

/-- `n` is the number of elements of `range(lo, hi, step)`: the indices `i` below `n` are those with `lo + step * i`
before `hi`. -/
def IsRangeLength (lo hi step n : Int) : Prop :=
  0 ≤ n ∧ ∀ i, 0 ≤ i → (i < n ↔ if 0 < step then lo + step * i < hi else hi < lo + step * i)

/-- `n` is an integer nearest to `x`, the even one of two. -/
def IsNearestEven (x : ℚ) (n : Int) : Prop := |x - n| ≤ 1 / 2 ∧ (|x - n| = 1 / 2 → 2 ∣ n)

/-- `y` is the double nearest to `x`: `x` is scaled to 53 bits before the binary point and rounded to an integer. -/
def IsNearestDouble (x y : ℚ) : Prop :=
  ∃ (e n : Int), 2 ^ 52 ≤ |x| / 2 ^ e ∧ |x| / 2 ^ e < 2 ^ 53 ∧ IsNearestEven (x / 2 ^ e) n ∧ y = n * 2 ^ e

/-- Truth of a comparison. -/
def Cmp.Holds : Cmp → Int → Int → Prop
  | .eq, a, b => a = b
  | .ne, a, b => a ≠ b
  | .lt, a, b => a < b
  | .le, a, b => a ≤ b
  | .gt, a, b => a > b
  | .ge, a, b => a ≥ b

/-- The place of a double on the extended line. -/
def F.place : F → Option (WithBot (WithTop ℚ))
  | .nan => none
  | .inf true => some ⊥
  | .inf false => some ((⊤ : WithTop ℚ) : WithBot (WithTop ℚ))
  | .fin q => some ((q : WithTop ℚ) : WithBot (WithTop ℚ))

/-- Truth of a comparison of doubles: false if one of them is not a number. -/
def FCmp.Holds (c : FCmp) (x y : F) : Prop :=
  ∃ p q, x.place = some p ∧ y.place = some q ∧
    match c with
    | .lt => p < q
    | .gt => q < p
    | .ge => q ≤ p
    | .eq => p = q

/-- What is used of the division of IEEE 754 (zeros are not told apart). -/
structure IsDiv (div : F → F → F) : Prop where
  zero_left : ∀ y, y ≠ .nan → y ≠ .fin 0 → div (.fin 0) y = .fin 0
  zero_zero : div (.fin 0) (.fin 0) = .nan
  nan_right : ∀ x, div x .nan = .nan
  one_right : ∀ x, div x (.fin 1) = x

/-- The answer of a folder is right for an operator that computes the truth value `x`. -/
def CorrectBool (ρ : V → Bool) (x : Bool) : Res → Prop
  | .none => True
  | .attr c => c = if x then 1 else 0
  | .value v => ρ v = x
  | .undef => False

/-- A value of the type may be None, or may be something else. -/
def Ty.Allows : Ty → (isNone : Bool) → Prop
  | .none, n => n = true
  | .other, n => n = false
  | _, _ => True

/-- `isNone` may be the case for an operand in some execution. -/
def Arg.Allows (a : Arg) (isNone : Bool) : Prop :=
  a.ty.Allows isNone ∧ ∀ t, a.derefined = some t → t.Allows isNone

end Verif.Fold
