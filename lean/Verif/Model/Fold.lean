import Mathlib.Data.Int.Log
import Mathlib.Data.Rat.Floor

/-!
# Folders of scalar integer operators (`lib/Dialect/Torch/IR/TorchOps.cpp`)

A folder sees the operands of one operator: SSA values, what defines them, and the constants among them.  It answers
with nothing, an attribute (a constant), or one of the SSA values.

* `adaptor.getA()` (the constant attribute of an operand) and `matchPattern(v, m_TorchConstantInt(&c))` are the same
  test here: the operand is defined by `torch.constant.int`.
* The arithmetic of C++ on `int64_t` is undefined on overflow, and so are a division by zero and a conversion of a
  double that does not fit: `Res.undef`.  The arithmetic of `APInt` wraps around.
-/

namespace Verif.Fold

/-- An SSA value. -/
abbrev V := Nat

/-- What defines a value of type `!torch.int`. -/
inductive Def where
  /-- `torch.constant.int` -/
  | const (c : Int)
  /-- `torch.aten.size.int` -/
  | size
  /-- `torch.aten.mul.int` -/
  | mul (a b : V)
  /-- anything else, or a block argument -/
  | other
  deriving DecidableEq

/-- The values in scope: definitions and numbers of uses. -/
structure Ctx where
  defn : V → Def
  uses : V → Nat

/-- `m_TorchConstantInt` (include/torch-mlir/Dialect/Torch/IR/TorchOps.h, lines 97-100). -/
def Ctx.const? (g : Ctx) (v : V) : Option Int :=
  match g.defn v with
  | .const c => some c
  | _ => none

/-- `OpFoldResult`, or undefined behaviour of C++. -/
inductive Res where
  | none
  | attr (c : Int)
  | value (v : V)
  | undef
  deriving DecidableEq

def minI64 : Int := -2 ^ 63
def maxI64 : Int := 2 ^ 63 - 1

/-- Two's complement: what `APInt` arithmetic of 64 bits keeps of a number. -/
def wrap (x : Int) : Int := x.bmod (2 ^ 64)

/-- The result of signed arithmetic on `int64_t`. -/
def i64 (x : Int) : Option Int := if minI64 ≤ x ∧ x ≤ maxI64 then some x else none

/-- An attribute from a C++ expression. -/
def Res.ofExpr : Option Int → Res
  | some c => .attr c
  | Option.none => .undef

/-- `atenBinaryIntOperatorFoldHelper` (lines 3960-3972). -/
def binaryIntHelper (g : Ctx) (a b : V) (f : Int → Int → Option Int) : Res :=
  match g.const? a, g.const? b with
  | some x, some y => .ofExpr (f x y)
  | _, _ => .none

/-- `AtenAddIntOp::fold` (lines 4115-4124). -/
def foldAddInt (g : Ctx) (a b : V) : Res :=
  if g.const? b = some 0 then .value a
  else if g.const? a = some 0 then .value b
  else binaryIntHelper g a b fun x y => i64 (x + y)

/-- `AtenSubIntOp::fold` (lines 4130-4136). -/
def foldSubInt (g : Ctx) (a b : V) : Res :=
  if a = b then .attr 0 else binaryIntHelper g a b fun x y => i64 (x - y)

/-- `AtenMulIntOp::fold` (lines 4456-4469). -/
def foldMulInt (g : Ctx) (a b : V) : Res :=
  if g.const? a = some 1 then .value b
  else if g.const? b = some 1 then .value a
  else if g.const? a = some 0 ∨ g.const? b = some 0 then .attr 0
  else
    match g.const? a, g.const? b with
    | some x, some y => .ofExpr (i64 (x * y))
    | _, _ => .none

/-- `AtenNegIntOp::fold` (lines 4680-4685). -/
def foldNegInt (g : Ctx) (a : V) : Res :=
  match g.const? a with
  | some x => .ofExpr (i64 (-x))
  | Option.none => .none

/-- `PrimMaxIntOp::fold` (lines 5380-5393). -/
def foldMaxInt (g : Ctx) (a b : V) : Res :=
  if a = b then .value a
  else
    match g.const? a, g.const? b with
    | some x, some y => .attr (max x y)
    | _, _ => .none

/-- `PrimMinIntOp::fold` (lines 5449-5462). -/
def foldMinInt (g : Ctx) (a b : V) : Res :=
  if a = b then .value a
  else
    match g.const? a, g.const? b with
    | some x, some y => .attr (min x y)
    | _, _ => .none

/-- Remainder of C++ (`a % b`): truncated division; undefined for `b = 0` and for the least number by -1. -/
def cRem (a b : Int) : Option Int :=
  if b = 0 ∨ a = minI64 ∧ b = -1 then none else some (a.tmod b)

/-- `AtenRemainderIntOp::fold` (lines 4078-4081). -/
def foldRemainderInt (g : Ctx) (a b : V) : Res := binaryIntHelper g a b cRem

/-! ## Doubles -/

/-- To the nearest integer, ties to even. -/
def roundEven (x : ℚ) : Int :=
  if x - ⌊x⌋ < 1 / 2 then ⌊x⌋
  else if 1 / 2 < x - ⌊x⌋ then ⌊x⌋ + 1
  else if ⌊x⌋ % 2 = 0 then ⌊x⌋ else ⌊x⌋ + 1

/-- The distance of doubles around `x`, outside the subnormal range. -/
def ulp (x : ℚ) : ℚ := 2 ^ (Int.log 2 |x| - 52)

/-- Rounding to the nearest double (IEEE 754, 53 bits of precision).  Neither overflow nor the subnormal range occurs
for the quotients of 64-bit integers, so the range of exponents is not modelled. -/
def roundF64 (x : ℚ) : ℚ := if x = 0 then 0 else roundEven (x / ulp x) * ulp x

/-- `std::floor(a / (double)b)` (line 4033) converted to `int64_t`: `a` and `b` are rounded, then the quotient. -/
def floorDivDouble (a b : Int) : Option Int :=
  if b = 0 then none else i64 ⌊roundF64 (roundF64 a / roundF64 b)⌋

/-- `AtenFloordivIntOp::fold` (lines 4030-4034). -/
def foldFloordivInt (g : Ctx) (a b : V) : Res := binaryIntHelper g a b floorDivDouble

/-! ## Ranges -/

/-- `llvm::APIntOps::RoundingSDiv(a, b, UP)` on 64 bits: the quotient truncated towards zero, plus one if there is a
remainder with the sign of the divisor.  Division by zero is undefined. -/
def roundingSDivUp (a b : Int) : Option Int :=
  if b = 0 then none
  else if a.tmod b = 0 then some (wrap (a.tdiv b))
  else if (a.tmod b < 0) ≠ (b < 0) then some (wrap (a.tdiv b))
  else some (wrap (a.tdiv b + 1))

/-- `Aten__RangeLengthOp::fold` (lines 766-785). -/
def foldRangeLength (g : Ctx) (lo hi step : V) : Res :=
  match g.const? lo, g.const? hi, g.const? step with
  | some l, some h, some s => if s < 0 then .none else .ofExpr (roundingSDivUp (wrap (h - l)) s)
  | _, _, _ => .none

/-- `Aten__DeriveIndexOp::fold` (lines 791-802). -/
def foldDeriveIndex (g : Ctx) (index start step : V) : Res :=
  match g.const? index, g.const? start, g.const? step with
  | some i, some a, some s => .attr (wrap (a + wrap (s * i)))
  | _, _, _ => .none

/-! ## Comparisons -/

/-- The six comparisons (lines 2891-2994). -/
inductive Cmp where
  | eq | ne | lt | le | gt | ge
  deriving DecidableEq, Repr

/-- The lambdas given to `intComparatorFoldHelper`. -/
def Cmp.run : Cmp → Int → Int → Bool
  | .eq, a, b => a == b
  | .ne, a, b => a != b
  | .lt, a, b => decide (a < b)
  | .le, a, b => decide (a ≤ b)
  | .gt, a, b => decide (a > b)
  | .ge, a, b => decide (a ≥ b)

/-- `getI1IntegerAttr` (lines 2764-2767). -/
def i1 (b : Bool) : Int := if b then 1 else 0

/-- Lines 2849-2872, for a comparator with its constant on the right. -/
def compareSize (g : Ctx) (cmp : Int → Int → Bool) (v : V) (rhs : Int) : Res :=
  if rhs < 0 ∧ g.defn v = .size then .attr (i1 (cmp 0 (-1)))
  else if rhs = 0 ∧ g.defn v = .size then
    if cmp 0 0 && cmp 1 0 then .attr (i1 true)
    else if !cmp 0 0 && cmp (-1) 0 && !cmp 1 0 then .attr (i1 false)
    else .none
  else .none

/-- `intComparatorFoldHelper` (lines 2821-2875). -/
def foldCompare (g : Ctx) (cmp : Int → Int → Bool) (a b : V) : Res :=
  if a = b then .attr (i1 (cmp 0 0))
  else
    match g.const? a, g.const? b with
    | some x, some y => .attr (i1 (cmp x y))
    | some x, Option.none => compareSize g (fun l r => cmp r l) b x
    | Option.none, some y => compareSize g cmp a y
    | Option.none, Option.none => .none

/-- `AtenBoolIntOp::fold` (lines 3010-3015). -/
def foldBoolInt (g : Ctx) (a : V) : Res :=
  match g.const? a with
  | some c => .attr (i1 (c != 0))
  | Option.none => .none

/-! ## Canonicalization of products and quotients -/

/-- What a canonicalization pattern does to `op`: nothing, replaces it by a value, or replaces it by the product of a
value and a new constant; `erased` is the product erased with it. -/
inductive Rewrite where
  | failure
  | replace (v : V) (erased : V)
  | mulConst (v : V) (c : Int) (erased : V)
  | undef
  deriving DecidableEq

/-- Lines 4039-4054 and 4475-4490: the operand that is not constant, the constant, the operands of the product that
defines the former; and which of these is the constant one. -/
def constAndMul (g : Ctx) (a b : V) : Option (V × Int × V × V) :=
  match g.const? a, g.const? b with
  | some _, some _ => none
  | some x, Option.none => match g.defn b with | .mul p q => some (b, x, p, q) | _ => none
  | Option.none, some y => match g.defn a with | .mul p q => some (a, y, p, q) | _ => none
  | Option.none, Option.none => none

/-- The pattern of `AtenMulIntOp` (lines 4471-4511). -/
def canonMulInt (g : Ctx) (a b : V) : Rewrite :=
  match constAndMul g a b with
  | none => .failure
  | some (m, first, p, q) =>
    match g.const? p, g.const? q with
    | some _, some _ => .failure
    | some c, Option.none =>
      if g.uses m = 1 then (match i64 (c * first) with | some d => .mulConst q d m | Option.none => .undef) else .failure
    | Option.none, some c =>
      if g.uses m = 1 then (match i64 (c * first) with | some d => .mulConst p d m | Option.none => .undef) else .failure
    | Option.none, Option.none => .failure

/-- The pattern of `AtenFloordivIntOp` (lines 4036-4072). -/
def canonFloordivInt (g : Ctx) (a b : V) : Rewrite :=
  match constAndMul g a b with
  | none => .failure
  | some (m, first, p, q) =>
    match g.const? p, g.const? q with
    | some _, some _ => .failure
    | some c, Option.none => if g.uses m = 1 ∧ c = first then .replace q m else .failure
    | Option.none, some c => if g.uses m = 1 ∧ c = first then .replace p m else .failure
    | Option.none, Option.none => .failure

/-! ## Floats -/

/-- A double: not a number, an infinity, or a number (zeros are not told apart). -/
inductive F where
  | nan
  | inf (negative : Bool)
  | fin (q : ℚ)
  deriving DecidableEq

/-- `a < b` -/
def F.lt : F → F → Bool
  | .nan, _ => false
  | _, .nan => false
  | .inf n, .inf m => n && !m
  | .inf n, .fin _ => n
  | .fin _, .inf m => !m
  | .fin a, .fin b => decide (a < b)

/-- `a == b` -/
def F.beq : F → F → Bool
  | .inf n, .inf m => n == m
  | .fin a, .fin b => decide (a = b)
  | _, _ => false

/-- The lambdas given to `floatComparatorFoldHelper` (lines 2788-2818); there are only these four. -/
inductive FCmp where
  | lt | gt | ge | eq
  deriving DecidableEq, Repr

def FCmp.run : FCmp → F → F → Bool
  | .lt, a, b => a.lt b
  | .gt, a, b => b.lt a
  | .ge, a, b => b.lt a || a.beq b
  | .eq, a, b => a.beq b

/-- `floatComparatorFoldHelper` (lines 2769-2782); `k` are the operands defined by `torch.constant.float`. -/
def foldCompareFloat (k : V → Option F) (cmp : F → F → Bool) (a b : V) : Res :=
  if a = b then .attr (i1 (cmp (.fin 0) (.fin 0)))
  else
    match k a, k b with
    | some x, some y => .attr (i1 (cmp x y))
    | _, _ => .none

/-- `AtenDivFloatOp::fold` (lines 4936-4947), given the division of doubles. -/
def foldDivFloat (k : V → Option F) (div : F → F → F) (a b : V) : Option F :=
  match k a, k b with
  | some x, y? =>
    if x = .fin 0 then some (.fin 0)
    else
      match y? with
      | some y => if y = .fin 1 then some x else some (div x y)
      | none => none
  | none, _ => none

/-! ## Booleans -/

/-- `Aten__Not__Op::fold` (lines 824-829); `k` are the operands defined by `torch.constant.bool`. -/
def foldNot (k : V → Option Bool) (a : V) : Res :=
  match k a with
  | some x => .attr (i1 (!x))
  | none => .none

/-- `Aten__Or__BoolOp::fold` (lines 835-848). -/
def foldOr (k : V → Option Bool) (a b : V) : Res :=
  if k a = none ∧ k b = none then .none
  else if k a = some true ∨ k b = some true then .attr 1
  else if k a = some false then .value b
  else if k b = some false then .value a
  else .none

/-- `AtenEqBoolOp::fold` (lines 854-864). -/
def foldEqBool (k : V → Option Bool) (a b : V) : Res :=
  if a = b then .attr (i1 true)
  else
    match k a, k b with
    | some x, some y => .attr (i1 (x == y))
    | _, _ => .none

/-- `AtenNeBoolOp::fold` (lines 870-880). -/
def foldNeBool (k : V → Option Bool) (a b : V) : Res :=
  if a = b then .attr (i1 false)
  else
    match k a, k b with
    | some x, some y => .attr (i1 (x != y))
    | _, _ => .none

/-- `AtenIntBoolOp::fold` (lines 3109-3115). -/
def foldIntBool (k : V → Option Bool) (a : V) : Res :=
  match k a with
  | some x => .attr (if x then 1 else 0)
  | none => .none

/-! ## Identity with None -/

/-- The types `atenIsOrIsNotFoldHelper` tells apart, and those whose values may be None. -/
inductive Ty where
  /-- `!torch.none` -/
  | none
  /-- `!torch.optional<...>` -/
  | optional
  /-- `!torch.any` -/
  | any
  /-- `!torch.union<...>` with `!torch.none` among its members -/
  | unionNone
  /-- all others -/
  | other
  deriving DecidableEq

/-- An operand: its type, and the type of the operand of the `torch.derefine` that defines it, if one does. -/
structure Arg where
  ty : Ty
  derefined : Option Ty

/-- Lines 729-734. -/
def Arg.refinedTy (a : Arg) : Ty := a.derefined.getD a.ty

/-- `atenIsOrIsNotFoldHelper` (lines 725-760): the answer, if any. -/
def foldIs (equalIsTrue : Bool) (l r : Arg) : Option Bool :=
  let (lt, rt) := if r.refinedTy = .none then (r.refinedTy, l.refinedTy) else (l.refinedTy, r.refinedTy)
  if lt = .none ∧ rt = .none then some equalIsTrue
  else if lt = .none ∧ rt ≠ .optional then some !equalIsTrue
  else none

end Verif.Fold
