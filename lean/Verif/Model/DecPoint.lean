import Mathlib.Data.Rat.Floor

/-!
# Decomposition of operators on single elements (DecomposeComplexOps.cpp 1797-1807, 3295-3400, 4193-4288, 5660-5714, 7608-7671, 9883-9978, 10038-10072, 12246-12295, 12305-12365, 13020-13050)

Simplified: numbers of floating point are rational, infinite or not a number, and computed with exactly; there is one zero. Only what happens to an element is given; broadcasting and types of tensors are not, nor elements that are integers.
-/

namespace Verif.Point

/-- A number of floating point. -/
inductive Num where
  | nan
  | ninf
  | fin (q : ℚ)
  | pinf
  deriving DecidableEq

/-- `aten.lt` -/
def Num.lt : Num → Num → Bool
  | .nan, _ => false
  | _, .nan => false
  | .fin a, .fin b => decide (a < b)
  | .ninf, .ninf => false
  | .ninf, _ => true
  | .fin _, .pinf => true
  | _, _ => false

/-- `aten.gt` -/
def Num.gt (x y : Num) : Bool := y.lt x

/-- `aten.eq` -/
def Num.eq : Num → Num → Bool
  | .nan, _ => false
  | x, y => decide (x = y)

/-- `aten.isnan`, `x != x` (lines 1797-1807). -/
def Num.isNan (x : Num) : Bool := !x.eq x

def Num.neg : Num → Num
  | .nan => .nan
  | .ninf => .pinf
  | .fin a => .fin (-a)
  | .pinf => .ninf

def Num.add : Num → Num → Num
  | .nan, _ => .nan
  | _, .nan => .nan
  | .fin a, .fin b => .fin (a + b)
  | .pinf, .ninf => .nan
  | .ninf, .pinf => .nan
  | .pinf, _ => .pinf
  | _, .pinf => .pinf
  | .ninf, _ => .ninf
  | _, .ninf => .ninf

def Num.sub (x y : Num) : Num := x.add y.neg

/-- An infinite number with the sign of a product. -/
def signed (a : ℚ) : Num := if 0 < a then .pinf else if a < 0 then .ninf else .nan

def Num.mul : Num → Num → Num
  | .nan, _ => .nan
  | _, .nan => .nan
  | .fin a, .fin b => .fin (a * b)
  | .pinf, .fin b => signed b
  | .ninf, .fin b => signed (-b)
  | .fin a, .pinf => signed a
  | .fin a, .ninf => signed (-a)
  | .pinf, .pinf => .pinf
  | .ninf, .ninf => .pinf
  | _, _ => .ninf

def Num.div : Num → Num → Num
  | .nan, _ => .nan
  | _, .nan => .nan
  | .fin a, .fin b => if b = 0 then signed a else .fin (a / b)
  | .fin _, _ => .fin 0
  | .pinf, .fin b => if b = 0 then .pinf else signed b
  | .ninf, .fin b => if b = 0 then .ninf else signed (-b)
  | _, _ => .nan

/-- `aten.maximum`: what is not a number stays. -/
def Num.maximum (x y : Num) : Num := if x = .nan ∨ y = .nan then .nan else if x.lt y then y else x

/-- `aten.minimum` -/
def Num.minimum (x y : Num) : Num := if x = .nan ∨ y = .nan then .nan else if y.lt x then y else x

/-- `aten.abs` -/
def Num.abs : Num → Num
  | .ninf => .pinf
  | .fin a => .fin |a|
  | x => x

/-- `aten.floor` -/
def Num.floor : Num → Num
  | .fin a => .fin (⌊a⌋ : Int)
  | x => x

/-- `DecomposeAtenSgnOp` (lines 12246-12295). -/
def Num.sgn (x : Num) : Num :=
  let selectGreater := if x.gt (.fin 0) then Num.fin 1 else .fin 0
  if x.lt (.fin 0) then .fin (-1) else selectGreater

/-- `DecomposeAtenSoftshrinkOp` (lines 3295-3347). -/
def softshrink (lambd : ℚ) (x : Num) : Num :=
  let neglambd := Num.fin (-lambd)
  let poslambd := Num.fin lambd
  let posMask := x.gt poslambd
  let negMask := x.lt neglambd
  let posValue := x.sub poslambd
  let negValue := x.add neglambd
  let result := if posMask then posValue else .fin 0
  if negMask then negValue else result

/-- `DecomposeAtenHardshrinkOp` (lines 3356-3400). -/
def hardshrink (lambd : ℚ) (x : Num) : Num :=
  let posMask := x.gt (.fin lambd)
  let negMask := x.lt (.fin (-lambd))
  let result := if posMask then x else .fin 0
  if negMask then x else result

/-- `getRelu6Results` (lines 4193-4204) and `DecomposeAtenRelu6Op` (lines 4207-4221). -/
def relu6 (x : Num) : Num := (x.maximum (.fin 0)).minimum (.fin 6)

/-- `DecomposeAtenHardswishOp` (lines 4226-4252). -/
def hardswish (x : Num) : Num := ((relu6 (x.add (.fin 3))).div (.fin 6)).mul x

/-- `DecomposeAtenLeakyReluOp` (lines 4257-4288). -/
def leakyRelu (slope x : Num) : Num := ((Num.fin 0).maximum x).add (((Num.fin 0).minimum x).mul slope)

/-- `DecomposeAtenNanToNumOp` (lines 5660-5714); `largest` is the largest number of the type of elements. -/
def nanToNum (largest : ℚ) (nan posinf neginf : Option Num) (x : Num) : Num :=
  let nan := nan.getD (.fin 0)
  let posinf := posinf.getD (.fin largest)
  let neginf := neginf.getD (.fin (-largest))
  let x := if x.isNan then nan else x
  let x := if x.eq .pinf then posinf else x
  if x.eq .ninf then neginf else x

/-- `DecomposeAtenHardsigmoidOp` (lines 7608-7645). -/
def hardsigmoid (x : Num) : Num := (Num.fin 0).maximum ((Num.fin 1).minimum ((x.add (.fin 3)).div (.fin 6)))

/-- `DecomposeAtenHardtanhOp` (lines 7649-7671). -/
def hardtanh (minVal maxVal x : Num) : Num := maxVal.minimum (x.maximum minVal)

/-- `DecomposeAtenTruncOp` (lines 9883-9904). -/
def trunc (x : Num) : Num := x.sgn.mul x.abs.floor

/-- `DecomposeAtenFracOp` (lines 9963-9978). -/
def frac (x : Num) : Num := x.sub (trunc x)

/-- `DecomposeAtenFmodTensorOp` (lines 10038-10072), for elements that are not integers. -/
def fmod (x y : Num) : Num := x.sub ((trunc (x.div y)).mul y)

/-- `DecomposeAtenHeaviside` (lines 12305-12365). -/
def heaviside (x value : Num) : Num :=
  let zerosOrOnes := if x.lt (.fin 0) || x.isNan then Num.fin 0 else .fin 1
  if x.eq (.fin 0) then value else zerosOrOnes

/-- `DecomposeAtenFMaxMinOp` (lines 13020-13050), for one of `aten.maximum` and `aten.minimum`. -/
def fmaxMin (op : Num → Num → Num) (self other : Num) : Num :=
  let normalResult := op self other
  let normalResult := if other.isNan then self else normalResult
  if self.isNan then other else normalResult

/-- `aten.fmax` and `aten.fmin` (lines 13920-13923). -/
def fmax : Num → Num → Num := fmaxMin Num.maximum
def fmin : Num → Num → Num := fmaxMin Num.minimum

end Verif.Point
