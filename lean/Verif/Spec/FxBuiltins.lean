import Verif.Spec.Fx
import Mathlib.Algebra.Order.Floor.Ring
import Mathlib.Data.Rat.Floor

/-!
# Meaning of scalar operations in Python and in torch

Floating point numbers are idealised as rationals (no rounding, no infinities or NaN).
-/

namespace Verif.Fx.Spec

/-- Python scalars. -/
inductive Num where
  | int (i : Int)
  | float (q : Rat)
  | bool (b : Bool)
  deriving DecidableEq

/-- `float(x)` for a number that is not a `bool`. -/
def Num.toRat : Num → Option Rat
  | .int i => some i
  | .float q => some q
  | .bool _ => none

/-- Floor division and remainder of floats. -/
def ratFloorDiv (a b : Rat) : Rat := (⌊a / b⌋ : Int)
def ratMod (a b : Rat) : Rat := a - b * ratFloorDiv a b

/-- Remainder of C's `fmod`: sign of the dividend. -/
def ratFmod (a b : Rat) : Rat :=
  if 0 ≤ a / b then a - b * (⌊a / b⌋ : Int) else a - b * (⌈a / b⌉ : Int)

/-- Python: two ints give an int, an int and a float are both converted to float. -/
def arith (i : Int → Int → Int) (q : Rat → Rat → Rat) : Num → Num → Option Num
  | .int a, .int b => some (.int (i a b))
  | x, y => do
    let a ← x.toRat
    let b ← y.toRat
    some (.float (q a b))

/-- Python's comparisons are exact on ints and floats. -/
def compare (r : Rat → Rat → Bool) (x y : Num) : Option Num := do
  let a ← x.toRat
  let b ← y.toRat
  some (.bool (r a b))

/-- Division operators raise on zero. -/
def nonzero (y : Num) (r : Option Num) : Option Num := do
  let b ← y.toRat
  if b = 0 then none else r

/-- The functions of Python's `operator` module on ints and floats; `none`: raises. -/
def pyBuiltin (name : String) (args : List Num) : Option Num :=
  match name, args with
  | "add", [x, y] => arith (· + ·) (· + ·) x y
  | "sub", [x, y] => arith (· - ·) (· - ·) x y
  | "mul", [x, y] => arith (· * ·) (· * ·) x y
  | "truediv", [x, y] => nonzero y (do
      let a ← x.toRat
      let b ← y.toRat
      some (.float (a / b)))
  | "floordiv", [x, y] => nonzero y (arith Int.fdiv ratFloorDiv x y)
  | "mod", [x, y] => nonzero y (arith Int.fmod ratMod x y)
  | "lt", [x, y] => compare (fun a b => decide (a < b)) x y
  | "le", [x, y] => compare (fun a b => decide (a ≤ b)) x y
  | "ge", [x, y] => compare (fun a b => decide (a ≥ b)) x y
  | "gt", [x, y] => compare (fun a b => decide (a > b)) x y
  | "eq", [x, y] => compare (fun a b => decide (a = b)) x y
  | "ne", [x, y] => compare (fun a b => decide (a ≠ b)) x y
  | "neg", [.int a] => some (.int (-a))
  | "neg", [.float a] => some (.float (-a))
  | _, _ => none

/-- Torch's scalar operations; operand types have to be those of the overload. -/
def torchScalar (op : String) (args : List Num) : Option Num :=
  match op, args with
  | "torch.aten.add.int", [.int a, .int b] => some (.int (a + b))
  | "torch.aten.add.float", [.float a, .float b] => some (.float (a + b))
  | "torch.aten.add.float_int", [.float a, .int b] => some (.float (a + b))
  | "torch.aten.sub.int", [.int a, .int b] => some (.int (a - b))
  | "torch.aten.sub.float", [.float a, .float b] => some (.float (a - b))
  | "torch.aten.mul.int", [.int a, .int b] => some (.int (a * b))
  | "torch.aten.mul.float", [.float a, .float b] => some (.float (a * b))
  | "torch.aten.div.int", [.int a, .int b] => if b = 0 then none else some (.float ((a : Rat) / b))
  | "torch.aten.div.float", [.float a, .float b] => if b = 0 then none else some (.float (a / b))
  | "torch.aten.floordiv.int", [.int a, .int b] => if b = 0 then none else some (.int (a.fdiv b))
  | "torch.aten.floordiv.float", [.float a, .float b] => if b = 0 then none else some (.float (ratFloorDiv a b))
  | "torch.aten.fmod.int", [.int a, .int b] => if b = 0 then none else some (.float (ratFmod a b))
  | "torch.aten.fmod.float", [.float a, .float b] => if b = 0 then none else some (.float (ratFmod a b))
  | "torch.aten.lt.int", [.int a, .int b] => some (.bool (decide (a < b)))
  | "torch.aten.lt.float", [.float a, .float b] => some (.bool (decide (a < b)))
  | "torch.aten.lt.float_int", [.float a, .int b] => some (.bool (decide (a < b)))
  | "torch.aten.le.int", [.int a, .int b] => some (.bool (decide (a ≤ b)))
  | "torch.aten.le.float", [.float a, .float b] => some (.bool (decide (a ≤ b)))
  | "torch.aten.ge.int", [.int a, .int b] => some (.bool (decide (a ≥ b)))
  | "torch.aten.ge.float", [.float a, .float b] => some (.bool (decide (a ≥ b)))
  | "torch.aten.ge.float_int", [.float a, .int b] => some (.bool (decide (a ≥ b)))
  | "torch.aten.gt.int", [.int a, .int b] => some (.bool (decide (a > b)))
  | "torch.aten.gt.float", [.float a, .float b] => some (.bool (decide (a > b)))
  | "torch.aten.gt.float_int", [.float a, .int b] => some (.bool (decide (a > b)))
  | "torch.aten.eq.int", [.int a, .int b] => some (.bool (decide (a = b)))
  | "torch.aten.eq.float", [.float a, .float b] => some (.bool (decide (a = b)))
  | "torch.aten.ne.int", [.int a, .int b] => some (.bool (decide (a ≠ b)))
  | "torch.aten.ne.float", [.float a, .float b] => some (.bool (decide (a ≠ b)))
  | "torch.aten.ne.float_int", [.float a, .int b] => some (.bool (decide (a ≠ b)))
  | "torch.aten.neg.int", [.int a] => some (.int (-a))
  | "torch.aten.neg.float", [.float a] => some (.float (-a))
  | "torch.aten.Float.Scalar", [.int a] => some (.float a)
  | "torch.aten.Float.Scalar", [.float a] => some (.float a)
  | _, _ => none

/-- A run of the function: it gives scalar values to (some) SSA values. -/
abbrev Run := Nat → Option Num

/-- The run obeys the emitted operations: constants have their value, the result of a scalar operation
is what torch computes from the operands, and values of type `bool` are no numbers. -/
structure Obeys (s : St) (val : Run) : Prop where
  int : ∀ x k, Defines s.ops x (.const (.int k) none) [] → val x = some (.int k)
  float : ∀ x q, Defines s.ops x (.const (.float q) none) [] → val x = some (.float q)
  op : ∀ name operands ws r x, Defines s.ops x (.torchOp name) operands →
    operands.map val = ws.map some → torchScalar name ws = some r → val x = some r
  bool : ∀ x, s.tys[x]? = some .bool → ∀ i, val x ≠ some (.int i) ∧ ∀ q, val x ≠ some (.float q)

/-- `w` is the value of a Python argument in the run: an int or a float. -/
def ArgHas (s : St) (val : Run) (a : Arg) (w : Num) : Prop :=
  match a with
  | .node r => ∃ x, NodeIs s r x ∧ val x = some w
  | .lit (.int k) => w = .int k
  | .lit (.float q) => w = .float q
  | _ => False

/-- The Python type recorded for the argument is the type of its value. -/
def Num.hasTy : Num → PyTy → Prop
  | .int _, t => t = .int
  | .float _, t => t = .float
  | .bool _, _ => False

/-- The tracer recorded the right Python type for a node argument. -/
def ArgTyped (env : Env) (a : Arg) (w : Num) : Prop :=
  match a with
  | .node r => ∃ n, nodeOf env r = some n ∧ w.hasTy n.pyTy
  | _ => True

end Verif.Fx.Spec
