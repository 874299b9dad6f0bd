import Verif.Model.RefBackend

/-!
# What a value returned through the reference backend should be
-/

namespace Verif.RefB

/-- The element type a numpy dtype stands for. -/
def NpTy.means : NpTy → Elem
  | .float16 => .float .f16
  | .float32 => .float .f32
  | .float64 => .float .f64
  | .bool => .int 1
  | .int8 => .int 8
  | .int16 => .int 16
  | .int32 => .int 32
  | .int64 => .int 64
  | .complex64 => .complex .f32
  | .complex128 => .complex .f64

/-- `a` is a value a function with result type `t` can return. -/
def Typed (t : Ty) (a : Arg) : Prop :=
  match t, a with
  | .scalar (.int w), .int n =>
      if w = 1 then n = 0 ∨ n = 1 else -2 ^ (w - 1) ≤ n ∧ n < 2 ^ (w - 1)
  | .scalar (.float _), .flt _ => True
  | .memref _, .mem _ => True
  | _, _ => False

/-- `o` is the value `a` seen with the type `t`: numbers are themselves, buffers are arrays of the element
type. -/
def Shows (t : Ty) (a : Arg) (o : Out) : Prop :=
  match t, a with
  | .scalar _, .int n => o = .int n
  | .scalar _, .flt x => o = .flt x
  | .memref e, .mem b => ∃ np : NpTy, np.means = e ∧ o = .arr np b
  | _, _ => False

/-- The values a result holds. -/
def Result.outs : Result → List Out
  | .one o => [o]
  | .many l => l

/-- A result shows the values under the types, position by position. -/
def ShowsAll (ts : List Ty) (vals : List Arg) (r : Result) : Prop :=
  r.outs.length = ts.length ∧
    ∀ (i : Nat) (t : Ty) (a : Arg) (o : Out), ts[i]? = some t → vals[i]? = some a →
      r.outs[i]? = some o → Shows t a o

/-- Values of the given types. -/
def TypedAll (ts : List Ty) (vals : List Arg) : Prop :=
  vals.length = ts.length ∧
    ∀ (i : Nat) (t : Ty) (a : Arg), ts[i]? = some t → vals[i]? = some a → Typed t a

/-- The result types the backend has a decoder for. -/
def Decodable (t : Ty) : Prop :=
  t ∈ ([.scalar (.int 1), .scalar (.int 8), .scalar (.int 64), .scalar (.float .f32),
    .scalar (.float .f64), .memref (.float .f16), .memref (.float .f32), .memref (.float .f64),
    .memref (.int 1), .memref (.int 8), .memref (.int 16), .memref (.int 32), .memref (.int 64),
    .memref (.complex .f32), .memref (.complex .f64)] : List Ty)

/-- Integers a C `int` can hold. -/
def FitsCInt (a : Arg) : Prop :=
  match a with
  | .int n => -2147483648 ≤ n ∧ n < 2147483648
  | _ => True

/-- Two functions have the same result types. -/
def SameSignature (f g : Func) : Prop := f.rets = g.rets

end Verif.RefB
