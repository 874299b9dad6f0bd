import Verif.Model.Promote

/-!
# Specification vocabulary for dtype promotion (C44, C45)

What dtypes can represent, stated without reference to the promotion table.
-/

namespace Verif.PromoteSpec
open Verif.Promote Verif.Promote.ScalarType

/-- Number category of a dtype. -/
inductive Kind where
  | bool
  /-- integers in `[-lo, hi]` -/
  | int (lo hi : Nat)
  /-- floating point: exponent bits, mantissa bits -/
  | float (e m : Nat)
  /-- complex with floating-point components -/
  | complex (e m : Nat)
  deriving DecidableEq, Repr

/-- The dtypes PyTorch promotes among (IEEE formats, integers, bool, complex64/128). -/
def kind : ScalarType → Option Kind
  | .bool => some .bool
  | byte => some (.int 0 255)
  | char => some (.int 128 127)
  | short => some (.int 32768 32767)
  | int => some (.int 2147483648 2147483647)
  | long => some (.int 9223372036854775808 9223372036854775807)
  | half => some (.float 5 10)
  | bfloat16 => some (.float 8 7)
  | float => some (.float 8 23)
  | double => some (.float 11 52)
  | complexFloat => some (.complex 8 23)
  | complexDouble => some (.complex 11 52)
  | _ => none

/-- A dtype covered by the property. -/
def Standard (t : ScalarType) : Prop := (kind t).isSome = true

instance (t : ScalarType) : Decidable (Standard t) := inferInstanceAs (Decidable (_ = _))

/-- Category rank: bool < integer < floating < complex. -/
def Kind.cat : Kind → Nat
  | .bool => 0
  | .int _ _ => 1
  | .float _ _ => 2
  | .complex _ _ => 3

/-- Category rank of a dtype. -/
def cat (t : ScalarType) : Nat := match kind t with | some k => k.cat | none => 0

/-- Values of the first kind are values of the second: integers by range, floats by exponent and
mantissa width, a float as real part of a complex number; promotion treats every integer as
convertible to every floating-point type. -/
def Kind.fits : Kind → Kind → Prop
  | .bool, _ => True
  | .int lo hi, .int lo' hi' => lo ≤ lo' ∧ hi ≤ hi'
  | .int _ _, .float _ _ => True
  | .int _ _, .complex _ _ => True
  | .float e m, .float e' m' => e ≤ e' ∧ m ≤ m'
  | .float e m, .complex e' m' => e ≤ e' ∧ m ≤ m'
  | .complex e m, .complex e' m' => e ≤ e' ∧ m ≤ m'
  | _, _ => False

instance (a b : Kind) : Decidable (a.fits b) := by
  cases a <;> cases b <;> simp only [Kind.fits] <;> infer_instance

/-- Every value of dtype `a` is (for promotion purposes) a value of dtype `b`. -/
def Fits (a b : ScalarType) : Prop :=
  match kind a, kind b with
  | some ka, some kb => ka.fits kb
  | _, _ => False

instance (a b : ScalarType) : Decidable (Fits a b) := by
  unfold Fits; cases kind a <;> cases kind b <;> simp only <;> infer_instance

/-- `t` is the least standard dtype in which every dtype of `l` fits. -/
def IsLeast (l : List ScalarType) (t : ScalarType) : Prop :=
  Standard t ∧ (∀ a ∈ l, Fits a t) ∧ ∀ c, Standard c → (∀ a ∈ l, Fits a c) → Fits t c

end Verif.PromoteSpec
