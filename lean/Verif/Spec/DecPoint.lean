import Verif.Model.DecPoint
import Verif.Spec.DecBucket

/-! # Operators on single elements -/

namespace Verif.Point

/-- Order of numbers, with which what is not a number does not compare. -/
def Le : Num → Num → Prop
  | .fin a, .fin b => a ≤ b
  | .ninf, y => y ≠ .nan
  | x, .pinf => x ≠ .nan
  | _, _ => False

/-- Nearer to zero by `l`, but not beyond it. -/
def soft (l x : ℚ) : ℚ := if l < x then x - l else if x < -l then x + l else 0

/-- Zero up to a distance of `l` from it. -/
def hard (l x : ℚ) : ℚ := if |x| ≤ l then 0 else x

/-- A number moved into an interval. -/
def clamp (lo hi x : ℚ) : ℚ := if x < lo then lo else if hi < x then hi else x

/-- What is to become of a number that is none or not finite. -/
def replaced (nan posinf neginf : Num) : Num → Num
  | .nan => nan
  | .pinf => posinf
  | .ninf => neginf
  | .fin q => .fin q

/-- A remainder with the sign of the dividend. -/
def Remainder (x y r : ℚ) : Prop := (∃ k : Int, r = x - k * y) ∧ |r| < |y| ∧ 0 ≤ x * r

end Verif.Point
