/-!
# Release versions as numbers and as text (for C22)
-/

namespace Verif.Version

/-- The text of release `a.b.c`, with a local part such as `+cu113`. -/
def releaseText (a b c : Nat) (localPart : List Char) : List Char :=
  Nat.toDigits 10 a ++ '.' :: (Nat.toDigits 10 b ++ '.' :: (Nat.toDigits 10 c ++ localPart))

/-- `a.b.c` is numerically at most `2.1.0`. -/
def AtMost210 (a b c : Nat) : Prop := a < 2 ∨ (a = 2 ∧ (b < 1 ∨ (b = 1 ∧ c = 0)))

end Verif.Version
