import Verif.Model.DecTri

/-! # Triangular indices -/

namespace Verif.Tri

/-- The places of a matrix with a property, in row-major order. -/
def places (keep : Int → Int → Bool) (row col : Nat) : List (Int × Int) :=
  (List.range row).flatMap fun (r : Nat) => ((List.range col).filter fun (c : Nat) => keep r c).map fun (c : Nat) => ((r : Int), (c : Int))

/-- On and below the diagonal that is moved to the right by `offset`. -/
def lower (offset r c : Int) : Bool := decide (c - r ≤ offset)

/-- On and above it. -/
def upper (offset r c : Int) : Bool := decide (offset ≤ c - r)

/-- Square roots of `n + 1/4`, for `n` less than `bound`, compare with numbers `k + 1/2`, whose squares are `k * k + k + 1/4`, like the true ones. -/
def GoodSqrt (sqrt : ℚ → ℚ) (bound : Nat) : Prop :=
  ∀ n k : Nat, n < bound → ((k : ℚ) + 1 / 2 ≤ sqrt (n + 1 / 4) ↔ k * k + k ≤ n) ∧ (sqrt (n + 1 / 4) ≤ (k : ℚ) + 1 / 2 ↔ n ≤ k * k + k)

end Verif.Tri
