import Verif.Spec.Dims

/-! # Slices and triangles, counted (for C32, C36) -/

namespace Verif.Shape

/-- The number of indices below `n` with a property. -/
def countBelow (n : Nat) (p : Nat → Bool) : Nat := ((List.range n).filter p).length

/-- A bound of a slice as a position: negative bounds count from the end, then clamp to `[0, n]`. -/
def position (n : Nat) (x : Int) : Int := max 0 (min n (if x < 0 then x + n else x))

/-- Index `i` of a dimension of size `n` is selected by `start:end_:step` with a positive step. -/
def selected (n : Nat) (start end_ : Option Int) (step : Int) (i : Nat) : Bool :=
  decide ((start.elim 0 (position n) : Int) ≤ i ∧ (i : Int) < end_.elim (n : Int) (position n) ∧
    step ∣ ((i : Int) - start.elim 0 (position n)))

/-- The start of a slice that runs downwards: an index of the dimension (ONNX's clamping to
`[0, n - 1]`). -/
def downStart (n : Nat) (x : Int) : Int := max 0 (min ((n : Int) - 1) (if x < 0 then x + n else x))

/-- The end of a slice that runs downwards: clamped to `[-1, n - 1]`. -/
def downEnd (n : Nat) (x : Int) : Int := max (-1) (min ((n : Int) - 1) (if x < 0 then x + n else x))

/-- Index `i` is selected by `start:end_:step` with a negative step. -/
def selectedDown (n : Nat) (start end_ step : Int) (i : Nat) : Bool :=
  decide (downEnd n end_ < i ∧ (i : Int) ≤ downStart n start ∧ step ∣ (downStart n start - i))

/-- `c` is `self` with dimension `dim` replaced by the count of indices `p` selects from it. -/
def IsSelection (self : List Int) (dim : Int) (p : Nat → Nat → Bool) (c : List Int) : Prop :=
  ∃ (d n : Nat), IsDim self.length dim d ∧ self[d]? = some (n : Int) ∧ c = self.set d (countBelow n (p n))

/-- The number of matrix positions with a property. -/
def countPositions (rows cols : Nat) (p : Nat → Nat → Bool) : Nat :=
  ((List.range rows).map (fun r => countBelow cols (p r))).sum

end Verif.Shape
