/-!
# NumPy's broadcasting rule (for C31, C41, C43)

Shapes are compared from the last dimension backwards; a missing dimension counts as size one.
-/

namespace Verif.Shape

/-- The size in the `k`-th position from the end; missing positions have size one. -/
def trail (s : List Int) (k : Nat) : Int := (s.reverse[k]?).getD 1

/-- `z` is the common size of `x` and `y`: equal sizes, or the other one where one of them is 1. -/
def Common (x y z : Int) : Prop := (x = y ∧ z = x) ∨ (x = 1 ∧ z = y) ∨ (y = 1 ∧ z = x)

/-- `c` is the shape of an element-wise operation on operands of shapes `a` and `b`. -/
def IsBroadcast (a b c : List Int) : Prop :=
  c.length = max a.length b.length ∧ ∀ k, Common (trail a k) (trail b k) (trail c k)

/-- The shapes are compatible. -/
def Compatible (a b : List Int) : Prop :=
  ∀ k, trail a k = trail b k ∨ trail a k = 1 ∨ trail b k = 1

/-- `c` is the common shape of all shapes in `ts`: as long as the longest, and in each position the
only size other than one that occurs. -/
def IsBroadcastAll (ts : List (List Int)) (c : List Int) : Prop :=
  ((∀ t ∈ ts, t.length ≤ c.length) ∧ ∃ t ∈ ts, t.length = c.length) ∧
  ∀ k, (∀ t ∈ ts, trail t k = trail c k ∨ trail t k = 1) ∧ ∃ t ∈ ts, trail t k = trail c k

/-- A tensor of shape `a` may be expanded to shape `c`. -/
def ExpandsTo (a c : List Int) : Prop :=
  a.length ≤ c.length ∧ ∀ k, trail a k = trail c k ∨ trail a k = 1

end Verif.Shape
