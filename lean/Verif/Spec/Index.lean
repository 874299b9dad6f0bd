import Verif.Spec.Broadcast
import Verif.Spec.Dims

/-! # NumPy's advanced indexing (for C37) -/

namespace Verif.Shape

/-- The index tensors stand in adjacent positions: after `p` gaps come the index tensors `ts`, then only
gaps. -/
def Adjacent (indices : List (Option (List Int))) (p : Nat) (ts : List (List Int)) : Prop :=
  ts ≠ [] ∧ ∃ q, indices = List.replicate p none ++ ts.map some ++ List.replicate q none

/-- The dimensions without an index tensor, in order. -/
def gapDims (rank : Nat) (indices : List (Option (List Int))) : List Nat :=
  (List.range rank).filter fun i => (indices[i]?.getD none).isNone

/-- `c` is the shape of `self` indexed with index tensors of the given shapes (`none` is a gap; missing
indices at the end are gaps): the common shape of the index tensors replaces the indexed dimensions where
these are adjacent, and comes first otherwise, followed by the other dimensions in order. -/
def IsIndexed (self : List Int) (indices : List (Option (List Int))) (c : List Int) : Prop :=
  indices.length ≤ self.length ∧
  ∃ b, IsBroadcastAll (indices.filterMap id) b ∧
    (∀ p ts, Adjacent indices p ts → c = self.take p ++ b ++ self.drop (p + ts.length)) ∧
    ((¬∃ p ts, Adjacent indices p ts) → ∃ kept, Picks self (gapDims self.length indices) kept ∧ c = b ++ kept)

end Verif.Shape
