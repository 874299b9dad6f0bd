import Verif.Model.LinReduce
import Verif.Spec.LinPool

/-! # Reductions -/

namespace Verif.Red

open Lin

/-- The dimension `d` of `rank` is one of those `dim` names: all, if there is none or the list is empty. -/
def named (rank : Nat) : DimArg → Nat → Bool
  | .none, _ => true
  | .list l, d => l.isEmpty || l.any fun i => decide (i = d ∨ i + rank = d)
  | .int i, d => decide (i = d ∨ i + rank = d)

/-- torch accepts the dimensions. -/
def ValidDims (rank : Nat) : DimArg → Prop
  | .none => True
  | .list l => ∀ i ∈ l, -rank ≤ i ∧ i < rank
  | .int i => -rank ≤ i ∧ i < rank

/-- Only dimension `d` is reduced. -/
def only (d : Nat) : Nat → Bool := fun k => decide (k = d)

/-- A list with an entry for every dimension, without those that are reduced, or with `one` in their place. -/
def kept (red : Nat → Bool) (keep : Bool) (one : Int) (l : List Int) : List Int :=
  if keep then l.zipIdx.map fun a => if red a.2 then one else a.1
  else (l.zipIdx.filter fun a => !red a.2).map (·.1)

/-- All positions, in row-major order. -/
def rows : List Int → List (List Int)
  | [] => [[]]
  | n :: ns => ((List.range n.toNat).map fun (i : Nat) => (i : Int)).flatMap fun i => (rows ns).map fun is => i :: is

/-- The positions that are reduced to `q`, in row-major order. -/
def lane (sizes : List Int) (red : Nat → Bool) (keep : Bool) (q : List Int) : List (List Int) :=
  (rows sizes).filter fun p => decide (kept red keep 0 p = q)

/-- The number that the bits of an element stand for. -/
def value (t : IntTy) (e : BitVec t.width) : Int := if t.unsigned ∨ t.width = 1 then e.toNat else e.toInt

/-- The types of torch. -/
def IntTy.Valid (t : IntTy) : Prop := 1 ≤ t.width

/-- `m` is the greatest (least) of the numbers. -/
def IsExtreme (isMax : Bool) (m : Int) (l : List Int) : Prop := m ∈ l ∧ ∀ i ∈ l, if isMax then i ≤ m else m ≤ i

/-- `i` is the first position on the lane, in the order of dimension `d`, with the value `m`. -/
def FirstAt {E : Type} (val : List Int → E) (d : Nat) (l : List (List Int)) (m : E) (i : Int) : Prop :=
  ∃ p ∈ l, val p = m ∧ p.getD d 0 = i ∧ ∀ p' ∈ l, val p' = m → i ≤ p'.getD d 0

end Verif.Red
