import Verif.Model.TmTensor

/-!
# Lanes of tensors
-/

namespace Verif.Tm

/-- A multi-index of a shape. -/
def InBox (sizes idx : List Nat) : Prop := List.Forall₂ (fun i n => i < n) idx sizes

instance (sizes idx : List Nat) : Decidable (InBox sizes idx) := by unfold InBox; infer_instance

/-- The multi-indices of a shape, the last one varying fastest. -/
def box : List Nat → List (List Nat)
  | [] => [[]]
  | n :: ns => (List.range n).flatMap fun i => (box ns).map (i :: ·)

/-- The elements along dimension `d`; `o` are the other positions. -/
def lane {E : Type} (b : List Nat → E) (d n : Nat) (o : List Nat) : List E := (List.range n).map fun k => b (o.insertIdx d k)

/-- The elements of several operands at one position. -/
def tuple {E : Type} (m : Nat) (s : Nat → List Nat → E) (idx : List Nat) : List E := (List.range m).map fun o => s o idx

/-- The arguments of the region for two tuples: pairs of elements of one operand. -/
def pairs {E : Type} : List E → List E → List E
  | a :: as, b :: bs => a :: b :: pairs as bs
  | _, _ => []

/-- `l'` is `l` in the order `le`, elements neither of which comes first as they were. -/
def IsStableSort {T : Type} (le : T → T → Bool) (l l' : List T) : Prop :=
  ∃ σ : List Nat, σ.Perm (List.range l.length) ∧ l'.map some = σ.map (fun i => l[i]?) ∧
    σ.Pairwise fun i j => ∀ a b, l[i]? = some a → l[j]? = some b → le a b = true ∧ (le b a = true → i < j)

/-- `le` orders the elements that have a property: any two compare, and it is transitive. -/
structure IsOrder {T : Type} (p : T → Prop) (le : T → T → Bool) : Prop where
  total : ∀ a b, p a → p b → le a b = true ∨ le b a = true
  trans : ∀ a b c, p a → p b → p c → le a b = true → le b c = true → le a c = true

/-- The elements `g 0`, …, `g k`, combined from the left. -/
def upTo {E : Type} (f : E → E → E) (g : Nat → E) (k : Nat) : E := ((List.range k).map fun i => g (i + 1)).foldl f (g 0)

/-- The elements `g 0`, …, `g (k - 1)`, combined from the left, starting with `init`. -/
def before {E : Type} (f : E → E → E) (init : E) (g : Nat → E) (k : Nat) : E := ((List.range k).map g).foldl f init

/-! ## Scatter -/

/-- The index columns that are for dimension `j`. -/
def columns (dimMap : List Nat) (j : Nat) : List Nat := (List.range dimMap.length).filter fun i => decide (dimMap[i]? = some j)

/-- Where an update goes in dimension `j` of `rank`: the indices for the dimension, plus the place in the update's slice, whose
dimensions are the last ones.  `row` are the indices of the update, `ivs` its place in the updates (the first is its number). -/
def startAt (rank : Nat) (dimMap : List Nat) (row : Nat → Int) (ivs : List Nat) (j : Nat) : Int :=
  ((columns dimMap j).map row).sum + (if rank + 1 ≤ j + ivs.length then (ivs[j + ivs.length - rank]?.getD 0 : Nat) else 0 : Int)

/-- `p` is where the update goes. -/
def Target (sizes dimMap : List Nat) (indices : Nat → Nat → Int) (ivs p : List Nat) : Prop :=
  InBox sizes p ∧ ∀ j, j < sizes.length → ((p[j]?.getD 0 : Nat) : Int) = startAt sizes.length dimMap (indices (ivs.headD 0)) ivs j

instance (sizes dimMap : List Nat) (indices : Nat → Nat → Int) (ivs p : List Nat) : Decidable (Target sizes dimMap indices ivs p) := by
  unfold Target; infer_instance

/-- Every dimension has an index or a dimension of the updates (of rank `urank`). -/
def Covered (rank urank : Nat) (dimMap : List Nat) : Prop := ∀ j, j < rank → j + urank < rank + 1 → j ∈ dimMap

/-! ## The best -/

/-- `best` are the first of `all` in the order `le`, in order. -/
def IsBest {T : Type} (le : T → T → Bool) (all best : List T) : Prop :=
  ∃ rest, (best ++ rest).Perm all ∧ best.Pairwise (fun a b => le a b = true) ∧ ∀ b ∈ best, ∀ r ∈ rest, le b r = true

/-- The values and indices along a lane. -/
def pairLane {E : Type} (values : List Nat → E) (indices : List Nat → Int) (d n : Nat) (o : List Nat) : List (E × Int) :=
  (List.range n).map fun i => (values (o.insertIdx d i), indices (o.insertIdx d i))

/-- First by value (`before a b`: `a` is better than `b`), then by index. -/
def bestFirst {E : Type} (before : E → E → Bool) (a b : E × Int) : Bool :=
  before a.1 b.1 || (!before b.1 a.1 && decide (a.2 ≤ b.2))

/-- `before` is a strict order of the elements with a property in which different elements compare. -/
structure IsStrict {T : Type} (p : T → Prop) (before : T → T → Bool) : Prop where
  asymm : ∀ a b, p a → p b → before a b = true → before b a = false
  trans : ∀ a b c, p a → p b → p c → before a b = true → before b c = true → before a c = true
  eq : ∀ a b, p a → p b → before a b = false → before b a = false → a = b

end Verif.Tm
