import Verif.Model.FoldList
import Verif.Spec.Slice

/-!
# What operators on lists compute
-/

namespace Verif.Fold

/-- An execution, at one operator: `ρ` are the integers, `β` the truth values, `σ` the contents of the lists at that
moment.  A list that nothing may mutate has the contents it was made with. -/
structure LHolds (g : LCtx) (ρ : V → Int) (σ : V → List Int) : Prop where
  const : ∀ v c, g.k v = some c → ρ v = c
  list : ∀ l es, g.list l = some es → g.mutated l = false → σ l = es.map ρ
  /-- `aten.__contains__.int_list` is read-only -/
  contains : ∀ l, g.onlyContains l = true → g.mutated l = false

/-- The same for lists of truth values. -/
structure BHolds (g : LCtx) (β : V → Bool) (σ : V → List Bool) : Prop where
  const : ∀ v c, g.kb v = some c → β v = c
  list : ∀ l es, g.list l = some es → g.mutated l = false → σ l = es.map β

/-- A folded truth value is the truth of a statement. -/
def Tells (p : Prop) : Res → Prop
  | .none => True
  | .attr c => c = 1 ∧ p ∨ c = 0 ∧ ¬p
  | _ => False

/-- `i` is the position index `x` means in a list of `n` elements: negative indices count from the end. -/
def IsIndex (n : Nat) (x : Int) (i : Nat) : Prop := i < n ∧ (x = i ∨ x = (i : Int) - n)

/-- The elements of `l` a slice with a positive step selects, in order. -/
def sliceOf {α : Type} (l : List α) (start end_ : Option Int) (step : Int) : List α :=
  ((List.range l.length).filter (Shape.selected l.length start end_ step)).filterMap (l[·]?)

/-- The elements of `l` a slice with a negative step selects: downwards. -/
def sliceDownOf {α : Type} (l : List α) (start end_ : Int) (step : Int) : List α :=
  ((List.range l.length).filter (Shape.selectedDown l.length start end_ step)).reverse.filterMap (l[·]?)

/-- A new list has the contents `c`. -/
def Makes (ρ : V → Int) (c : List Int) : ListRes → Prop
  | .failure => True
  | .list es => es.map ρ = c
  | .undef => False

/-- The number a bound of a slice stands for in an execution. -/
def Bound.denotes (ρ : V → Int) : Bound → Option Int
  | .none => Option.none
  | .value v => some (ρ v)

end Verif.Fold
