import Verif.Model.TypeSubclassMap

/-!
# What converter look-up should answer
-/

namespace Verif.TypeMap

variable {T V : Type} [DecidableEq T]

/-- The registrations of a history, oldest first. -/
def registrations : List (Event T V) → List (T × V)
  | [] => []
  | .register t v :: h => (t, v) :: registrations h
  | .lookup _ :: h => registrations h

/-- `r` is the value of the first of the entries `l` whose class `t` is a subclass of, or nothing
if there is no such entry. -/
def IsFirstMatch (sub : T → T → Bool) (t : T) (l : List (T × V)) (r : Option V) : Prop :=
  (∃ before s v after, l = before ++ (s, v) :: after ∧ sub t s = true ∧ r = some v ∧
      ∀ e ∈ before, sub t e.1 = false) ∨
  (r = none ∧ ∀ e ∈ l, sub t e.1 = false)

/-- No class is registered after one of its superclasses, nor twice. -/
def SubclassesFirst (sub : T → T → Bool) (l : List (T × V)) : Prop :=
  l.Pairwise fun earlier later => sub later.1 earlier.1 = false

/-- All registrations of the history come before all of its look-ups. -/
def RegistrationsFirst (h : List (Event T V)) : Prop :=
  ∃ rs ls, h = rs ++ ls ∧ (∀ e ∈ rs, ∃ t v, e = .register t v) ∧ (∀ e ∈ ls, ∃ t, e = .lookup t)

/-- No event of the history registers the class `t`. -/
def Unregistered (t : T) (h : List (Event T V)) : Prop := ∀ v, Event.register t v ∉ h

end Verif.TypeMap
