import Verif.Model.Slots

/-!
# What inlining of global slots may assume
-/

namespace Verif.Slots

variable {D : Type}

/-- Operations without side effects, of a block. -/
def Code.simples : Code D → List (SOp D)
  | .ret _ => []
  | .op (.simple o) k => o :: k.simples
  | .op _ k => k.simples
  | .iff _ _ t e _ k => t.simples ++ e.simples ++ k.simples

/-- The values given to the terminators: of the function and of the branches. -/
def Code.ends : Code D → List Var
  | .ret as => as
  | .op _ k => k.ends
  | .iff _ _ t e _ k => t.ends ++ e.ends ++ k.ends

/-- Code as it is written, before the pass. -/
def Code.Source : Code D → Prop
  | .ret _ => True
  | .op (.cloned _ _ _) _ => False
  | .op _ k => k.Source
  | .iff _ _ t e _ k => t.Source ∧ e.Source ∧ k.Source

/-- Results that may be, or have in them, the operands. -/
def SOp.Passes : SOp D → Prop
  | .fresh _ _ _ | .value _ _ _ => False
  | .same _ _ | .item _ _ _ _ | .list _ _ _ => True

/-- The values that may be, or have in them, objects of the initializer. -/
inductive Holds (m : Module D) : Var → Prop
  | init (o : SOp D) : o ∈ m.init → Holds m o.res
  | get (f : Fn D) (s : Slot) (r : Var) : f ∈ m.fns → (s, r) ∈ f.body.gets → Holds m r
  | op (f : Fn D) (o : SOp D) (a : Var) : f ∈ m.fns → o ∈ f.body.simples → o.Passes → a ∈ o.args → Holds m a → m.trivial a = false →
      Holds m o.res

/-- A well-formed module: operands in the initializer are defined before, a slot has one initial value. -/
structure WellFormed (m : Module D) : Prop where
  ordered : m.init.Pairwise fun o o' => o'.res ∉ o.args
  irreflexive : ∀ o ∈ m.init, o.res ∉ o.args
  slots : (m.slots.map Prod.fst).Nodup
  source : ∀ f ∈ m.fns, f.body.Source

/-- Objects of the initializer are not returned by functions and do not leave branches. -/
def KeepsSlots (m : Module D) : Prop :=
  ∀ f ∈ m.fns, ∀ a ∈ f.body.ends, Holds m a → m.trivial a = true

end Verif.Slots
