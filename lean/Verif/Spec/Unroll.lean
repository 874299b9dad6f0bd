import Verif.Model.Unroll

/-!
# What a loop does

What operations do is a parameter: from the values of their operands and the world they make the values of their results
and a new world, or raise.
-/

namespace Verif.Unroll
open Fold (V)

structure Sem (W E : Type) where
  /-- the value of an integer -/
  int : Int → E
  /-- the integer a value is -/
  toInt : E → Int
  truthy : E → Bool
  /-- the `j`-th result, and the new world -/
  run : Nat → List E → W → Option ((Nat → E) × W)

variable {W E : Type}

def set1 (σ : V → E) (v : V) (e : E) : V → E := fun n => if n = v then e else σ n

/-- Names get the values of a list. -/
def setAll (σ : V → E) : List V → List E → V → E
  | v :: vs, e :: es => setAll (set1 σ v e) vs es
  | _, _ => σ

def step (S : Sem W E) : Op → W × (V → E) → Option (W × (V → E))
  | .const r c, (w, σ) => some (w, set1 σ r (S.int c))
  | .call res s args, (w, σ) =>
    match S.run s (args.map σ) w with
    | none => none
    | some (f, w') => some (w', setAll σ res ((List.range res.length).map f))

def exec (S : Sem W E) : List Op → W × (V → E) → Option (W × (V → E))
  | [], s => some s
  | o :: rest, s =>
    match step S o s with
    | none => none
    | some s' => exec S rest s'

/-- At most `n` more iterations, the next one being the `i`-th, as long as the condition holds; `σ` are the values outside
the loop. -/
def runLoop (S : Sem W E) (L : Loop) (σ : V → E) : (n i : Nat) → (vals : List E) → (cond : Bool) → W → Option (W × List E)
  | 0, _, vals, _, w => some (w, vals)
  | n + 1, i, vals, cond, w =>
    if cond then
      match exec S L.body (w, setAll (set1 σ L.index (S.int i)) L.params vals) with
      | none => none
      | some (w', σ') => runLoop S L σ n (i + 1) (L.yields.map σ') (S.truthy (σ' L.shouldContinue)) w'
    else some (w, vals)

/-- The loop, and then the operations after it. -/
def execLoop (S : Sem W E) (L : Loop) (after : List Op) : W × (V → E) → Option (W × (V → E))
  | (w, σ) =>
    match runLoop S L σ (S.toInt (σ L.maxTripCount)).toNat 0 (L.inits.map σ) (S.truthy (σ L.initialCondition)) w with
    | none => none
    | some (w', vals) => exec S after (w', setAll σ L.results vals)

/-- Constants have their values. -/
def Consistent (S : Sem W E) (g : Ctx) (σ : V → E) : Prop :=
  (∀ v c, g.int v = some c → S.toInt (σ v) = c) ∧ (∀ v b, g.bool v = some b → S.truthy (σ v) = b)

/-- Every name is defined once, before it is used; `seen` are the names already there. -/
def Ssa : List V → List Op → Prop
  | _, [] => True
  | seen, o :: rest =>
    (∀ v ∈ o.args, v ∈ seen) ∧ (∀ r ∈ o.res, r ∉ seen) ∧ o.res.Nodup ∧ Ssa (seen ++ o.res) rest

/-- Names visible at the end of the body. -/
def Loop.scope (L : Loop) (seen : List V) : List V := seen ++ L.index :: L.params ++ L.body.flatMap Op.res

/-- A well-formed loop among the names `seen`. -/
structure Loop.Ok (L : Loop) (seen : List V) : Prop where
  trip : L.maxTripCount ∈ seen
  init : L.initialCondition ∈ seen
  inits : ∀ v ∈ L.inits, v ∈ seen
  args : (L.index :: L.params).Nodup
  new : ∀ v ∈ L.index :: L.params, v ∉ seen
  body : Ssa (seen ++ L.index :: L.params) L.body
  cond : L.shouldContinue ∈ L.scope seen
  yields : ∀ v ∈ L.yields, v ∈ L.scope seen
  results : L.results.Nodup
  results_new : ∀ v ∈ L.results, v ∉ seen
  len_init : L.inits.length = L.params.length
  len_yield : L.yields.length = L.params.length
  len_result : L.results.length = L.params.length

/-- The values yielded are defined in the loop. -/
def Loop.YieldsOwn (L : Loop) : Prop := ∀ v ∈ L.yields, v ∈ L.index :: L.params ++ L.body.flatMap Op.res

/-- Whatever the body does, the loop goes on. -/
def Continues (S : Sem W E) (L : Loop) (σ : V → E) : Prop :=
  ∀ i vals w w' σ', exec S L.body (w, setAll (set1 σ L.index (S.int i)) L.params vals) = some (w', σ') →
    S.truthy (σ' L.shouldContinue) = true

/-- Both executions raise, or they end in the same world, with the same values of all names below `bound` but the loop's
results; those are the values of `values`. -/
def SameEnd (L : Loop) (values : List V) (bound : V) : Option (W × (V → E)) → Option (W × (V → E)) → Prop
  | none, none => True
  | some (w, σ), some (w', τ) =>
    w' = w ∧ (∀ n, n < bound → n ∉ L.results → τ n = σ n) ∧ values.map τ = L.results.map σ
  | _, _ => False

end Verif.Unroll
