import Verif.Lemmas.FxNode
import Verif.Model.FxBuiltins
import Verif.Spec.FxBuiltins
import Mathlib.Tactic.FieldSimp

/-!
# Values of imported builtin operations
-/

namespace Verif.Fx
open Spec

variable {env : Env} {s : St} {val : Run}

/-- Parameter types of scalar operations. -/
def JitTy.scalar : JitTy → Bool
  | .int | .float | .number => true
  | _ => false

theorem adapt_eq (hv : Obeys s val) {y x : Nat} {ty : Option JitTy} {w : Num} (hy : val y = some w)
    (hw : ∀ b, w ≠ .bool b) (h : AdaptIs s y ty x) : x = y := by
  have nb : s.tys[y]? ≠ some .bool := by
    intro e
    cases w with
    | int i => exact (hv.bool y e i).1 hy
    | float q => exact (hv.bool y e 0).2 q hy
    | bool b => exact hw b rfl
  unfold AdaptIs at h
  split at h <;> first | exact h | (rename_i e; exact absurd e nb)

theorem argIs_val (hv : Obeys s val) {a : Arg} {ty : JitTy} {x : Nat} {w : Num} (hty : ty.scalar = true)
    (ha : ArgHas s val a w) (hw : ∀ b, w ≠ .bool b) (h : ArgIs s a (some ty) x) : val x = some w := by
  obtain ⟨y, h1, h2⟩ := h
  have hy : val y = some w := by
    unfold ArgHas at ha
    split at ha
    · obtain ⟨z, hz, hvz⟩ := ha
      unfold RawIs NodeIs at *
      simp only at h1
      rw [h1] at hz; cases hz; exact hvz
    · subst ha
      unfold RawIs at h1
      have : ¬ (some ty = some JitTy.tensor ∧ Lit.isTensor (.int ‹Int›) = false) := by
        rintro ⟨e, _⟩; cases e; simp [JitTy.scalar] at hty
      simp only [this, if_false] at h1
      exact hv.int _ _ h1
    · subst ha
      unfold RawIs at h1
      have : ¬ (some ty = some JitTy.tensor ∧ Lit.isTensor (.float ‹Rat›) = false) := by
        rintro ⟨e, _⟩; cases e; simp [JitTy.scalar] at hty
      simp only [this, if_false] at h1
      exact hv.float _ _ h1
    · exact ha.elim
  rw [adapt_eq hv hy hw h2]; exact hy

/-- The value of an imported scalar operation. -/
theorem opOk_val (hv : Obeys s val) {r : Ref} {valTy : VTy} {valTys : List VTy} {sch : Schema} {args : List Arg}
    {kwargs : List (String × Arg)} {ws : List Num} {res : Num}
    (ho : OpOk env r valTy valTys sch args kwargs s) (hs : env.scalarSchema sch.opName = none)
    (hret : sch.nReturns = 1) (htys : ∀ p ∈ sch.params, p.ty.scalar = true)
    (hlen : sch.params.length = args.length) (hargs : List.Forall₂ (ArgHas s val) args ws)
    (hws : ∀ w ∈ ws, ∀ b, w ≠ .bool b) (ht : torchScalar sch.opName ws = some res) :
    ∃ x, NodeIs s r x ∧ val x = some res := by
  obtain ⟨sch', o, h1, h2, h3, _⟩ := ho
  have : sch' = sch := by
    unfold pickSchema at h1
    rw [hs] at h1
    cases h1; rfl
  subst this
  have hres : ∃ y, o.results = [y] := by
    unfold ResultsAre resultTys at h3
    rw [if_pos hret] at h3
    have := h3.length_eq
    exact List.length_eq_one_iff.mp this
  obtain ⟨y, hy⟩ := hres
  refine ⟨y, h2.results 0 y (by rw [hy]; rfl), ?_⟩
  have hdef : Defines s.ops y (.torchOp sch'.opName) o.operands := by
    have := h2.emitted
    unfold Defines
    rw [← h2.kind, ← hy]
    exact this
  refine hv.op _ _ ws res y hdef ?_ ht
  have hl := hargs.length_eq
  have ha := h2.arity
  apply List.ext_getElem?
  intro k
  rw [List.getElem?_map, List.getElem?_map]
  by_cases hk : k < ws.length
  · have hk1 : k < o.operands.length := by omega
    have hk2 : k < sch'.params.length := by omega
    have hk3 : k < args.length := by omega
    rw [List.getElem?_eq_getElem hk, List.getElem?_eq_getElem hk1]
    show some (val _) = some (some _)
    congr 1
    obtain ⟨a, e, hp, hx⟩ := h2.operands k _ _ (List.getElem?_eq_getElem hk2) (List.getElem?_eq_getElem hk1)
    have hah := List.Forall₂.get hargs hk3 (by omega)
    simp only [List.get_eq_getElem] at hah
    cases hp with
    | positional h' =>
      rw [List.getElem?_eq_getElem hk3] at h'
      cases h'
      rw [if_pos rfl] at hx
      exact argIs_val hv (htys _ (List.getElem_mem hk2)) hah (hws _ (List.getElem_mem hk)) hx
    | keyword h' _ _ => omega
    | default h' _ => omega
  · rw [List.getElem?_eq_none (l := ws) (by omega), List.getElem?_eq_none (l := o.operands) (by omega)]
    rfl

/-- `w` as float. -/
def Num.float' : Num → Num
  | .int i => .float i
  | w => w

/-- Overload and operand values for a builtin. -/
inductive ChosenVals (name : String) : List Num → String → List Num → Prop
  | ints {ws : List Num} : (∀ w ∈ ws, ∃ i, w = .int i) → ChosenVals name ws "int" ws
  | floats {ws : List Num} : (∀ w ∈ ws, ∃ q, w = .float q) → ChosenVals name ws "float" ws
  | swapped {i : Int} {q : Rat} : name ∈ ["add", "lt", "ge", "ne", "gt"] →
      ChosenVals name [.int i, .float q] "float_int" [.float q, .int i]
  | kept {i : Int} {q : Rat} : name ∈ ["add", "lt", "ge", "ne", "gt"] →
      ChosenVals name [.float q, .int i] "float_int" [.float q, .int i]
  | left {i : Int} {q : Rat} : name ∉ ["add", "lt", "ge", "ne", "gt"] →
      ChosenVals name [.int i, .float q] "float" [.float i, .float q]
  | right {i : Int} {q : Rat} : name ∉ ["add", "lt", "ge", "ne", "gt"] →
      ChosenVals name [.float q, .int i] "float" [.float q, .float i]

theorem pyBuiltin_names {name : String} {ws : List Num} {r : Num} (h : pyBuiltin name ws = some r) :
    name ∈ ["add", "sub", "mul", "truediv", "floordiv", "mod", "lt", "le", "ge", "gt", "eq", "ne", "neg"] := by
  unfold pyBuiltin at h
  split at h <;> first | (simp; done) | cases h

theorem pyBuiltin_two {name : String} {ws : List Num} {r : Num} (h : pyBuiltin name ws = some r)
    (hn : name ≠ "neg") : ∃ x y, ws = [x, y] := by
  unfold pyBuiltin at h
  split at h <;> first | exact ⟨_, _, rfl⟩ | exact absurd rfl hn | (cases h; done)

/-- Compare two evaluated scalar operations. -/
macro "scalar_eq" : tactic => `(tactic| first
  | rfl
  | (show some (Num.bool (decide _)) = some (Num.bool (decide _)); congr 2; norm_cast; done)
  | (show some (Num.bool (decide _)) = some (Num.bool (decide _)); congr 2; exact decide_eq_decide.mpr eq_comm)
  | (show some (Num.bool (decide _)) = some (Num.bool (decide _)); congr 2; exact decide_eq_decide.mpr ne_comm)
  | (show some (Num.float _) = some (Num.float _); congr 2; exact Rat.add_comm _ _)
  | (show (if _ then none else some (Num.float _)) = (if _ then none else some (Num.float _)); norm_cast; done)
  | (show (if _ then none else _) = (if _ then none else _); norm_cast; done))

/-- The overload has the right form. -/
def SchemaOk (name ov : String) (n : Nat) (sch : Schema) : Prop :=
  builtinSchema name ov = some sch ∧ sch.nReturns = 1 ∧ (∀ p ∈ sch.params, p.ty.scalar = true) ∧
    sch.params.length = n

theorem torch_int {name : String} {a b : Int} {r : Num} (h : pyBuiltin name [.int a, .int b] = some r)
    (hmod : name ≠ "mod") :
    ∃ sch, SchemaOk name "int" 2 sch ∧ torchScalar sch.opName [.int a, .int b] = some r := by
  have hn := pyBuiltin_names h
  simp only [List.mem_cons, List.not_mem_nil, or_false] at hn
  rcases hn with rfl | rfl | rfl | rfl | rfl | rfl | rfl | rfl | rfl | rfl | rfl | rfl | rfl
  all_goals try exact absurd rfl hmod
  all_goals try (cases h; done)
  all_goals exact ⟨_, ⟨rfl, rfl, by decide, rfl⟩, by rw [← h]; scalar_eq⟩

theorem torch_float {name : String} {a b : Rat} {r : Num} (h : pyBuiltin name [.float a, .float b] = some r)
    (hmod : name ≠ "mod") :
    ∃ sch, SchemaOk name "float" 2 sch ∧ torchScalar sch.opName [.float a, .float b] = some r := by
  have hn := pyBuiltin_names h
  simp only [List.mem_cons, List.not_mem_nil, or_false] at hn
  rcases hn with rfl | rfl | rfl | rfl | rfl | rfl | rfl | rfl | rfl | rfl | rfl | rfl | rfl
  all_goals try exact absurd rfl hmod
  all_goals try (cases h; done)
  all_goals exact ⟨_, ⟨rfl, rfl, by decide, rfl⟩, by rw [← h]; scalar_eq⟩

theorem torch_kept {name : String} {a : Rat} {b : Int} {r : Num} (h : pyBuiltin name [.float a, .int b] = some r)
    (hm : name ∈ ["add", "lt", "ge", "ne", "gt"]) :
    ∃ sch, SchemaOk name "float_int" 2 sch ∧ torchScalar sch.opName [.float a, .int b] = some r := by
  simp only [List.mem_cons, List.not_mem_nil, or_false] at hm
  rcases hm with rfl | rfl | rfl | rfl | rfl
  all_goals exact ⟨_, ⟨rfl, rfl, by decide, rfl⟩, by rw [← h]; scalar_eq⟩

theorem torch_swapped {name : String} {a : Int} {b : Rat} {r : Num} (h : pyBuiltin name [.int a, .float b] = some r)
    (hm : name ∈ ["add", "ne"]) :
    ∃ sch, SchemaOk name "float_int" 2 sch ∧ torchScalar sch.opName [.float b, .int a] = some r := by
  simp only [List.mem_cons, List.not_mem_nil, or_false] at hm
  rcases hm with rfl | rfl
  all_goals exact ⟨_, ⟨rfl, rfl, by decide, rfl⟩, by rw [← h]; scalar_eq⟩

/-- A mixed operation is the operation on floats. -/
theorem py_mixed {name : String} {x y : Num} {r : Num} (h : pyBuiltin name [x, y] = some r)
    (hx : ∃ q, x = .float q ∨ y = .float q) :
    pyBuiltin name [Num.float' x, Num.float' y] = some r := by
  have hn := pyBuiltin_names h
  simp only [List.mem_cons, List.not_mem_nil, or_false] at hn
  obtain ⟨q, rfl | rfl⟩ := hx
  · cases y with
    | bool b =>
      rcases hn with rfl | rfl | rfl | rfl | rfl | rfl | rfl | rfl | rfl | rfl | rfl | rfl | rfl <;> cases h
    | float p => exact h
    | int i =>
      rw [← h]
      rcases hn with rfl | rfl | rfl | rfl | rfl | rfl | rfl | rfl | rfl | rfl | rfl | rfl | rfl <;> rfl
  · cases x with
    | bool b =>
      rcases hn with rfl | rfl | rfl | rfl | rfl | rfl | rfl | rfl | rfl | rfl | rfl | rfl | rfl <;>
        first | (cases h; done) | (revert h; show (if _ then none else none) = _ → _; intro h; split at h <;> cases h)
    | float p => exact h
    | int i =>
      rw [← h]
      rcases hn with rfl | rfl | rfl | rfl | rfl | rfl | rfl | rfl | rfl | rfl | rfl | rfl | rfl <;> rfl

/-- On the chosen operands torch computes what Python computes. -/
theorem torch_eq_py {name ov : String} {ws ws' : List Num} {r : Num} (hc : ChosenVals name ws ov ws')
    (h : pyBuiltin name ws = some r) (hmod : name ≠ "mod")
    (hcmp : name ∈ ["lt", "ge", "gt"] → ∀ (a : Int) (b : Rat), ws ≠ [.int a, .float b]) :
    ∃ sch, SchemaOk name ov ws'.length sch ∧ torchScalar sch.opName ws' = some r := by
  by_cases hneg : name = "neg"
  · subst hneg
    unfold pyBuiltin at h
    split at h <;> try (first | cases h; done | (exfalso; simp_all; done))
    · cases hc with
      | ints _ => exact ⟨_, ⟨rfl, rfl, by decide, rfl⟩, h⟩
      | floats hf => obtain ⟨q, hq⟩ := hf _ List.mem_cons_self; cases hq
    · cases hc with
      | ints hf => obtain ⟨q, hq⟩ := hf _ List.mem_cons_self; cases hq
      | floats _ => exact ⟨_, ⟨rfl, rfl, by decide, rfl⟩, h⟩
  obtain ⟨x, y, rfl⟩ := pyBuiltin_two h hneg
  cases hc with
  | ints hi =>
    obtain ⟨a, rfl⟩ := hi x (by simp)
    obtain ⟨b, rfl⟩ := hi y (by simp)
    exact torch_int h hmod
  | floats hi =>
    obtain ⟨a, rfl⟩ := hi x (by simp)
    obtain ⟨b, rfl⟩ := hi y (by simp)
    exact torch_float h hmod
  | swapped hm =>
    refine torch_swapped h ?_
    simp only [List.mem_cons, List.not_mem_nil, or_false] at hm ⊢
    rcases hm with rfl | rfl | rfl | rfl | rfl <;>
      first | exact Or.inl rfl | exact Or.inr rfl | exact absurd rfl (hcmp (by decide) _ _)
  | kept hm => exact torch_kept h hm
  | left hm => exact torch_float (py_mixed h ⟨_, Or.inr rfl⟩) hmod
  | right hm => exact torch_float (py_mixed h ⟨_, Or.inl rfl⟩) hmod

/-- Python type of an argument from its value. -/
theorem argPyTy_of {a : Arg} {w : Num} (ha : ArgHas s val a w) (ht : ArgTyped env a w) : w.hasTy (argPyTy env a) := by
  unfold ArgHas at ha
  unfold ArgTyped at ht
  split at ha
  · obtain ⟨n, hn, h⟩ := ht
    simp only [argPyTy, hn]; exact h
  · subst ha; rfl
  · subst ha; rfl
  · exact ha.elim

theorem promoted_val (hv : Obeys s val) (hfs : env.floatScalar = floatScalarSchema)
    (hs : env.scalarSchema floatScalarSchema.opName = none) {i : Nat} {a b : Arg} {k : Int}
    (hp : Promoted env i a b s) (ha : ArgHas s val a (.int k)) : ArgHas s val b (.float k) := by
  rcases hp with ⟨r, rfl, rfl, ho⟩ | ⟨k', rfl, rfl⟩
  · rw [hfs] at ho
    exact opOk_val hv ho hs rfl (by decide) rfl (.cons ha .nil) (by simp) rfl
  · unfold ArgHas at ha ⊢
    cases ha; rfl

/-- Values of the chosen arguments. -/
theorem chosen_vals (hv : Obeys s val) (hfs : env.floatScalar = floatScalarSchema)
    (hs : env.scalarSchema floatScalarSchema.opName = none) {i : Nat} {name ov : String} {args args' : List Arg}
    {ws : List Num} (hc : Chosen env i name args s ov args') (hargs : List.Forall₂ (ArgHas s val) args ws)
    (htys : List.Forall₂ (ArgTyped env) args ws) :
    ∃ ws', ChosenVals name ws ov ws' ∧ List.Forall₂ (ArgHas s val) args' ws' := by
  have hty : List.Forall₂ (fun a w => w.hasTy (argPyTy env a)) args ws := by
    clear hc
    induction hargs with
    | nil => exact .nil
    | cons h _ ih =>
      cases htys with
      | cons h' ht => exact .cons (argPyTy_of h h') (ih ht)
  have int_of : ∀ {w : Num} {t : PyTy}, w.hasTy t → t = .int → ∃ i, w = .int i := by
    intro w t h e; subst e
    cases w <;> first | exact ⟨_, rfl⟩ | cases h
  have float_of : ∀ {w : Num} {t : PyTy}, w.hasTy t → t ≠ .int → t = .float ∧ ∃ q, w = .float q := by
    intro w t h e
    cases w with
    | int i => exact absurd h e
    | float q => exact ⟨h, _, rfl⟩
    | bool b => cases h
  cases hc with
  | ints h =>
    refine ⟨ws, .ints ?_, hargs⟩
    intro w hw
    obtain ⟨k, hk, rfl⟩ := List.mem_iff_getElem.mp hw
    have hl := hty.length_eq
    have := List.Forall₂.get hty (by omega : k < args.length) hk
    exact int_of this (h _ (List.getElem_mem _))
  | floats h =>
    refine ⟨ws, .floats ?_, hargs⟩
    intro w hw
    obtain ⟨k, hk, rfl⟩ := List.mem_iff_getElem.mp hw
    have hl := hty.length_eq
    have := List.Forall₂.get hty (by omega : k < args.length) hk
    exact (float_of this (h _ (List.getElem_mem _))).2
  | mixed a0 a1 h1 h2 h3 =>
    subst h1
    obtain _ | ⟨v0, _ | ⟨v1, _ | _⟩⟩ := hargs
    obtain _ | ⟨t0, _ | ⟨t1, _ | _⟩⟩ := hty
    by_cases h0 : argPyTy env a0 = .int
    · obtain ⟨k, rfl⟩ := int_of t0 h0
      obtain ⟨hf, q, rfl⟩ := float_of t1 (h3.mp h0)
      rw [if_pos hf]
      exact ⟨_, .swapped h2, .cons v1 (.cons v0 .nil)⟩
    · have h1 : argPyTy env a1 = .int := by
        cases h : argPyTy env a1 <;> first | rfl | exact absurd (h3.mpr (by simp [h])) h0
      obtain ⟨k, rfl⟩ := int_of t1 h1
      obtain ⟨hf, q, rfl⟩ := float_of t0 h0
      rw [if_neg (by rw [h1]; decide)]
      exact ⟨_, .kept h2, .cons v0 (.cons v1 .nil)⟩
  | left a0 a1 b h1 h2 h3 h4 h5 =>
    subst h1
    obtain _ | ⟨v0, _ | ⟨v1, _ | _⟩⟩ := hargs
    obtain _ | ⟨t0, _ | ⟨t1, _ | _⟩⟩ := hty
    obtain ⟨k, rfl⟩ := int_of t0 h3
    obtain ⟨hf, q, rfl⟩ := float_of t1 h4
    exact ⟨_, .left h2, .cons (promoted_val hv hfs hs h5 v0) (.cons v1 .nil)⟩
  | right a0 a1 b h1 h2 h3 h4 h5 =>
    subst h1
    obtain _ | ⟨v0, _ | ⟨v1, _ | _⟩⟩ := hargs
    obtain _ | ⟨t0, _ | ⟨t1, _ | _⟩⟩ := hty
    obtain ⟨k, rfl⟩ := int_of t1 h4
    obtain ⟨hf, q, rfl⟩ := float_of t0 h3
    exact ⟨_, .right h2, .cons v0 (.cons (promoted_val hv hfs hs h5 v1) .nil)⟩

end Verif.Fx
