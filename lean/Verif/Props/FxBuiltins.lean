import Verif.Lemmas.FxProgram
import Verif.Lemmas.FxBuiltins
import Verif.Props.FxDemo
import Mathlib.Tactic.FieldSimp
import Mathlib.Tactic.Linarith

/-!
# Builtin scalar operations: C14
-/

namespace Verif
open Verif.Fx Verif.Fx.Spec

/-- The tables of the importer: `PY_BUILTIN_TO_TORCH_OP`, `aten.Float.Scalar`; the tensor-scalar
converter only knows tensor overloads. -/
structure ScalarTables (env : Env) : Prop where
  builtin : env.builtinOp = builtinSchema
  float : env.floatScalar = floatScalarSchema
  tensorOnly : ∀ op, env.scalarSchema op ≠ none → op.toList.drop (op.toList.length - 7) = ".Tensor".toList

theorem ScalarTables.builtin_none {env : Env} (h : ScalarTables env) {name ov : String} {sch : Schema}
    (hs : builtinSchema name ov = some sch) (hov : ov ∈ ["int", "float", "float_int"]) :
    env.scalarSchema sch.opName = none := by
  cases hc : env.scalarSchema sch.opName with
  | none => rfl
  | some t =>
    exfalso
    have := h.tensorOnly sch.opName (by rw [hc]; simp)
    unfold builtinSchema at hs
    split at hs
    · cases hs
    · rename_i op hop
      cases hs
      have hmem : op ∈ pyBuiltinToTorchOp.map (·.2) := by
        clear this hc
        revert hop
        generalize pyBuiltinToTorchOp = l
        induction l with
        | nil => intro h; simp at h
        | cons p l ih =>
          intro hl
          rw [List.lookup_cons] at hl
          split at hl
          · cases hl; simp
          · exact List.mem_cons_of_mem _ (ih hl)
      clear hop hc
      revert this
      simp only [List.mem_cons, List.not_mem_nil, or_false] at hov
      simp only [pyBuiltinToTorchOp, List.map_cons, List.map_nil, List.mem_cons, List.not_mem_nil, or_false] at hmem
      rcases hmem with rfl | rfl | rfl | rfl | rfl | rfl | rfl | rfl | rfl | rfl | rfl | rfl | rfl <;>
        rcases hov with rfl | rfl | rfl <;> decide

theorem ScalarTables.float_none {env : Env} (h : ScalarTables env) :
    env.scalarSchema floatScalarSchema.opName = none := by
  cases hc : env.scalarSchema floatScalarSchema.opName with
  | none => rfl
  | some t =>
    exfalso
    have := h.tensorOnly _ (by rw [hc]; simp)
    revert this
    decide

section
variable {env : Env} {sig : Sig} {sym : Bool} {symbols : List String} {f : Func}

theorem noBool {s : St} {val : Run} {args : List Arg} {ws : List Num} (hargs : List.Forall₂ (ArgHas s val) args ws)
    (htys : List.Forall₂ (ArgTyped env) args ws) : ∀ w ∈ ws, ∀ b, w ≠ .bool b := by
  induction hargs with
  | nil => simp
  | cons h _ ih =>
    cases htys with
    | cons h' ht =>
      intro w hw b e
      rcases List.mem_cons.mp hw with rfl | hw
      · subst e
        exact argPyTy_of h h'
      · exact ih ht w hw b e

/-- Core of C14: what the operation emitted for a builtin computes. -/
theorem symbolic_val (htab : ScalarTables env) {s : St} {val : Run} (hv : Obeys s val) {i : Nat} {node : Node}
    {name : String} {args : List Arg} {kwargs : List (String × Arg)} {ws : List Num}
    (h : SymbolicOk env i node (.builtin name) args kwargs s)
    (hargs : List.Forall₂ (ArgHas s val) args ws) (htys : List.Forall₂ (ArgTyped env) args ws) :
    ∃ ov ws', ChosenVals name ws ov ws' ∧ ∀ sch r, SchemaOk name ov ws'.length sch →
      torchScalar sch.opName ws' = some r → ∃ x, NodeIs s (.graph i) x ∧ val x = some r := by
  obtain ⟨ov, args', sch, h1, h2, h3⟩ := h
  obtain ⟨ws', c1, c2⟩ := chosen_vals hv htab.float htab.float_none h1 hargs htys
  refine ⟨ov, ws', c1, ?_⟩
  rintro sch' r ⟨s1, s2, s3, s4⟩ ht
  rw [htab.builtin, s1] at h2
  cases h2
  refine opOk_val hv h3 (htab.builtin_none s1 ?_) s2 s3 (by rw [s4, c2.length_eq]) c2 ?_ ht
  · cases c1 <;> simp
  · cases c1 with
    | ints h => intro w hw b e; obtain ⟨k, rfl⟩ := h w hw; cases e
    | floats h => intro w hw b e; obtain ⟨k, rfl⟩ := h w hw; cases e
    | swapped _ => simp
    | kept _ => simp
    | left _ => simp
    | right _ => simp

theorem builtin_ok (h : importProgram env sig sym symbols = .ok f) {i : Nat} {node : Node}
    (hn : env.nodes[i]? = some node) {name : String} {args : List Arg} {kwargs : List (String × Arg)}
    (hop : node.op = .call (.builtin name) args kwargs) :
    SymbolicOk env i node (.builtin name) args kwargs f.final := by
  obtain ⟨outs, ins, s1, s2, _, _, _, _, _, _, _, hp⟩ := importProgram_spec h
  obtain ⟨_, _, _, w2, _, ok, _, r3, _⟩ := hp _ _ _ freePhases
  have := ok i (mem_producers.mpr ⟨node, hn, by simp [isProducer, hop]⟩) node hn
  exact NodeOk.mono w2 r3.ext this _ _ _ hop

/-- **C14**, except for `mod` and for `int < float`, `int >= float`, `int > float`. In every run of an
imported program that obeys the emitted operations, if the arguments of a builtin scalar operation are
the ints and floats `ws` and Python's operator gives `r` on them, then the value of the node is `r`. -/
theorem C14_partial (h : importProgram env sig sym symbols = .ok f) (htab : ScalarTables env)
    {i : Nat} {node : Node} (hn : env.nodes[i]? = some node) {name : String} {args : List Arg}
    {kwargs : List (String × Arg)} (hop : node.op = .call (.builtin name) args kwargs)
    {val : Run} (hv : Obeys f.final val) {ws : List Num} (hargs : List.Forall₂ (ArgHas f.final val) args ws)
    (htys : List.Forall₂ (ArgTyped env) args ws)
    (hmod : name ≠ "mod") (hcmp : name ∈ ["lt", "ge", "gt"] → ∀ (a : Int) (b : Rat), ws ≠ [.int a, .float b])
    {r : Num} (hr : pyBuiltin name ws = some r) :
    ∃ x, NodeIs f.final (.graph i) x ∧ val x = some r := by
  obtain ⟨ov, ws', c, hx⟩ := symbolic_val htab hv (builtin_ok h hn hop) hargs htys
  obtain ⟨sch, s1, s2⟩ := torch_eq_py c hr hmod hcmp
  exact hx sch r s1 s2

/-- **C14** for `import_stateless_graph`. -/
theorem C14_stateless_partial (h : importStateless env sym symbols = .ok f) (htab : ScalarTables env)
    {i : Nat} {node : Node} (hn : env.nodes[i]? = some node) {name : String} {args : List Arg}
    {kwargs : List (String × Arg)} (hop : node.op = .call (.builtin name) args kwargs)
    {val : Run} (hv : Obeys f.final val) {ws : List Num} (hargs : List.Forall₂ (ArgHas f.final val) args ws)
    (htys : List.Forall₂ (ArgTyped env) args ws)
    (hmod : name ≠ "mod") (hcmp : name ∈ ["lt", "ge", "gt"] → ∀ (a : Int) (b : Rat), ws ≠ [.int a, .float b])
    {r : Num} (hr : pyBuiltin name ws = some r) :
    ∃ x, NodeIs f.final (.graph i) x ∧ val x = some r := by
  obtain ⟨_, _, hp⟩ := importStateless_spec h
  have hok := (hp freeScope fun _ _ _ => freeScope_node).2.2 i node hn _ _ _ hop
  obtain ⟨ov, ws', c, hx⟩ := symbolic_val htab hv hok hargs htys
  obtain ⟨sch, s1, s2⟩ := torch_eq_py c hr hmod hcmp
  exact hx sch r s1 s2

/-- **C14 (violated)** for `int < float`, `int >= float`, `int > float`: the operands are swapped to fit
the overload `float_int`, but the comparison is not mirrored. Whenever the two numbers differ, the
imported comparison gives the opposite of Python's. -/
theorem C14_comparison_violated (h : importProgram env sig sym symbols = .ok f) (htab : ScalarTables env)
    {i : Nat} {node : Node} (hn : env.nodes[i]? = some node) {name : String} {args : List Arg}
    {kwargs : List (String × Arg)} (hop : node.op = .call (.builtin name) args kwargs)
    {val : Run} (hv : Obeys f.final val) {a : Int} {b : Rat}
    (hargs : List.Forall₂ (ArgHas f.final val) args [.int a, .float b])
    (htys : List.Forall₂ (ArgTyped env) args [.int a, .float b])
    (hname : name ∈ ["lt", "ge", "gt"]) (hab : (a : Rat) ≠ b) :
    ∃ x c, NodeIs f.final (.graph i) x ∧ val x = some (.bool (!c)) ∧
      pyBuiltin name [.int a, .float b] = some (.bool c) := by
  obtain ⟨ov, ws', c, hx⟩ := symbolic_val htab hv (builtin_ok h hn hop) hargs htys
  have hname' : name ∈ ["add", "lt", "ge", "ne", "gt"] := by
    simp only [List.mem_cons, List.not_mem_nil, or_false] at hname ⊢
    rcases hname with rfl | rfl | rfl <;> simp
  cases c with
  | ints h => obtain ⟨k, hk⟩ := h (.float b) (by simp); cases hk
  | floats h => obtain ⟨k, hk⟩ := h (.int a) (by simp); cases hk
  | left hm => exact absurd hname' hm
  | swapped _ =>
    simp only [List.mem_cons, List.not_mem_nil, or_false] at hname
    rcases hname with rfl | rfl | rfl
    · obtain ⟨x, h1, h2⟩ := hx _ (.bool (decide (b < a))) ⟨rfl, rfl, by decide, rfl⟩ rfl
      refine ⟨x, decide ((a : Rat) < b), h1, ?_, rfl⟩
      rw [h2]; congr 2
      rcases lt_or_gt_of_ne hab with hlt | hlt
      · simp [hlt, le_of_lt hlt]
      · simp [hlt, le_of_lt hlt]
    · obtain ⟨x, h1, h2⟩ := hx _ (.bool (decide (b ≥ a))) ⟨rfl, rfl, by decide, rfl⟩ rfl
      refine ⟨x, decide ((a : Rat) ≥ b), h1, ?_, rfl⟩
      rw [h2]; congr 2
      rcases lt_or_gt_of_ne hab with hlt | hlt
      · simp [hlt, le_of_lt hlt]
      · simp [hlt, le_of_lt hlt]
    · obtain ⟨x, h1, h2⟩ := hx _ (.bool (decide (b > a))) ⟨rfl, rfl, by decide, rfl⟩ rfl
      refine ⟨x, decide ((a : Rat) > b), h1, ?_, rfl⟩
      rw [h2]; congr 2
      rcases lt_or_gt_of_ne hab with hlt | hlt
      · simp [hlt, le_of_lt hlt]
      · simp [hlt, le_of_lt hlt]

theorem mod_val (h : importProgram env sig sym symbols = .ok f) (htab : ScalarTables env)
    {i : Nat} {node : Node} (hn : env.nodes[i]? = some node) {args : List Arg}
    {kwargs : List (String × Arg)} (hop : node.op = .call (.builtin "mod") args kwargs)
    {val : Run} (hv : Obeys f.final val) {a b : Int} (hb : b ≠ 0)
    (hargs : List.Forall₂ (ArgHas f.final val) args [.int a, .int b])
    (htys : List.Forall₂ (ArgTyped env) args [.int a, .int b]) :
    ∃ x, NodeIs f.final (.graph i) x ∧ val x = some (.float (ratFmod a b)) := by
  obtain ⟨ov, ws', c, hx⟩ := symbolic_val htab hv (builtin_ok h hn hop) hargs htys
  cases c with
  | floats h => obtain ⟨k, hk⟩ := h (.int a) (by simp); cases hk
  | ints _ =>
    refine hx _ _ ⟨rfl, rfl, by decide, rfl⟩ ?_
    show (if b = 0 then none else _) = _
    rw [if_neg hb]

/-- **C14 (violated)** for `mod` on ints: the imported operation computes C's `fmod` (as a float),
Python's the remainder of floor division; they differ e.g. when exactly one operand is negative and the
remainder is not zero. -/
theorem C14_mod_violated (h : importProgram env sig sym symbols = .ok f) (htab : ScalarTables env)
    {i : Nat} {node : Node} (hn : env.nodes[i]? = some node) {args : List Arg}
    {kwargs : List (String × Arg)} (hop : node.op = .call (.builtin "mod") args kwargs)
    {val : Run} (hv : Obeys f.final val)
    (hargs : List.Forall₂ (ArgHas f.final val) args [.int (-7), .int 3])
    (htys : List.Forall₂ (ArgTyped env) args [.int (-7), .int 3]) :
    pyBuiltin "mod" [.int (-7), .int 3] = some (.int 2) ∧
      ∃ x, NodeIs f.final (.graph i) x ∧ val x = some (.float (-1)) := by
  refine ⟨by decide +kernel, ?_⟩
  obtain ⟨x, h1, h2⟩ := mod_val h htab hn hop hv (by decide) hargs htys
  refine ⟨x, h1, ?_⟩
  rw [h2]
  have : ratFmod ((-7 : Int) : Rat) ((3 : Int) : Rat) = -1 := by decide +kernel
  rw [this]

/-- **C14** for `mod` on a non-negative dividend and a positive divisor: the same number, but as a float. -/
theorem C14_mod_partial (h : importProgram env sig sym symbols = .ok f) (htab : ScalarTables env)
    {i : Nat} {node : Node} (hn : env.nodes[i]? = some node) {args : List Arg}
    {kwargs : List (String × Arg)} (hop : node.op = .call (.builtin "mod") args kwargs)
    {val : Run} (hv : Obeys f.final val) {a b : Int} (ha : 0 ≤ a) (hb : 0 < b)
    (hargs : List.Forall₂ (ArgHas f.final val) args [.int a, .int b])
    (htys : List.Forall₂ (ArgTyped env) args [.int a, .int b]) :
    ∃ x k, NodeIs f.final (.graph i) x ∧ val x = some (.float (k : Int)) ∧
      pyBuiltin "mod" [.int a, .int b] = some (.int k) := by
  obtain ⟨x, h1, h2⟩ := mod_val h htab hn hop hv (by omega) hargs htys
  refine ⟨x, a.fmod b, h1, ?_, ?_⟩
  · rw [h2]
    congr 2
    have hq : (0 : Rat) ≤ (a : Rat) / b := by positivity
    rw [ratFmod, if_pos hq]
    have hfl : ⌊(a : Rat) / b⌋ = a.fdiv b := by
      obtain ⟨d, rfl⟩ := Int.eq_ofNat_of_zero_le (le_of_lt hb)
      rw [Int.fdiv_eq_ediv_of_nonneg _ (by omega)]
      exact Rat.floor_intCast_div_natCast a d
    rw [hfl, Int.fmod_def]
    push_cast
    ring
  · show (if (b : Rat) = 0 then none else _) = _
    rw [if_neg (by exact_mod_cast (by omega : b ≠ 0))]
    rfl

end

/-! ## A concrete program -/

namespace BuiltinDemo

/-- A symbolic scalar. -/
def scalar (name : String) (ty : VTy) (pt : PyTy) (op : NodeOp) : Node := ⟨name, op, ty, [], pt, true, none⟩

/-- `lambda n: (n * 2.5 , n < 2.5)`, with an int `n`. -/
def env : Env := { Demo.mk [
    scalar "n" .int .int .placeholder,
    scalar "mul" .float .float (.call (.builtin "mul") [Demo.g 0, .lit (.float (5 / 2))] []),
    scalar "lt" .bool .other (.call (.builtin "lt") [Demo.g 0, .lit (.float (5 / 2))] [])] with
  builtinOp := builtinSchema }

theorem tables : ScalarTables env := ⟨rfl, rfl, fun _ h => absurd rfl h⟩

def sig : Sig := ⟨[.user "n"], [.user "mul", .user "lt"]⟩

def final : St :=
  { tys := [.int, .float, .float, .float, .float, .bool]
    ops := [⟨.torchOp "torch.aten.Float.Scalar", [0], [1]⟩, ⟨.const (.float (5 / 2)) none, [], [2]⟩,
      ⟨.torchOp "torch.aten.mul.float", [1, 2], [3]⟩, ⟨.const (.float (5 / 2)) none, [], [4]⟩,
      ⟨.torchOp "torch.aten.lt.float_int", [4, 0], [5]⟩, ⟨.ret, [3, 5], []⟩]
    v := [(.ref (.graph 2) 0, .val 5), (.ref (.graph 1) 0, .val 3), (.ref (.temp 1) 0, .val 1),
      (.ref (.graph 0) 0, .val 0)]
    hooks := [], multi := [], unpack := [], syms := [] }

theorem imported : (importProgram env sig false []).toOption.map (·.final) = some final := by decide +kernel

/-- The run with `n = 2`. -/
def run : Run := fun x =>
  [some (Num.int 2), some (.float 2), some (.float (5 / 2)), some (.float 5), some (.float (5 / 2)),
    some (.bool false)].getD x none

theorem obeys : Obeys final run := by
  refine ⟨?_, ?_, ?_, ?_⟩
  · intro x k h
    simp [Defines, final] at h
  · intro x q h
    simp only [Defines, final, List.mem_cons, Op.mk.injEq, OpKind.const.injEq, Lit.float.injEq, List.cons.injEq,
      reduceCtorEq, false_and, or_false, false_or, List.not_mem_nil, and_true, true_and, and_false] at h
    rcases h with ⟨rfl, rfl⟩ | ⟨rfl, rfl⟩ <;> rfl
  · intro name operands ws r x h hw ht
    simp only [Defines, final, List.mem_cons, Op.mk.injEq, OpKind.torchOp.injEq, List.cons.injEq,
      reduceCtorEq, false_and, or_false, false_or, List.not_mem_nil, and_true, true_and, and_false] at h
    have inj : ∀ {a b : List Num}, a.map some = b.map some → a = b := by
      intro a b h
      exact (List.map_inj_right (fun _ _ h => Option.some.inj h)).mp h
    rcases h with ⟨rfl, rfl, rfl⟩ | ⟨rfl, rfl, rfl⟩ | ⟨rfl, rfl, rfl⟩
    · have : [Num.int 2] = ws := inj (by rw [← hw]; rfl)
      subst this; rw [← ht]; rfl
    · have : [Num.float 2, .float (5 / 2)] = ws := inj (by rw [← hw]; rfl)
      subst this; rw [← ht]
      decide +kernel
    · have : [Num.float (5 / 2), .int 2] = ws := inj (by rw [← hw]; rfl)
      subst this; rw [← ht]
      decide +kernel
  · intro x hx i
    have : x = 5 := by
      have hl : x < 6 := by
        have := (List.getElem?_eq_some_iff.mp hx).1
        simpa [final] using this
      rcases x with _ | _ | _ | _ | _ | _ | x
      all_goals first | rfl | (simp [final] at hx; done) | omega
    subst this
    exact ⟨by simp [run], fun q => by simp [run]⟩

end BuiltinDemo

/-- `2 * 2.5` is computed as in Python; `2 < 2.5` comes out false. -/
example : ∃ f, importProgram BuiltinDemo.env BuiltinDemo.sig false [] = .ok f ∧
    (∃ x, NodeIs f.final (.graph 1) x ∧ BuiltinDemo.run x = some (.float 5)) ∧
    (∃ x, NodeIs f.final (.graph 2) x ∧ BuiltinDemo.run x = some (.bool false)) ∧
    pyBuiltin "lt" [.int 2, .float (5 / 2)] = some (.bool true) := by
  have h := BuiltinDemo.imported
  cases hf : importProgram BuiltinDemo.env BuiltinDemo.sig false [] with
  | error e => rw [hf] at h; cases h
  | ok f =>
    rw [hf] at h
    have hfin : f.final = BuiltinDemo.final := by simpa [Except.toOption] using h
    have hv : Obeys f.final BuiltinDemo.run := by rw [hfin]; exact BuiltinDemo.obeys
    have hargs : List.Forall₂ (ArgHas f.final BuiltinDemo.run) [Demo.g 0, .lit (.float (5 / 2))]
        [.int 2, .float (5 / 2)] := by
      rw [hfin]
      exact .cons ⟨0, rfl, rfl⟩ (.cons rfl .nil)
    have htys : List.Forall₂ (ArgTyped BuiltinDemo.env) [Demo.g 0, .lit (.float (5 / 2))] [.int 2, .float (5 / 2)] :=
      .cons ⟨_, rfl, rfl⟩ (.cons trivial .nil)
    refine ⟨f, rfl, ?_, ?_, by decide +kernel⟩
    · exact C14_partial hf BuiltinDemo.tables (i := 1) rfl rfl hv hargs htys (by decide) (fun h => absurd h (by decide)) (by decide +kernel)
    · obtain ⟨x, c, h1, h2, h3⟩ := C14_comparison_violated hf BuiltinDemo.tables (i := 2) rfl rfl hv hargs htys
        (by decide) (by decide +kernel)
      have : c = true := by
        have e : pyBuiltin "lt" [.int (2 : Int), .float (5 / 2)] = some (.bool true) := by decide +kernel
        rw [e] at h3; cases h3; rfl
      subst this
      exact ⟨x, h1, h2⟩

end Verif
