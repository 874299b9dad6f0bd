import Verif.Lemmas.FxProgram
import Verif.Props.FxDemo

/-!
# Imported `while_loop`s: C15, C56
-/

namespace Verif
open Verif.Fx Verif.Fx.Spec

/-! ## A concrete loop -/

namespace WhileDemo

/-- `while i < 3: i, x = i + 1, x + x`, on the values `V := Int`. -/
def env : Env := { Demo.mk [
    Demo.node "i" .placeholder, Demo.node "x" .placeholder,
    Demo.node "cond" (.getAttr "c0"), Demo.node "body" (.getAttr "b0"),
    Demo.node2 "loop" (.call .whileLoop [Demo.g 2, Demo.g 3, .tuple [.node (.graph 0), .node (.graph 1)], .tuple []] []),
    Demo.node "out" (.call .getitem [Demo.g 4, .lit (.int 1)] [])] with
  funcOf := fun t => if t = "c0" then some (some "cond_fn") else if t = "b0" then some (some "body_fn") else none }

def sig : Sig := ⟨[.user "i", .user "x"], [.user "out"]⟩

def F : String → List Int → Option (List Int)
  | "cond_fn", [i, _] => some [if i < 3 then 1 else 0]
  | "body_fn", [i, x] => some [i + 1, x + x]
  | _, _ => none

/-- `loop` with one additional input: `while i < k: i = i + 1`. -/
def extra : Env := { Demo.mk [
    Demo.node "i" .placeholder, Demo.node "k" .placeholder,
    Demo.node "cond" (.getAttr "c0"), Demo.node "body" (.getAttr "b0"),
    Demo.node "loop" (.call .whileLoop [Demo.g 2, Demo.g 3, .tuple [.node (.graph 0)], .tuple [.node (.graph 1)]] [])] with
  funcOf := fun t => if t = "c0" then some (some "cond_fn") else if t = "b0" then some (some "body_fn") else none }

def extraSig : Sig := ⟨[.user "i", .user "k"], [.user "loop"]⟩

end WhileDemo

variable {env : Env} {sig : Sig} {sym : Bool} {symbols : List String} {f : Func}

/-- The operations of an imported loop, with their meaning. -/
theorem whileCode_of_ok {s : St} {i : Nat} {node : Node} {args : List Arg} (h : WhileOk env i node args s) :
    ∃ c b carries cn bn xs pre code post, args = c :: b :: carries ∧ FuncIs env c cn ∧ FuncIs env b bn ∧
      List.Forall₂ (fun a x => ArgIs s a none x) (flatCarries carries) xs ∧
      s.ops = pre ++ code ++ post ∧ WhileCode s i cn bn xs node code := by
  obtain ⟨c, b, carries, cn, bn, xs, x0, pre, post, h1, h2, h3, h4, h5, h6, h7⟩ := h
  refine ⟨c, b, carries, cn, bn, xs, pre, _, post, h1, h2, h3, h4.imp fun _ _ h => h.argIs, h6, ?_⟩
  intro V F truth cond body μ vs out n hc hb hl hx hr hn
  rw [hl] at hc hb
  obtain ⟨μ', r1, r2, r3⟩ := whileOps_run h5 μ vs out n hl hc hb hx hr hn
  refine ⟨μ', r1, fun k v hk => ⟨_, h7 k ?_, r3 k v hk⟩⟩
  rw [← r2]; exact (List.getElem?_eq_some_iff.mp hk).1

/-- **C15.** For every `while_loop` node of an imported program there are contiguous operations in the
function that, run in any state in which the carried arguments have values, leave in the results of the
node the result of `while cond(*carried): carried = body(*carried)` (for any functions `cond` and `body`
computed by the imported condition and body graphs, and any number of iterations, zero included, up to
the trip bound 2^63 - 1). -/
theorem C15_program (h : importProgram env sig sym symbols = .ok f) {i : Nat} {node : Node}
    (hn : env.nodes[i]? = some node) {args : List Arg} {kwargs : List (String × Arg)}
    (hop : node.op = .call .whileLoop args kwargs) :
    ∃ c b carries cn bn xs pre code post, args = c :: b :: carries ∧ FuncIs env c cn ∧ FuncIs env b bn ∧
      List.Forall₂ (fun a x => ArgIs f.final a none x) (flatCarries carries) xs ∧
      f.final.ops = pre ++ code ++ post ∧ WhileCode f.final i cn bn xs node code := by
  obtain ⟨outs, ins, s1, s2, _, _, _, _, _, _, _, hp⟩ := importProgram_spec h
  obtain ⟨_, _, _, w2, _, ok, _, r3, _⟩ := hp _ _ _ freePhases
  have := ok i (mem_producers.mpr ⟨node, hn, by simp [isProducer, hop]⟩) node hn
  exact whileCode_of_ok (NodeOk.mono w2 r3.ext this _ _ _ hop)

/-- **C15** for `import_stateless_graph`. -/
theorem C15_stateless (h : importStateless env sym symbols = .ok f) {i : Nat} {node : Node}
    (hn : env.nodes[i]? = some node) {args : List Arg} {kwargs : List (String × Arg)}
    (hop : node.op = .call .whileLoop args kwargs) :
    ∃ c b carries cn bn xs pre code post, args = c :: b :: carries ∧ FuncIs env c cn ∧ FuncIs env b bn ∧
      List.Forall₂ (fun a x => ArgIs f.final a none x) (flatCarries carries) xs ∧
      f.final.ops = pre ++ code ++ post ∧ WhileCode f.final i cn bn xs node code := by
  obtain ⟨_, _, hp⟩ := importStateless_spec h
  exact whileCode_of_ok ((hp freeScope fun _ _ _ => freeScope_node).2.2 i node hn _ _ _ hop)

/-- The result of a run of the emitted operations is determined: they are a function of the memory, so
the value computed is *the* result of the loop, and a `while` that ends ends with one result only. -/
theorem C15_result_unique {V : Type} {cond : List V → Bool} {body : List V → List V} {vs out out' : List V}
    {n n' : Nat} (h : WhileRuns cond body vs n out) (h' : WhileRuns cond body vs n' out') :
    n = n' ∧ out = out' := by
  induction h generalizing n' with
  | stop hc =>
    cases h' with
    | stop _ => exact ⟨rfl, rfl⟩
    | next hc' _ => rw [hc] at hc'; cases hc'
  | next hc _ ih =>
    cases h' with
    | stop hc' => rw [hc] at hc'; cases hc'
    | next _ h' =>
      obtain ⟨rfl, rfl⟩ := ih h'
      exact ⟨rfl, rfl⟩


/-- Value of `x` after running operations on the two initial values. -/
def WhileDemo.result (f : Func) (x : Nat) (vs : List Int) : Option (Val Int) :=
  (runOps WhileDemo.F (fun v => v == 1) (fun y => (vs[y]?).map .carried) (f.final.ops.take 4)).bind fun μ => μ x

/-- The imported loop, run from `i = 0, x = 5`, doubles `x` three times; from `i = 7` it leaves `x`. -/
example : (importProgram WhileDemo.env WhileDemo.sig false []).toOption.map (fun f =>
      (dictGet f.final.v (.ref (.graph 5) 0), WhileDemo.result f 6 [0, 5], WhileDemo.result f 6 [7, 5]))
    = some (some (.val 6), some (.carried 40), some (.carried 5)) := by
  decide +kernel

/-- The `while` itself, in three iterations: the hypotheses of C15 are satisfiable. -/
example : WhileRuns (V := Int) (fun vs => decide (vs.headD 0 < 3))
    (fun vs => [vs.headD 0 + 1, vs.getD 1 0 + vs.getD 1 0]) [0, 5] 3 [3, 40] := by
  refine .next (by decide) (.next (by decide) (.next (by decide) (.stop (by decide))))

/-! ## C56: loops with additional inputs -/

/-- A loop with more arguments than results never runs: the operations that were emitted for it are
stuck in every memory. -/
theorem stuck_of_ok {s : St} {i : Nat} {node : Node} {args : List Arg} (h : WhileOk env i node args s)
    (hmore : (flatCarries (args.drop 2)).length ≠ whileResults node) :
    ∃ pre code post, s.ops = pre ++ code ++ post ∧ (∃ o ∈ code, ∃ c b, o.kind = .loop c b) ∧
      ∀ (V : Type) (F : String → List V → Option (List V)) (truth : V → Bool) (μ : Mem V),
        runOps F truth μ code = none := by
  obtain ⟨c, b, carries, cn, bn, xs, x0, pre, post, h1, h2, h3, h4, h5, h6, h7⟩ := h
  refine ⟨pre, _, post, h6, ⟨_, List.mem_cons_of_mem _ (List.mem_cons_of_mem _ (List.mem_cons_of_mem _ List.mem_cons_self)),
    cn, bn, rfl⟩, ?_⟩
  intro V F truth μ
  subst h1
  have hl : xs.length ≠ whileResults node := by rw [← h4.length_eq]; simpa using hmore
  have len : ∀ (l : List (Option (Val V))) vs, carriedOf l = some vs → vs.length = l.length := by
    intro l
    induction l with
    | nil => intro vs h; cases h; rfl
    | cons a l ih =>
      intro vs h
      unfold carriedOf at h
      simp only [List.mapM_cons, Option.bind_eq_bind, Option.bind_eq_some_iff] at h
      obtain ⟨x, _, ws, hw, h⟩ := h
      cases h
      simp [ih ws hw]
  have stuck : ∀ μ : Mem V, runOp F truth μ
      ⟨.loop cn bn, (x0 + 2) :: (x0 + 1) :: xs, List.range' (x0 + 3) (whileResults node)⟩ = none := by
    intro μ
    simp only [runOp, List.map_cons]
    split
    · rename_i m c inits heq
      simp only [List.cons.injEq] at heq
      obtain ⟨_, _, rfl⟩ := heq
      cases hc : carriedOf (xs.map μ) with
      | none => rfl
      | some vs =>
        have := len _ _ hc
        simp at this
        simp [this, hl]
    · rfl
  simp only [runOps, whileOps, List.foldlM_cons, List.foldlM_nil, stuck]
  cases runOp F truth μ ⟨.call cn, xs, [x0]⟩ with
  | none => rfl
  | some μ1 =>
    simp only [Option.bind_eq_bind, Option.bind_some]
    cases runOp F truth μ1 ⟨.torchOp "torch.aten.Bool.Tensor", [x0], [x0 + 1]⟩ with
    | none => rfl
    | some μ2 =>
      simp only [Option.bind_some]
      cases runOp F truth μ2 ⟨.const (.int 9223372036854775807) none, [], [x0 + 2]⟩ <;> rfl

/-- **C56 (violated).** `while_loop(cond, body, carried, additional)` with additional inputs is imported
without an error, but the additional inputs become carried values of a loop that has no results for
them: whatever the functions are, the loop cannot be executed. -/
theorem C56_violated (h : importProgram env sig sym symbols = .ok f) {i : Nat} {node : Node}
    (hn : env.nodes[i]? = some node) {c b : Arg} {carried additional : List Elem} {kwargs : List (String × Arg)}
    (hop : node.op = .call .whileLoop [c, b, .tuple carried, .tuple additional] kwargs)
    (hres : whileResults node = carried.length) (hadd : additional ≠ []) :
    ∃ pre code post, f.final.ops = pre ++ code ++ post ∧ (∃ o ∈ code, ∃ c b, o.kind = .loop c b) ∧
      ∀ (V : Type) (F : String → List V → Option (List V)) (truth : V → Bool) (μ : Mem V),
        runOps F truth μ code = none := by
  obtain ⟨outs, ins, s1, s2, _, _, _, _, _, _, _, hp⟩ := importProgram_spec h
  obtain ⟨_, _, _, w2, _, ok, _, r3, _⟩ := hp _ _ _ freePhases
  have := ok i (mem_producers.mpr ⟨node, hn, by simp [isProducer, hop]⟩) node hn
  refine stuck_of_ok (NodeOk.mono w2 r3.ext this _ _ _ hop) ?_
  have : additional.length ≠ 0 := by simpa using hadd
  simp [flatCarries, hres]
  omega

/-- **C56.** Without additional inputs the loop has one result per carried value whenever the metadata
has one entry per carried value, so C15 applies. -/
theorem C56_partial (h : importProgram env sig sym symbols = .ok f) {i : Nat} {node : Node}
    (hn : env.nodes[i]? = some node) {c b : Arg} {carried : List Elem} {kwargs : List (String × Arg)}
    (hop : node.op = .call .whileLoop [c, b, .tuple carried, .tuple []] kwargs)
    (hres : whileResults node = carried.length) :
    ∃ cn bn xs pre code post, FuncIs env c cn ∧ FuncIs env b bn ∧ xs.length = whileResults node ∧
      List.Forall₂ (fun a x => ArgIs f.final a none x) (carried.map elemArg) xs ∧
      f.final.ops = pre ++ code ++ post ∧ WhileCode f.final i cn bn xs node code := by
  obtain ⟨c', b', carries, cn, bn, xs, pre, code, post, h1, h2, h3, h4, h5, h6⟩ := C15_program h hn hop
  simp only [List.cons.injEq] at h1
  obtain ⟨rfl, rfl, rfl⟩ := h1
  have e : flatCarries [.tuple carried, .tuple []] = carried.map elemArg := by simp [flatCarries]
  rw [e] at h4
  exact ⟨cn, bn, xs, pre, code, post, h2, h3, by rw [← h4.length_eq, hres]; simp, h4, h5, h6⟩

/-- Such a loop (`while i < k: i = i + 1` with `k` as additional input) is imported. -/
example : ∃ f, importProgram WhileDemo.extra WhileDemo.extraSig false [] = .ok f := by
  have h : (importProgram WhileDemo.extra WhileDemo.extraSig false []).isOk = true := by decide +kernel
  cases hf : importProgram WhileDemo.extra WhileDemo.extraSig false [] with
  | ok f => exact ⟨f, rfl⟩
  | error e => rw [hf] at h; cases h

end Verif
