import Verif.Lemmas.OnnxScope
import Verif.Props.OnnxFunctions

/-!
# C23, C27, C63: dependency order, expansion in a whole model, calls
-/

namespace Verif
open Onnx

namespace Onnx

/-- Modules under construction: the functions are complete and correct, every memoised function is one of them. -/
def Valid (m : MSt) : Prop :=
  (∀ p ∈ m.memo, Resolves m.funcs p.2.name p.2.results) ∧
  ∀ f ∈ m.funcs, f.WellScoped ∧
    AllCallsRegions (fun g d o t => MayExpand Config.default d o ∧ Resolves m.funcs g t) [f.body]

def Grows (a b : MSt) : Prop := a.next ≤ b.next ∧ ∀ f ∈ a.funcs, f ∈ b.funcs

def Called (ctx : Ctx) (m : MSt) (g d o : String) (t : List IrTy) : Prop :=
  MayExpand ctx.config d o ∧ Resolves m.funcs g t

theorem Resolves.mono {a b : List Func} (h : ∀ f ∈ a, f ∈ b) {g : String} {t : List IrTy}
    (hr : Resolves a g t) : Resolves b g t := by
  obtain ⟨f, hf, h1⟩ := hr
  exact ⟨f, h f hf, h1⟩

/-- What importing a function body guarantees. -/
def BodyGood (I : Ctx → Graph → MSt → Py (FuncRef × MSt)) : Prop :=
  ∀ opsets g m fr m', I ⟨opsets, Config.default⟩ g m = .ok (fr, m') → Valid m →
    Valid m' ∧ Grows m m' ∧ Resolves m'.funcs fr.name fr.results

theorem expand_good {E : Ext} {I : Ctx → Graph → MSt → Py (FuncRef × MSt)} (hI : BodyGood I) {ctx : Ctx}
    {n : Node} {v : Int} {i : List TypeProto} {o : List (Option TypeProto)} {m m' : MSt} {r : Option FuncRef}
    (h : getOperatorFunction E I ctx n v i o m = .ok (r, m')) (hv : Valid m) :
    Valid m' ∧ Grows m m' ∧ ∀ f, r = some f → Called ctx m' f.name n.domain n.opType f.results := by
  cases r with
  | none =>
    have : m' = m := by
      unfold getOperatorFunction at h
      split at h
      · cases h; rfl
      · split at h
        · cases h
        · split at h
          · cases h; rfl
          · simp only at h
            split at h
            · cases h
            · split at h
              · cases h
              · split at h
                · cases h
                · split at h <;> cases h
    subst this
    exact ⟨hv, ⟨Nat.le_refl _, fun f hf => hf⟩, fun f hf => by cases hf⟩
  | some f =>
    have hmay := C27_only_allowed _ _ _ _ _ _ _ _ _ _ h
    suffices Valid m' ∧ Grows m m' ∧ Resolves m'.funcs f.name f.results from
      ⟨this.1, this.2.1, fun f' hf' => by cases hf'; exact ⟨hmay, this.2.2⟩⟩
    unfold getOperatorFunction at h
    split at h
    · cases h
    · split at h
      · cases h
      · split at h
        · cases h
        · simp only at h
          split at h
          · rename_i f' hf'
            cases h
            exact ⟨hv, ⟨Nat.le_refl _, fun g hg => hg⟩, hv.1 _ (dictGet_mem hf')⟩
          · split at h
            · cases h
            · split at h
              · cases h
              · split at h
                · cases h
                · rename_i fr m1 hb
                  cases h
                  obtain ⟨h1, h2, h3⟩ := hI _ _ _ _ _ hb hv
                  refine ⟨⟨?_, h1.2⟩, h2, h3⟩
                  intro p hp
                  simp only [dictSet, List.mem_cons] at hp
                  rcases hp with rfl | hp
                  · exact h3
                  · exact h1.1 p hp

/-- Operators are expanded by importing good bodies. -/
def policy {E : Ext} {I : Ctx → Graph → MSt → Py (FuncRef × MSt)} (hI : BodyGood I) (ctx : Ctx) :
    Policy (getOperatorFunction E I) ctx where
  V := Valid
  R := Grows
  P := Called ctx
  refl _ := ⟨Nat.le_refl _, fun _ h => h⟩
  trans h1 h2 := ⟨Nat.le_trans h1.1 h2.1, fun f hf => h2.2 f (h1.2 f hf)⟩
  bumpV _ h := h
  bumpR _ _ := ⟨Nat.le_add_right _ _, fun _ h => h⟩
  le h := h.1
  mono h1 h2 := ⟨h2.1, h2.2.mono h1.2⟩
  expand h hv := expand_good hI h hv

/-- The function of a graph, in any context. -/
theorem function_good {E : Ext} {I : Ctx → Graph → MSt → Py (FuncRef × MSt)} (hI : BodyGood I) {ctx : Ctx}
    {priv : Bool} {g : Graph} {m m' : MSt} {fr : FuncRef} (hv : Valid m)
    (h : importFunction (getOperatorFunction E I) ctx priv g m = .ok (fr, m')) :
    ∃ func fs, m'.funcs = fs ++ [func] ∧ func.WellScoped ∧
      AllCallsRegions (fun g d o t => MayExpand ctx.config d o ∧ Resolves fs g t) [func.body] ∧
      func.name = g.name ∧ func.priv = priv ∧ fr = ⟨func.name, func.resTypes⟩ ∧
      (∀ f ∈ m.funcs, f ∈ fs) ∧ m.next ≤ m'.next ∧
      (∀ p ∈ m'.memo, Resolves fs p.2.name p.2.results) ∧
      ∀ f ∈ fs, f.WellScoped ∧
        AllCallsRegions (fun g d o t => MayExpand Config.default d o ∧ Resolves fs g t) [f.body] := by
  obtain ⟨func, m1, h1, rfl, h2, h3, h4⟩ := importFunction_good (policy hI ctx) hv h
  have hv1 : Valid m1 := h1.valid
  have hg : Grows m m1 := h1.succ
  exact ⟨func, m1.funcs, rfl, ⟨h1.scope, h1.nodup⟩, h1.calls, h2, h3, h4, hg.2, hg.1, hv1.1, hv1.2⟩

theorem importFn_good (E : Ext) (fuel : Nat) : BodyGood (importFn E fuel true) := by
  induction fuel with
  | zero => intro opsets g m fr m' h; cases h
  | succ fuel ih =>
    intro opsets g m fr m' h hv
    obtain ⟨func, fs, h1, h2, h3, h4, h5, h6, h7, h8, h9, h10⟩ := function_good ih hv h
    have hsub : ∀ f ∈ fs, f ∈ m'.funcs := by rw [h1]; exact fun f hf => List.mem_append_left _ hf
    refine ⟨⟨fun p hp => (h9 p hp).mono hsub, ?_⟩, ⟨h8, fun f hf => hsub f (h7 f hf)⟩, ?_⟩
    · intro f hf
      rw [h1] at hf
      rcases List.mem_append.mp hf with hf | hf
      · exact ⟨(h10 f hf).1, allCallsRegions_mono (fun _ _ _ _ hc => ⟨hc.1, hc.2.mono hsub⟩) _ (h10 f hf).2⟩
      · simp only [List.mem_singleton] at hf
        subst hf
        exact ⟨h2, allCallsRegions_mono (fun _ _ _ _ hc => ⟨hc.1, hc.2.mono hsub⟩) _ h3⟩
    · exact ⟨func, by rw [h1]; simp, by rw [h6], by rw [h6], h5⟩

/-- A whole model. -/
theorem model_good {E : Ext} {fuel : Nat} {ctx : Ctx} {g : Graph} {funcs : List Func}
    (h : importModel E fuel ctx g = .ok funcs) :
    ∃ main fs, funcs = fs ++ [main] ∧ main.name = g.name ∧ main.priv = false ∧
      (∀ f ∈ funcs, f.WellScoped) ∧
      AllCallsRegions (fun g d o t => MayExpand ctx.config d o ∧ Resolves fs g t) [main.body] ∧
      ∀ f ∈ fs, AllCallsRegions (fun g d o t => MayExpand Config.default d o ∧ Resolves fs g t) [f.body] := by
  unfold importModel at h
  split at h
  · cases h
  · rename_i fr m' hm
    cases h
    cases fuel with
    | zero => cases hm
    | succ fuel =>
      obtain ⟨func, fs, h1, h2, h3, h4, h5, h6, h7, h8, h9, h10⟩ := function_good (importFn_good E fuel)
        (m := ⟨0, [], []⟩) ⟨(fun p hp => by cases hp), (fun f hf => by cases hf)⟩ hm
      refine ⟨func, fs, h1, h4, h5, ?_, h3, fun f hf => (h10 f hf).2⟩
      intro f hf
      rw [h1] at hf
      rcases List.mem_append.mp hf with hf | hf
      · exact (h10 f hf).1
      · simp only [List.mem_singleton] at hf
        rw [hf]; exact h2

end Onnx

/-! ### C23 -/

/-- In every function of an imported model, at every depth, the operands of every op and terminator are values
already defined in an enclosing block, and no value is defined twice — for every graph, opset, configuration and
`onnx` package. -/
theorem C23_defined_before_use (E : Ext) (fuel : Nat) (ctx : Ctx) (g : Graph) (funcs : List Func)
    (h : importModel E fuel ctx g = .ok funcs) : ∀ f ∈ funcs, f.WellScoped := by
  obtain ⟨_, _, _, _, _, h1, _⟩ := model_good h
  exact h1

/-- A node whose input has no value yet is rejected with `OnnxImportError`. -/
theorem C23_rejected (X : Expand) (ctx : Ctx) (n : Node) (regions : List (String × RegionAct))
    (gi : GraphInfo) (l : LSt) (m : MSt) (hc : n.opType ≠ "Constant") (x : String) (hx : x ∈ n.inputs)
    (hne : x ≠ "") (hu : dictGet l.names x = none) :
    nodeStep X ctx n regions gi l m = .error .onnxImport := by
  have key : ∀ (names : List String) (l : LSt) (m : MSt), x ∈ names → dictGet l.names x = none →
      importInputs gi names l m = .error .onnxImport := by
    intro names
    induction names with
    | nil => intro l m hx; cases hx
    | cons y ys ih =>
      intro l m hx hu
      unfold importInputs
      by_cases hy : y = ""
      · rw [if_pos hy]
        have hx' : x ∈ ys := by
          rcases List.mem_cons.mp hx with h | h
          · exact absurd (h.trans hy) hne
          · exact h
        have hn : (getNone l m).2.1.names = l.names := by
          unfold getNone; split <;> rfl
        rw [ih _ _ hx' (by rw [hn]; exact hu)]
      · rw [if_neg hy]
        cases hg : dictGet l.names y with
        | none => rfl
        | some v =>
          have hx' : x ∈ ys := by
            rcases List.mem_cons.mp hx with h | h
            · rw [h, hg] at hu; cases hu
            · exact h
          rw [ih l m hx' hu]
  unfold nodeStep
  rw [if_neg hc]
  unfold generalNode
  rw [key n.inputs l m hx hu]

/-- So is a graph output that has no value at the end. -/
theorem C23_output_rejected (names : Names) (outputs : List ValueInfo) (o : ValueInfo) (ho : o ∈ outputs)
    (hu : dictGet names o.name = none) :
    pyMap (outputValue names) outputs = .error .onnxImport := by
  induction outputs with
  | nil => cases ho
  | cons p ps ih =>
    unfold pyMap
    cases hp : dictGet names p.name with
    | none => simp [outputValue, hp]
    | some v =>
      have : o ∈ ps := by
        rcases List.mem_cons.mp ho with h | h
        · rw [h, hp] at hu; cases hu
        · exact h
      simp [outputValue, hp, ih this]

/-- A node of a domain the model does not import fails too, though only with `UnboundLocalError`. -/
theorem C23_missing_opset (X : Expand) (ctx : Ctx) (n : Node) (regions : List (String × RegionAct))
    (gi : GraphInfo) (l : LSt) (m : MSt) (hc : n.opType ≠ "Constant")
    (ho : ∀ p ∈ ctx.opsets, p.1 ≠ n.domain) :
    ∃ e, nodeStep X ctx n regions gi l m = .error e ∧
      (e ≠ .unboundLocal → (∃ e', importInputs gi n.inputs l m = .error e') ∨
        ∃ inits e', pyMap typeProtoToType (n.outputs.map (findType gi inits)) = .error e') := by
  have hv : opsetOf ctx.opsets n.domain = .error .unboundLocal := by
    unfold opsetOf
    have : ctx.opsets.find? (fun p => p.1 == n.domain) = none := by
      rw [List.find?_eq_none]
      intro p hp
      simpa using ho p hp
    rw [this]
  unfold nodeStep
  rw [if_neg hc]
  unfold generalNode
  cases h1 : importInputs gi n.inputs l m with
  | error e => exact ⟨e, rfl, fun _ => Or.inl ⟨e, rfl⟩⟩
  | ok r =>
    obtain ⟨vs, inT, l1, m1⟩ := r
    simp only
    cases h2 : pyMap typeProtoToType (n.outputs.map (findType gi l1.inits)) with
    | error e => exact ⟨e, rfl, fun _ => Or.inr ⟨_, e, h2⟩⟩
    | ok types => simp only [hv]; exact ⟨_, rfl, fun h => absurd rfl h⟩

/-! ### C27 in a whole model -/

/-- Only operators the configuration allows are expanded in the model's own graph, at any depth of subgraphs. -/
theorem C27_main_graph (E : Ext) (fuel : Nat) (ctx : Ctx) (g : Graph) (funcs : List Func)
    (h : importModel E fuel ctx g = .ok funcs) :
    ∃ main fs, funcs = fs ++ [main] ∧
      AllCallsRegions (fun _ d o _ => MayExpand ctx.config d o) [main.body] := by
  obtain ⟨main, fs, h1, _, _, _, h2, _⟩ := model_good h
  exact ⟨main, fs, h1, allCallsRegions_mono (fun _ _ _ _ hc => hc.1) _ h2⟩

/-- Inside expanded functions the default configuration decides, so there the policy is respected if the model uses
the default lists. -/
theorem C27_functions_partial (E : Ext) (fuel : Nat) (ctx : Ctx) (g : Graph) (funcs : List Func)
    (h : importModel E fuel ctx g = .ok funcs) (ha : ctx.config.allow = Config.default.allow)
    (hd : ctx.config.deny = Config.default.deny) :
    ∀ f ∈ funcs, AllCallsRegions (fun _ d o _ => MayExpand ctx.config d o) [f.body] := by
  obtain ⟨main, fs, h1, _, _, _, h2, h3⟩ := model_good h
  intro f hf
  rw [h1] at hf
  rcases List.mem_append.mp hf with hf | hf
  · refine allCallsRegions_mono (fun _ d o _ hc => ?_) _ (h3 f hf)
    have := hc.1
    unfold MayExpand at this ⊢
    rw [ha, hd]
    exact this
  · simp only [List.mem_singleton] at hf
    rw [hf]
    exact allCallsRegions_mono (fun _ _ _ _ hc => hc.1) _ h2

namespace Onnx.Demo

def outer : Schema := ⟨"Outer", "", 1, [1], [], []⟩
def mvn : Schema := ⟨"MeanVarianceNormalization", "", 1, [1], [], []⟩

/-- `Outer` is defined by `MeanVarianceNormalization`, and that by `Neg`. -/
def ext : Ext where
  registry := [outer, mvn, ⟨"Neg", "", 1, [], [], []⟩, ⟨"If", "", 1, [], [], []⟩]
  plainBody s _ := some ⟨["x"], ["y"],
    [.mk "" (if s.name = "Outer" then "MeanVarianceNormalization" else "Neg") "" ["x"] ["y"] []], [("", 1)]⟩
  contextBody _ _ _ _ := none
  infer g := .ok g
  repr k := k.opType

/-- Expand `Outer`, but never `MeanVarianceNormalization`. -/
def cfg : Config := ⟨true, some [("", ["Outer"])], [("", ["MeanVarianceNormalization"])]⟩

def callOuter : Graph :=
  .mk "main" [] [] [⟨"a", .unset⟩] [⟨"b", .unset⟩] [.mk "" "Outer" "" ["a"] ["b"] []]

/-- Everything may be expanded. -/
def cfgAll : Config := ⟨true, none, []⟩

/-- A node inside a branch, using a value of the main graph. -/
def nested : Graph :=
  .mk "main" [] [] [⟨"a", .unset⟩] [⟨"c", .unset⟩]
    [.mk "" "Neg" "" ["a"] ["b"] [],
     .mk "" "If" "" ["b", ""] ["c"]
      [.mk "then_branch" attrGraph "" 0 .empty []
        (some (.mk "t" [] [] [] [⟨"d", .unset⟩] [.mk "" "Neg" "" ["b"] ["d"] []])) []]]

end Onnx.Demo

open Onnx.Demo in
/-- The denied operator is expanded inside a function body. -/
theorem C27_function_body_violated :
    ¬ MayExpand cfg "" "MeanVarianceNormalization" ∧
    ∃ funcs, importModel ext 5 ⟨[("", 1)], cfg⟩ callOuter = .ok funcs ∧
      ∃ f ∈ funcs, ¬ AllCallsRegions (fun _ d o _ => MayExpand cfg d o) [f.body] := by
  have hno : ¬ MayExpand cfg "" "MeanVarianceNormalization" := by rw [← policyAllows_iff]; decide
  refine ⟨hno, _, by with_unfolding_all rfl, _, List.mem_cons_of_mem _ List.mem_cons_self, ?_⟩
  intro h
  simp only [AllCallsRegions] at h
  have h2 : AllCalls (fun _ d o _ => MayExpand cfg d o) [_, _] := h.1
  unfold AllCalls at h2
  have h3 := h2.2.2
  unfold AllCalls at h3
  exact hno (h3.1 _ _ _ rfl)

open Onnx.Demo in
/-- And an allowed one is not. -/
theorem C27_not_expanded_violated :
    MayExpand cfgAll "" "Outer" ∧
    (importModel { ext with plainBody := fun s _ => some ⟨["x"], ["y"],
        [.mk "" (if s.name = "MeanVarianceNormalization" then "Outer" else "Neg") "" ["x"] ["y"] []], [("", 1)]⟩ }
      5 ⟨[("", 1)], cfgAll⟩
      (.mk "main" [] [] [⟨"a", .unset⟩] [⟨"b", .unset⟩]
        [.mk "" "MeanVarianceNormalization" "" ["a"] ["b"] []])).map (List.map Func.name) =
      .ok ["MeanVarianceNormalization", "main"] := by
  refine ⟨?_, by with_unfolding_all rfl⟩
  rw [← policyAllows_iff]; decide

open Onnx.Demo in
example : importModel ext 5 ⟨[("", 1)], Config.default⟩ nested = .ok [⟨"main", false, [.none], [.none], some 1, [],
    .block [0]
      [.mk .none [] [1] [.none] [],
       .mk (.operator "Neg" []) [0] [2] [.none] [],
       .mk (.operator "If" []) [2, 1] [3] [.none]
        [.block [] [.mk .none [] [4] [.none] [], .mk (.operator "Neg" []) [2] [5] [.none] []] [5]]]
      [3]⟩] := by with_unfolding_all rfl

open Onnx.Demo in
example : importModel ext 5 ⟨[("", 1)], cfg⟩
    (.mk "main" [] [] [] [⟨"b", .unset⟩] [.mk "" "Neg" "" ["a"] ["b"] []]) = .error .onnxImport := by with_unfolding_all rfl

/-! ### C63 -/

/-- Every call, in every function and at every depth, is a call of a private function of the same module, with the
result types of that function; the model's own graph becomes the last function, the only public one among
callers. -/
theorem C63_calls_resolve (E : Ext) (fuel : Nat) (ctx : Ctx) (g : Graph) (funcs : List Func)
    (h : importModel E fuel ctx g = .ok funcs) :
    (∀ f ∈ funcs, AllCallsRegions (fun name _ _ types => Resolves funcs name types) [f.body]) ∧
      ∃ main, funcs.getLast? = some main ∧ main.name = g.name ∧ main.priv = false := by
  obtain ⟨main, fs, h1, h4, h5, _, h2, h3⟩ := model_good h
  have hsub : ∀ f ∈ fs, f ∈ funcs := by rw [h1]; exact fun f hf => List.mem_append_left _ hf
  refine ⟨?_, main, by rw [h1]; exact List.getLast?_concat .., h4, h5⟩
  intro f hf
  rw [h1] at hf
  rcases List.mem_append.mp hf with hf | hf
  · exact allCallsRegions_mono (fun _ _ _ _ hc => hc.2.mono hsub) _ (h3 f hf)
  · simp only [List.mem_singleton] at hf
    rw [hf]
    exact allCallsRegions_mono (fun _ _ _ _ hc => hc.2.mono hsub) _ h2

open Onnx.Demo in
example : (importModel ext 5 ⟨[("", 1)], cfg⟩ callOuter).map (List.map (fun f => (f.name, f.priv))) =
    .ok [("MeanVarianceNormalization", true), ("Outer", true), ("main", false)] := by with_unfolding_all rfl

end Verif
