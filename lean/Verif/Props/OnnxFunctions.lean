import Verif.Spec.OnnxFunctions
import Verif.Model.OnnxImporter

/-!
# C26, C27, C30: ONNX operators defined by functions
-/

namespace Verif

open Verif.Onnx

namespace Onnx

theorem listed_iff {lists : List (String × List String)} {domain op : String} :
    listed lists domain op = true ↔ Listed lists domain op := by
  unfold listed Listed
  cases h : dictGet lists domain with
  | none => simp
  | some ops => simp

theorem policyAllows_iff {c : Config} {domain op : String} :
    policyAllows c domain op = true ↔ MayExpand c domain op := by
  unfold policyAllows MayExpand
  rw [Bool.and_eq_true]
  have h2 : ((!listed c.deny domain op) = true) ↔ ¬ Listed c.deny domain op := by
    rw [← listed_iff]; simp
  rw [h2]
  cases h : c.allow with
  | none => simp
  | some lists => simp [listed_iff]

theorem foldl_max_ok (l : List Int) (b : Option Int) :
    (l.foldl maxStep b = none ↔ l = [] ∧ b = none) ∧
    ∀ v, l.foldl maxStep b = some v →
      (v ∈ l ∨ b = some v) ∧ (∀ w ∈ l, w ≤ v) ∧ (∀ w, b = some w → w ≤ v) := by
  induction l generalizing b with
  | nil =>
    refine ⟨by simp, ?_⟩
    rintro v rfl
    exact ⟨Or.inr rfl, by simp, fun w hw => by cases hw; exact Int.le_refl _⟩
  | cons x xs ih =>
    simp only [List.foldl_cons]
    cases b with
    | none =>
      obtain ⟨h1, h2⟩ := ih (some x)
      refine ⟨by simp [maxStep, h1], fun v hv => ?_⟩
      obtain ⟨ha, hb, hc⟩ := h2 v hv
      refine ⟨?_, ?_, by simp⟩
      · rcases ha with h | h
        · exact Or.inl (List.mem_cons_of_mem _ h)
        · cases h; exact Or.inl List.mem_cons_self
      · intro w hw
        rcases List.mem_cons.mp hw with rfl | hw
        · exact hc w rfl
        · exact hb w hw
    | some y =>
      obtain ⟨h1, h2⟩ := ih (some (if y < x then x else y))
      refine ⟨by simp [maxStep, h1], fun v hv => ?_⟩
      obtain ⟨ha, hb, hc⟩ := h2 v hv
      have hm := hc _ rfl
      refine ⟨?_, ?_, ?_⟩
      · rcases ha with h | h
        · exact Or.inl (List.mem_cons_of_mem _ h)
        · simp only [Option.some.injEq] at h
          split at h
          · exact Or.inl (by rw [← h]; exact List.mem_cons_self)
          · exact Or.inr (by rw [h])
      · intro w hw
        rcases List.mem_cons.mp hw with rfl | hw
        · split at hm <;> omega
        · exact hb w hw
      · intro w hw
        cases hw
        split at hm <;> omega

theorem maxVersion_none {opset : Int} {l : List Int} :
    maxVersion opset l = none ↔ ∀ v ∈ l, ¬ v ≤ opset := by
  unfold maxVersion
  rw [(foldl_max_ok _ none).1]
  simp

theorem maxVersion_some {opset v : Int} {l : List Int} (h : maxVersion opset l = some v) :
    v ∈ l ∧ v ≤ opset ∧ ∀ w ∈ l, w ≤ opset → w ≤ v := by
  unfold maxVersion at h
  obtain ⟨h1, h2, -⟩ := (foldl_max_ok _ none).2 v h
  rcases h1 with h1 | h1
  · have := List.mem_filter.mp h1
    refine ⟨this.1, by simpa using this.2, fun w hw hle => h2 w ?_⟩
    exact List.mem_filter.mpr ⟨hw, by simpa using hle⟩
  · cases h1

theorem chooseVersion_some {s : Schema} {opset v : Int} {cd : Bool}
    (h : chooseVersion s opset = some (v, cd)) :
    s.HasBody v cd ∧ v ≤ opset ∧ ∀ w k, s.HasBody w k → w ≤ opset → w ≤ v := by
  unfold chooseVersion at h
  cases hp : maxVersion opset s.plainVersions with
  | none =>
    cases hc : maxVersion opset s.contextVersions with
    | none => rw [hp, hc] at h; cases h
    | some c =>
      rw [hp, hc] at h
      cases h
      obtain ⟨h1, h2, h3⟩ := maxVersion_some hc
      refine ⟨by simpa [Schema.HasBody] using h1, h2, fun w k hw hle => ?_⟩
      cases k with
      | true => exact h3 w (by simpa [Schema.HasBody] using hw) hle
      | false => exact absurd hle (maxVersion_none.mp hp w (by simpa [Schema.HasBody] using hw))
  | some p =>
    obtain ⟨p1, p2, p3⟩ := maxVersion_some hp
    cases hc : maxVersion opset s.contextVersions with
    | none =>
      rw [hp, hc] at h
      cases h
      refine ⟨by simpa [Schema.HasBody] using p1, p2, fun w k hw hle => ?_⟩
      cases k with
      | false => exact p3 w (by simpa [Schema.HasBody] using hw) hle
      | true => exact absurd hle (maxVersion_none.mp hc w (by simpa [Schema.HasBody] using hw))
    | some c =>
      obtain ⟨c1, c2, c3⟩ := maxVersion_some hc
      rw [hp, hc] at h
      simp only at h
      split at h
      · rename_i hlt
        cases h
        refine ⟨by simpa [Schema.HasBody] using p1, p2, fun w k hw hle => ?_⟩
        cases k with
        | false => exact p3 w (by simpa [Schema.HasBody] using hw) hle
        | true => have := c3 w (by simpa [Schema.HasBody] using hw) hle; omega
      · rename_i hlt
        cases h
        refine ⟨by simpa [Schema.HasBody] using c1, c2, fun w k hw hle => ?_⟩
        cases k with
        | false => have := p3 w (by simpa [Schema.HasBody] using hw) hle; omega
        | true => exact c3 w (by simpa [Schema.HasBody] using hw) hle

theorem newestSchema_some {version : Int} {l : List Schema} {s : Schema}
    (h : newestSchema version l = some s) :
    s ∈ l ∧ s.since ≤ version ∧ ∀ s' ∈ l, s'.since ≤ version → s'.since ≤ s.since := by
  have hnone : ∀ l, newestSchema version l = none → ∀ s' ∈ l, ¬ s'.since ≤ version := by
    intro l
    induction l with
    | nil => simp
    | cons x xs ih =>
      intro h s' hs'
      unfold newestSchema at h
      cases hx : newestSchema version xs with
      | some b => rw [hx] at h; simp only at h; split at h <;> cases h
      | none =>
        rw [hx] at h
        simp only at h
        split at h
        · cases h
        · rename_i hn
          rcases List.mem_cons.mp hs' with rfl | hs'
          · exact hn
          · exact ih hx s' hs'
  induction l generalizing s with
  | nil => cases h
  | cons x xs ih =>
    unfold newestSchema at h
    cases hx : newestSchema version xs with
    | none =>
      rw [hx] at h
      simp only at h
      split at h
      · rename_i hle
        cases h
        refine ⟨List.mem_cons_self, hle, fun s' hs' hle' => ?_⟩
        rcases List.mem_cons.mp hs' with rfl | hs'
        · exact Int.le_refl _
        · exact absurd hle' (hnone xs hx s' hs')
      · cases h
    | some b =>
      rw [hx] at h
      simp only at h
      obtain ⟨b1, b2, b3⟩ := ih hx
      split at h
      · rename_i hlt
        cases h
        refine ⟨List.mem_cons_self, hlt.1, fun s' hs' hle' => ?_⟩
        rcases List.mem_cons.mp hs' with rfl | hs'
        · exact Int.le_refl _
        · have := b3 s' hs' hle'; omega
      · rename_i hlt
        cases h
        refine ⟨List.mem_cons_of_mem _ b1, b2, fun s' hs' hle' => ?_⟩
        rcases List.mem_cons.mp hs' with rfl | hs'
        · by_cases h : s.since < s'.since
          · exact absurd ⟨hle', h⟩ hlt
          · omega
        · exact b3 s' hs' hle'

theorem getSchema_ok {registry : List Schema} {op domain : String} {version : Int} {s : Schema}
    (h : getSchema registry op domain version = .ok s) :
    s ∈ registry ∧ s.name = op ∧ s.domain = domain ∧ s.since ≤ version ∧
      ∀ s' ∈ registry, s'.name = op → s'.domain = domain → s'.since ≤ version → s'.since ≤ s.since := by
  unfold getSchema at h
  split at h
  · rename_i b hb
    cases h
    obtain ⟨h1, h2, h3⟩ := newestSchema_some hb
    simp only [List.mem_filter, Bool.and_eq_true, beq_iff_eq] at h1
    refine ⟨h1.1, h1.2.1, h1.2.2, h2, fun s' hs' hn hd hle => h3 s' ?_ hle⟩
    simp [hs', hn, hd]
  · cases h

/-- What `get_operator_function` does when it returns a function. -/
theorem getOperatorFunction_some {E : Ext} {I : Ctx → Graph → MSt → Py (FuncRef × MSt)} {ctx : Ctx}
    {node : Node} {version : Int} {inT : List TypeProto} {outT : List (Option TypeProto)} {m m' : MSt}
    {f : FuncRef} (h : getOperatorFunction E I ctx node version inT outT m = .ok (some f, m')) :
    policyAllows ctx.config node.domain node.opType = true ∧
    ∃ s v cd, getSchema E.registry node.opType node.domain version = .ok s ∧
      chooseVersion s version = some (v, cd) ∧
      ((dictGet m.memo (E.repr ⟨node.opType, node.domain, version, inT, outT,
            if cd then .inl node else .inr node.attrs⟩) = some f ∧ m' = m) ∨
        (dictGet m.memo (E.repr ⟨node.opType, node.domain, version, inT, outT,
            if cd then .inl node else .inr node.attrs⟩) = none ∧
         ∃ p g m1, (if cd then E.contextBody s v node inT else E.plainBody s v) = some p ∧
          specialize E.infer p s (E.repr ⟨node.opType, node.domain, version, inT, outT,
            if cd then .inl node else .inr node.attrs⟩) inT outT node = .ok g ∧
          I ⟨p.opsets, Config.default⟩ g m = .ok (f, m1) ∧
          m' = { m1 with memo := dictSet m1.memo (E.repr ⟨node.opType, node.domain, version, inT, outT,
            if cd then .inl node else .inr node.attrs⟩) f })) := by
  unfold getOperatorFunction at h
  split at h
  · cases h
  · rename_i hp
    refine ⟨by simpa using hp, ?_⟩
    split at h
    · cases h
    · rename_i s hs
      split at h
      · cases h
      · rename_i v cd hv
        refine ⟨s, v, cd, hs, hv, ?_⟩
        simp only at h
        split at h
        · rename_i f' hf
          cases h
          exact Or.inl ⟨hf, rfl⟩
        · rename_i hf
          refine Or.inr ⟨hf, ?_⟩
          split at h
          · cases h
          · rename_i p hpb
            split at h
            · cases h
            · rename_i g hg
              split at h
              · cases h
              · rename_i fr m1 hI
                cases h
                exact ⟨p, g, m1, hpb, hg, hI, rfl⟩

end Onnx

/-! ### C26 -/

/-- An operator that is expanded for the first time uses, of all its function definitions not newer than the
opset, the newest; no newer one is used. -/
theorem C26_newest (E : Ext) (hreg : WellVersioned E.registry)
    (I : Ctx → Graph → MSt → Py (FuncRef × MSt)) (ctx : Ctx)
    (node : Node) (version : Int) (inT : List TypeProto) (outT : List (Option TypeProto)) (m m' : MSt)
    (f : FuncRef) (h : getOperatorFunction E I ctx node version inT outT m = .ok (some f, m')) :
    ∃ s ∈ E.registry, ∃ v cd, s.name = node.opType ∧ s.domain = node.domain ∧
      s.HasBody v cd ∧ v ≤ version ∧
      (∀ s' ∈ E.registry, s'.name = node.opType → s'.domain = node.domain →
        ∀ w k, s'.HasBody w k → w ≤ version → w ≤ v) ∧
      let key := E.repr ⟨node.opType, node.domain, version, inT, outT, if cd then .inl node else .inr node.attrs⟩
      (dictGet m.memo key = none →
        ∃ p g m1, (if cd then E.contextBody s v node inT else E.plainBody s v) = some p ∧
          specialize E.infer p s key inT outT node = .ok g ∧
          I ⟨p.opsets, Config.default⟩ g m = .ok (f, m1)) := by
  obtain ⟨-, s, v, cd, hs, hv, hor⟩ := getOperatorFunction_some h
  obtain ⟨h1, h2, h3, h4, h5⟩ := getSchema_ok hs
  obtain ⟨b1, b2, b3⟩ := chooseVersion_some hv
  refine ⟨s, h1, v, cd, h2, h3, b1, b2, ?_, ?_⟩
  · intro s' hs' hn hd w k hw hle
    have ⟨hsince, hnext⟩ := hreg.2 s' hs' w k hw
    have hle' := h5 s' hs' hn hd (by omega)
    by_cases heq : s'.since = s.since
    · have := hreg.1 s h1 s' hs' (by rw [hn, h2]) (by rw [hd, h3]) heq
      subst this
      exact b3 w k hw hle
    · have := hnext s h1 (by rw [h2, hn]) (by rw [h3, hd]) (by omega)
      have := (hreg.2 s h1 v cd b1).1
      omega
  · intro key hnone
    rcases hor with ⟨hm, -⟩ | ⟨-, p, g, m1, hp, hg, hI, -⟩
    · rw [hnone] at hm; cases hm
    · exact ⟨p, g, m1, hp, hg, hI⟩

/-- If no definition of the operator's schema is old enough, the operator is not expanded. -/
theorem C26_none (E : Ext) (I : Ctx → Graph → MSt → Py (FuncRef × MSt)) (ctx : Ctx)
    (node : Node) (version : Int) (inT : List TypeProto) (outT : List (Option TypeProto)) (m : MSt)
    (s : Schema) (hs : getSchema E.registry node.opType node.domain version = .ok s)
    (h : ∀ v cd, s.HasBody v cd → version < v) :
    getOperatorFunction E I ctx node version inT outT m = .ok (none, m) := by
  have hp : maxVersion version s.plainVersions = none :=
    maxVersion_none.mpr (fun v hv hle => by
      have := h v false (by simpa [Schema.HasBody] using hv); omega)
  have hc : maxVersion version s.contextVersions = none :=
    maxVersion_none.mpr (fun v hv hle => by
      have := h v true (by simpa [Schema.HasBody] using hv); omega)
  unfold getOperatorFunction
  simp only [hs, chooseVersion, hp, hc]
  split <;> rfl

/-- The opset is that of the first import of the operator's domain. -/
theorem C26_opset (opsets : List (String × Int)) (domain : String) (v : Int)
    (h : opsetOf opsets domain = .ok v) :
    ∃ pre post, opsets = pre ++ (domain, v) :: post ∧ ∀ p ∈ pre, p.1 ≠ domain := by
  unfold opsetOf at h
  split at h
  · rename_i p hp
    cases h
    obtain ⟨h1, pre, post, h2, h3⟩ := List.find?_eq_some_iff_append.mp hp
    refine ⟨pre, post, ?_, fun q hq => by simpa using h3 q hq⟩
    rw [h2]
    have : p.1 = domain := by simpa using h1
    rw [← this]
  · cases h

namespace Onnx.Demo

/-- An operator with a plain body since version 13, a new one in 18, and a context-dependent one in 20. -/
def clip : Schema := ⟨"Clip", "", 13, [13, 18], [20], []⟩

/-- The older schema of the operator. -/
def clipOld : Schema := ⟨"Clip", "", 6, [], [], []⟩

end Onnx.Demo

open Onnx.Demo in
example : chooseVersion clip 17 = some (13, false) ∧ chooseVersion clip 18 = some (18, false) ∧
    chooseVersion clip 21 = some (20, true) ∧ chooseVersion clip 12 = none := by decide

open Onnx.Demo in
example : (getSchema [clipOld, clip] "Clip" "" 12).toOption.map Schema.since = some 6 ∧
    (getSchema [clipOld, clip] "Clip" "" 19).toOption.map Schema.since = some 13 := by decide

open Onnx.Demo in
example : WellVersioned [clipOld, clip] := by
  refine ⟨by simp [clip, clipOld], ?_⟩
  intro s hs v cd hb
  simp only [List.mem_cons, List.not_mem_nil, or_false] at hs
  rcases hs with rfl | rfl
  · cases cd <;> simp [Schema.HasBody, clipOld] at hb
  · cases cd <;> simp [Schema.HasBody, clip] at hb
    · rcases hb with rfl | rfl <;> refine ⟨by decide, ?_⟩ <;> intro s' hs' _ _ hlt <;>
        simp only [List.mem_cons, List.not_mem_nil, or_false] at hs' <;>
        rcases hs' with rfl | rfl <;> revert hlt <;> decide
    · subst hb
      refine ⟨by decide, ?_⟩
      intro s' hs' _ _ hlt
      simp only [List.mem_cons, List.not_mem_nil, or_false] at hs'
      rcases hs' with rfl | rfl <;> revert hlt <;> decide

/-! ### C27 -/

/-- An operator for which a function is returned may be expanded under the configuration. -/
theorem C27_only_allowed (E : Ext) (I : Ctx → Graph → MSt → Py (FuncRef × MSt)) (ctx : Ctx)
    (node : Node) (version : Int) (inT : List TypeProto) (outT : List (Option TypeProto)) (m m' : MSt)
    (f : FuncRef) (h : getOperatorFunction E I ctx node version inT outT m = .ok (some f, m')) :
    MayExpand ctx.config node.domain node.opType :=
  policyAllows_iff.mp (getOperatorFunction_some h).1

/-- An operator that may not be expanded is not even looked up: nothing is imported, whatever the `onnx`
package knows about it. -/
theorem C27_denied (E : Ext) (I : Ctx → Graph → MSt → Py (FuncRef × MSt)) (ctx : Ctx)
    (node : Node) (version : Int) (inT : List TypeProto) (outT : List (Option TypeProto)) (m : MSt)
    (h : ¬ MayExpand ctx.config node.domain node.opType) :
    getOperatorFunction E I ctx node version inT outT m = .ok (none, m) := by
  have : policyAllows ctx.config node.domain node.opType = false := by
    rw [← policyAllows_iff] at h; simpa using h
  unfold getOperatorFunction
  rw [if_pos this]

/-- An operator that may be expanded and has a definition is never silently left alone: a function is returned, or
the import fails. -/
theorem C27_expanded (E : Ext) (I : Ctx → Graph → MSt → Py (FuncRef × MSt)) (ctx : Ctx)
    (node : Node) (version : Int) (inT : List TypeProto) (outT : List (Option TypeProto)) (m m' : MSt)
    (hmay : MayExpand ctx.config node.domain node.opType) (s : Schema)
    (hs : getSchema E.registry node.opType node.domain version = .ok s)
    (v : Int) (cd : Bool) (hb : s.HasBody v cd) (hv : v ≤ version) :
    getOperatorFunction E I ctx node version inT outT m ≠ .ok (none, m') := by
  have hp : ¬ (policyAllows ctx.config node.domain node.opType = false) := by
    rw [policyAllows_iff.mpr hmay]; simp
  intro h
  unfold getOperatorFunction at h
  rw [if_neg hp] at h
  simp only [hs] at h
  cases hc : chooseVersion s version with
  | none =>
    unfold chooseVersion at hc
    cases h1 : maxVersion version s.plainVersions with
    | none =>
      cases h2 : maxVersion version s.contextVersions with
      | none =>
        cases cd with
        | true => exact maxVersion_none.mp h2 v (by simpa [Schema.HasBody] using hb) hv
        | false => exact maxVersion_none.mp h1 v (by simpa [Schema.HasBody] using hb) hv
      | some c => rw [h1, h2] at hc; cases hc
    | some p =>
      cases h2 : maxVersion version s.contextVersions with
      | none => rw [h1, h2] at hc; cases hc
      | some c => rw [h1, h2] at hc; simp only at hc; split at hc <;> cases hc
  | some r =>
    obtain ⟨v', cd'⟩ := r
    rw [hc] at h
    simp only at h
    split at h
    · cases h
    · split at h
      · cases h
      · split at h
        · cases h
        · split at h <;> cases h

example : MayExpand Config.default "" "MeanVarianceNormalization" ∧
    ¬ MayExpand Config.default "" "CastLike" ∧ ¬ MayExpand Config.default "com.ex" "MeanVarianceNormalization" ∧
    MayExpand { Config.default with allow := none } "com.ex" "CastLike" := by
  simp only [← policyAllows_iff]; decide

/-! ### C30 -/

namespace Onnx

theorem findAttr_none {l : List Attr} {name : String} :
    findAttr l name = none ↔ ∀ x ∈ l, x.name ≠ name := by
  unfold findAttr
  rw [List.find?_eq_none]
  simp

theorem findAttr_some {l : List Attr} {name : String} {c : Attr} :
    findAttr l name = some c ↔
      ∃ pre post, l = pre ++ c :: post ∧ (∀ x ∈ pre, x.name ≠ name) ∧ c.name = name := by
  unfold findAttr
  rw [List.find?_eq_some_iff_append]
  constructor
  · rintro ⟨h1, pre, post, h2, h3⟩
    exact ⟨pre, post, h2, fun x hx => by simpa using h3 x hx, by simpa using h1⟩
  · rintro ⟨pre, post, h1, h2, h3⟩
    exact ⟨by simpa using h3, pre, post, h1, fun x hx => by simpa using h2 x hx⟩

end Onnx

/-- An attribute that is bound has the value it should have at its own level: the caller's value if there is one, else
the default, else it is removed; attributes that are not references stay as they are. -/
theorem C30_attribute_partial (caller : List Attr) (schema : Schema) (a : Attr) (r : Option Attr)
    (h : bindAttribute caller schema a = .ok r) : Bound caller schema.defaults a r := by
  unfold bindAttribute at h
  unfold Bound
  split at h
  · rename_i hr
    rw [if_pos hr]
    split at h
    · cases h; rfl
    · cases h
  · rename_i hr
    rw [if_neg hr]
    split at h
    · rename_i c hc
      cases h
      obtain ⟨pre, post, h1, h2, h3⟩ := findAttr_some.mp hc
      exact Or.inl ⟨pre, c, post, h1, h2, h3, rfl⟩
    · rename_i hc
      refine Or.inr ⟨findAttr_none.mp hc, ?_⟩
      split at h
      · cases h
      · rename_i hd
        cases h
        exact Or.inr ⟨Or.inl hd, rfl⟩
      · rename_i d hd
        split at h
        · rename_i ht
          cases h
          exact Or.inr ⟨Or.inr ⟨d, hd, ht⟩, rfl⟩
        · rename_i ht
          cases h
          exact Or.inl ⟨d, hd, ht, rfl⟩

/-- Binding succeeds on every attribute that is not a list of graphs and refers only to attributes of the caller or
of the schema. -/
theorem C30_total_partial (caller : List Attr) (schema : Schema) (a : Attr)
    (h : if a.ref = "" then a.graphs = [] else
      (∃ c ∈ caller, c.name = a.ref) ∨ (dictGet schema.defaults a.ref).isSome) :
    ∃ r, bindAttribute caller schema a = .ok r := by
  unfold bindAttribute
  split at h
  · rename_i hr
    rw [if_pos hr, h]
    exact ⟨_, rfl⟩
  · rename_i hr
    rw [if_neg hr]
    cases hc : findAttr caller a.ref with
    | some c => exact ⟨_, rfl⟩
    | none =>
      rcases h with ⟨c, hm, hn⟩ | h
      · exact absurd hn (findAttr_none.mp hc c hm)
      · cases hd : dictGet schema.defaults a.ref with
        | none => rw [hd] at h; cases h
        | some o =>
          cases o with
          | none => exact ⟨_, rfl⟩
          | some d =>
            simp only
            split <;> exact ⟨_, rfl⟩

/-- A node of the body is otherwise unchanged: the same operator, domain, inputs and outputs, and the bound
attributes in their order. -/
theorem C30_node_partial (caller : List Attr) (schema : Schema) (n n' : Node)
    (h : bindAttributesOnNode caller schema n = .ok n') :
    n'.name = n.name ∧ n'.opType = n.opType ∧ n'.domain = n.domain ∧ n'.inputs = n.inputs ∧
      n'.outputs = n.outputs ∧
      ∃ rs : List (Option Attr), rs.length = n.attrs.length ∧
        (∀ i (h1 : i < n.attrs.length) (h2 : i < rs.length), Bound caller schema.defaults n.attrs[i] rs[i]) ∧
        n'.attrs = rs.filterMap id := by
  unfold bindAttributesOnNode at h
  split at h
  · cases h
  · rename_i as has
    cases h
    refine ⟨rfl, rfl, rfl, rfl, rfl, as, ?_⟩
    rw [pyMap_ok_iff] at has
    exact ⟨has.1, fun i h1 h2 => C30_attribute_partial _ _ _ _ (has.2 i h1 h2), rfl⟩

namespace Onnx.Demo

def scalarAttr (name ref : String) (data : Nat) : Attr := .mk name 1 ref data .empty [] none []

/-- `alpha` with default 5, `axis` without. -/
def elu : Schema := ⟨"Elu", "", 6, [], [18], [("alpha", some (scalarAttr "alpha" "" 5)), ("axis", none)]⟩

/-- `If` whose branch multiplies by a constant that refers to `alpha`. -/
def branch : Graph :=
  .mk "then" [] [] [] [⟨"y", .unset⟩] [.mk "" "Constant" "" [] ["y"] [scalarAttr "value_float" "alpha" 0]]

def branchAttr : Attr := .mk "then_branch" attrGraph "" 0 .empty [] (some branch) []

end Onnx.Demo

open Onnx.Demo in
example : bindAttribute [scalarAttr "alpha" "" 9] elu (scalarAttr "value_float" "alpha" 0) =
      .ok (some (scalarAttr "value_float" "" 9)) ∧
    bindAttribute [] elu (scalarAttr "value_float" "alpha" 0) = .ok (some (scalarAttr "value_float" "" 5)) ∧
    bindAttribute [] elu (scalarAttr "axes" "axis" 0) = .ok none := ⟨rfl, rfl, rfl⟩

open Onnx.Demo in
/-- References inside a subgraph are not replaced, though the caller gives the value. -/
theorem C30_nested_violated :
    HasRef branchAttr.g ∧
    bindAttribute [scalarAttr "alpha" "" 9] elu branchAttr = .ok (some branchAttr) := by
  refine ⟨⟨_, List.mem_singleton.mpr rfl, _, List.mem_singleton.mpr rfl, ?_⟩, rfl⟩
  decide

/-- An attribute with a list of graphs cannot be bound at all: every such body fails with `NameError`. -/
theorem C30_graphs_violated (caller : List Attr) (schema : Schema) (a : Attr) (hr : a.ref = "")
    (hg : a.graphs ≠ []) : bindAttribute caller schema a = .error .nameError := by
  unfold bindAttribute
  rw [if_pos hr]
  cases h : a.graphs with
  | nil => exact absurd h hg
  | cons g gs => rfl

open Onnx.Demo in
example : bindAttribute [] elu (.mk "bodies" 10 "" 0 .empty [] none [branch]) = .error .nameError := rfl

/-- A function body cannot be specialised for a call without inputs. -/
theorem C30_no_inputs_violated (infer : Graph → Py Graph) (f : FunctionProto) (schema : Schema)
    (name : String) (o : String) (os : List String) (t : Option TypeProto) (ts : List (Option TypeProto))
    (caller : Node) (ho : f.outputs = o :: os) :
    specialize infer f schema name [] (t :: ts) caller = .error .unboundLocal := by
  unfold specialize
  simp [functionInputs, ho]

end Verif
