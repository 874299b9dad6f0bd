import Verif.Model.OnnxImporter
import Verif.Spec.OnnxInputs

/-!
# C24: the arguments of an imported ONNX graph
-/

namespace Verif
open Onnx

namespace Onnx

theorem dictMem_initMap {inits : List Tensor} {name : String} :
    dictMem (initMap inits) name = true ↔ ∃ t ∈ inits, t.name = name := by
  unfold dictMem initMap
  rw [dictGet_isSome_iff, mem_keys_ordOf]
  simp

theorem hasInit_iff {inits : List Tensor} {v : ValueInfo} :
    HasInit inits v ↔ dictMem (initMap inits) v.name = true := dictMem_initMap.symm

theorem infoMap_of_nodup {l : List ValueInfo} (h : (l.map ValueInfo.name).Nodup) :
    infoMap l = l.map (fun v => (v.name, v)) := by
  unfold infoMap
  apply ordOf_of_nodup
  rw [List.map_map]
  exact h

theorem mem_infoMap {l : List ValueInfo} {p : String × ValueInfo} (h : p ∈ infoMap l) :
    p.2 ∈ l ∧ p.1 = p.2.name := by
  have := mem_of_mem_ordOf h
  obtain ⟨v, hv, rfl⟩ := List.mem_map.mp this
  exact ⟨hv, rfl⟩

/-- Some input has an initializer, read off the dict. -/
theorem infoMap_all {inputs : List ValueInfo} {inits : List Tensor} :
    (infoMap inputs).all (fun p => !dictMem (initMap inits) p.1) = true ↔
      ∀ v ∈ inputs, ¬ HasInit inits v := by
  rw [List.all_eq_true]
  constructor
  · intro h v hv hi
    have : v.name ∈ (infoMap inputs).map Prod.fst := by
      unfold infoMap
      rw [mem_keys_ordOf, List.map_map]
      exact List.mem_map.mpr ⟨v, hv, rfl⟩
    obtain ⟨p, hp, hn⟩ := List.mem_map.mp this
    have := h p hp
    rw [hn, hasInit_iff.mp hi] at this
    cases this
  · intro h p hp
    obtain ⟨h1, h2⟩ := mem_infoMap hp
    have := h _ h1
    rw [hasInit_iff, ← h2] at this
    simpa using this

end Onnx

/-- With elision the arguments are the inputs without initializer, in their order, each under its own name. -/
theorem C24_elided_partial (inputs : List ValueInfo) (inits : List Tensor)
    (h : (inputs.map ValueInfo.name).Nodup) :
    inputMap false true inputs inits =
      .ok ((wantedInputs true inputs inits).map (fun v => (v.name, v))) := by
  have hf : ∀ l : List ValueInfo, (l.map (fun v => (v.name, v))).filter (fun p => !dictMem (initMap inits) p.1) =
      (l.filter (fun v => ¬ HasInit inits v)).map (fun v => (v.name, v)) := by
    intro l
    rw [List.filter_map]
    congr 1
    apply List.filter_congr
    intro v _
    simp only [Function.comp]
    by_cases hv : HasInit inits v
    · simp [hv, hasInit_iff.mp hv]
    · have : dictMem (initMap inits) v.name = false := by
        rw [hasInit_iff] at hv; simpa using hv
      simp [hv, this]
  unfold inputMap wantedInputs
  simp only [Bool.not_false, Bool.and_self, if_true]
  rw [infoMap_of_nodup h, hf]

/-- Without elision (and in subgraphs) all inputs are arguments, in their order. -/
theorem C24_all_partial (sub elide : Bool) (hse : sub = true ∨ elide = false)
    (inputs : List ValueInfo) (inits : List Tensor)
    (h : (inputs.map ValueInfo.name).Nodup) (hd : ∀ v ∈ inputs, ¬ HasInit inits v) :
    inputMap sub elide inputs inits =
      .ok ((wantedInputs false inputs inits).map (fun v => (v.name, v))) := by
  unfold inputMap wantedInputs
  have : (!sub && elide) = false := by rcases hse with rfl | rfl <;> simp
  rw [this]
  simp only [Bool.false_eq_true, if_false]
  rw [if_pos (infoMap_all.mpr hd), infoMap_of_nodup h]

/-- Without elision an input with an initializer is rejected, whatever else the lists contain. -/
theorem C24_rejected (sub elide : Bool) (hse : sub = true ∨ elide = false)
    (inputs : List ValueInfo) (inits : List Tensor) :
    inputMap sub elide inputs inits = .error .assertion ↔ ∃ v ∈ inputs, HasInit inits v := by
  unfold inputMap
  have : (!sub && elide) = false := by rcases hse with rfl | rfl <;> simp
  rw [this]
  simp only [Bool.false_eq_true, if_false]
  constructor
  · intro h
    split at h
    · cases h
    · rename_i hn
      rw [infoMap_all] at hn
      exact Classical.byContradiction (fun hc => hn (fun v hv hi => hc ⟨v, hv, hi⟩))
  · rintro ⟨v, hv, hi⟩
    rw [if_neg]
    rw [infoMap_all]
    intro hall
    exact hall v hv hi

/-- Each name has a single meaning: no two arguments share a name and none has the name of an initializer. -/
theorem C24_single_meaning (sub elide : Bool) (inputs : List ValueInfo) (inits : List Tensor)
    (ins : List (String × ValueInfo)) (h : inputMap sub elide inputs inits = .ok ins) :
    (ins.map Prod.fst).Nodup ∧
      ∀ p ∈ ins, p.2 ∈ inputs ∧ p.1 = p.2.name ∧ ¬ HasInit inits p.2 := by
  have hnd : ((infoMap inputs).map Prod.fst).Nodup := nodup_ordOf _
  unfold inputMap at h
  split at h
  · cases h
    refine ⟨List.Nodup.sublist (List.Sublist.map _ List.filter_sublist) hnd, fun p hp => ?_⟩
    obtain ⟨h1, h2⟩ := List.mem_filter.mp hp
    obtain ⟨h3, h4⟩ := mem_infoMap h1
    refine ⟨h3, h4, ?_⟩
    rw [hasInit_iff, ← h4]
    simpa using h2
  · split at h
    · rename_i hall
      cases h
      refine ⟨hnd, fun p hp => ?_⟩
      obtain ⟨h3, h4⟩ := mem_infoMap hp
      exact ⟨h3, h4, infoMap_all.mp hall _ h3⟩
    · cases h

/-- The function of an imported graph has exactly these arguments: as many block arguments, and the type of each
input. -/
theorem C24_function_partial (X : Expand) (ctx : Ctx) (priv : Bool) (g : Graph) (m m' : MSt) (f : FuncRef)
    (hn : (g.inputs.map ValueInfo.name).Nodup)
    (h : importFunction X ctx priv g m = .ok (f, m')) :
    ∃ func args ops ret, m'.funcs.getLast? = some func ∧ func.body = .block args ops ret ∧
      args.length = func.argTypes.length ∧
      (wantedInputs ctx.config.elideInitializedInputs g.inputs g.inits).map
        (fun v => typeProtoToType (some v.type)) = func.argTypes.map Except.ok := by
  unfold importFunction at h
  split at h
  · cases h
  · rename_i ins hins
    have hw : ins = (wantedInputs ctx.config.elideInitializedInputs g.inputs g.inits).map
        (fun v => (v.name, v)) := by
      cases he : ctx.config.elideInitializedInputs with
      | true =>
        rw [he, C24_elided_partial _ _ hn] at hins
        exact (Except.ok.inj hins).symm
      | false =>
        rw [he] at hins
        have hd : ∀ v ∈ g.inputs, ¬ HasInit g.inits v := by
          intro v hv hi
          have := (C24_rejected false false (Or.inr rfl) g.inputs g.inits).mpr ⟨v, hv, hi⟩
          rw [hins] at this
          cases this
        rw [C24_all_partial false false (Or.inr rfl) _ _ hn hd] at hins
        exact (Except.ok.inj hins).symm
    split at h
    · cases h
    · rename_i argTypes hat
      split at h
      · cases h
      · split at h
        · cases h
        · rename_i body m1 hb
          cases h
          unfold importAll at hb
          split at hb
          · cases hb
          · split at hb
            · cases hb
            · split at hb
              · cases hb
              · cases hb
                rw [pyMap_ok_iff] at hat
                refine ⟨_, _, _, _, List.getLast?_concat .., rfl, ?_, ?_⟩
                · simp [fresh, hat.1]
                · apply List.ext_getElem
                  · simp [hat.1, hw]
                  · intro i h1 h2
                    simp only [List.getElem_map]
                    have hi : i < ins.length := by simpa [hw] using h1
                    rw [← hat.2 i hi (by simpa using h2)]
                    simp [hw]

example : inputMap false true [⟨"x", .unset⟩, ⟨"w", .unset⟩, ⟨"y", .unset⟩] [⟨"w", 1, [2], .raw 7⟩] =
    .ok [("x", ⟨"x", .unset⟩), ("y", ⟨"y", .unset⟩)] := by decide
example : inputMap false false [⟨"x", .unset⟩, ⟨"w", .unset⟩] [⟨"w", 1, [2], .raw 7⟩] = .error .assertion := by decide
example : inputMap false false [⟨"x", .unset⟩, ⟨"w", .unset⟩] [⟨"v", 1, [2], .raw 7⟩] =
    .ok [("x", ⟨"x", .unset⟩), ("w", ⟨"w", .unset⟩)] := by decide

/-- Two inputs of one name become one argument, with the type of the last: the import does not fail and does not
give all inputs. -/
theorem C24_duplicate_violated :
    inputMap false true [⟨"x", .tensor 1 none⟩, ⟨"x", .tensor 7 none⟩] [] =
      .ok [("x", ⟨"x", .tensor 7 none⟩)] ∧
    wantedInputs true [⟨"x", .tensor 1 none⟩, ⟨"x", .tensor 7 none⟩] [] =
      [⟨"x", .tensor 1 none⟩, ⟨"x", .tensor 7 none⟩] := by decide

end Verif
