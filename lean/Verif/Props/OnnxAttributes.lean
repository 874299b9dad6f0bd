import Verif.Spec.OnnxScope

/-!
# C64: the attributes of an imported ONNX node
-/

namespace Verif
open Onnx

namespace Onnx

theorem importAttribute_none {a : Attr} : importAttribute a = .ok none ↔ a.type = attrGraph := by
  unfold importAttribute
  constructor
  · intro h
    split at h
    · assumption
    · split at h
      · cases h
      · split at h
        · split at h <;> cases h
        · split at h
          · split at h <;> cases h
          · cases h
  · intro h; rw [if_pos h]

theorem pyFold_attributes {attrs : List Attr} {d r : List (String × AttrVal)}
    (hnd : ((d.map Prod.fst) ++ attrs.map Attr.name).Nodup) (h : pyFold attributeStep d attrs = .ok r) :
    ∃ r', r = d ++ r' ∧ Carried attrs r' := by
  induction attrs generalizing d with
  | nil => simp only [pyFold] at h; cases h; exact ⟨[], by simp, rfl⟩
  | cons a attrs ih =>
    simp only [pyFold] at h
    split at h
    · cases h
    · rename_i d1 h1
      unfold attributeStep at h1
      split at h1
      · cases h1
      · rename_i hn
        cases h1
        have ht := importAttribute_none.mp hn
        obtain ⟨r', h2, h3⟩ := ih (by
          refine List.Nodup.sublist (List.Sublist.append (List.Sublist.refl _) ?_) hnd
          exact List.sublist_cons_self _ _) h
        refine ⟨r', h2, ?_⟩
        unfold Carried at h3 ⊢
        rw [List.filter_cons, if_neg (by simp [ht])]
        exact h3
      · rename_i v hv
        cases h1
        have ht : a.type ≠ attrGraph := fun ht => by
          rw [importAttribute_none.mpr ht] at hv; cases hv
        have hnew : a.name ∉ d.map Prod.fst := by
          intro hm
          rw [List.nodup_append] at hnd
          exact hnd.2.2 _ hm _ (by simp) rfl
        rw [ordSet_new v hnew] at h
        obtain ⟨r', h2, h3⟩ := ih (by
          rw [List.map_append]
          simpa using hnd) h
        refine ⟨(a.name, v) :: r', by rw [h2]; simp, ?_⟩
        unfold Carried at h3 ⊢
        rw [List.filter_cons, if_pos (by simp [ht])]
        simp only [List.map_cons, h3, hv]

end Onnx

/-- Every attribute that is not a graph is on the op, once, in its place, under its name and with its value. -/
theorem C64_carried (attrs : List Attr) (r : List (String × AttrVal))
    (hnd : (attrs.map Attr.name).Nodup) (h : importAttributes attrs = .ok r) : Carried attrs r := by
  obtain ⟨r', h1, h2⟩ := pyFold_attributes (d := []) (by simpa using hnd) h
  rw [h1]
  simpa using h2

/-- Numbers, strings and lists of them are not changed. -/
theorem C64_scalar (a : Attr) (h : a.type ∈ [1, 2, 3, 6, 7, 8]) :
    importAttribute a = .ok (some (.data a.type a.data)) := by
  unfold importAttribute
  have h1 : a.type ≠ attrGraph := by
    intro ht; rw [ht] at h; exact absurd h (by decide)
  have h2 : a.type = 1 ∨ a.type = 2 ∨ a.type = 3 ∨ a.type = 6 ∨ a.type = 7 ∨ a.type = 8 := by
    simpa using h
  rw [if_neg h1, if_pos h2]

/-- The other kinds (undefined, lists of graphs, sparse tensors, type prototypes, …) are rejected: no attribute is
dropped except for the graphs, which become regions. -/
theorem C64_rejected (attrs : List Attr) (a : Attr) (ha : a ∈ attrs)
    (h : a.type ∉ [1, 2, 3, 4, 5, 6, 7, 8, 9]) : ∃ e, importAttributes attrs = .error e := by
  have hs : ∀ d, attributeStep d a = .error .onnxImport := by
    intro d
    simp only [List.mem_cons, List.not_mem_nil, or_false, not_or] at h
    obtain ⟨h1, h2, h3, h4, h5, h6, h7, h8, h9⟩ := h
    unfold attributeStep importAttribute
    rw [if_neg (show ¬ a.type = attrGraph from h5), if_neg (by simp [h1, h2, h3, h6, h7, h8]),
      if_neg (show ¬ a.type = attrTensor from h4), if_neg h9]
  unfold importAttributes
  suffices ∀ d, ∃ e, pyFold attributeStep d attrs = .error e from this []
  induction attrs with
  | nil => cases ha
  | cons b attrs ih =>
    intro d
    simp only [pyFold]
    rcases List.mem_cons.mp ha with rfl | ha
    · rw [hs d]; exact ⟨_, rfl⟩
    · split
      · exact ⟨_, rfl⟩
      · exact ih ha _

example : importAttributes [.mk "axis" 2 "" 7 .empty [] none [], .mk "body" 5 "" 0 .empty [] none [],
      .mk "keepdims" 2 "" 1 .empty [] none []] =
    .ok [("axis", .data 2 7), ("keepdims", .data 2 1)] := by decide +kernel

/-- The recorded opset is that of the last import of the default domain, the one used to choose functions that of the
first: with two imports they disagree. -/
theorem C64_opset_violated :
    metaOpset [("", 13), ("", 18)] = some 18 ∧ opsetOf [("", 13), ("", 18)] "" = .ok 13 := by decide

/-- With one import of a domain they agree. -/
theorem C64_opset_partial (opsets : List (String × Int)) (h : (opsets.map Prod.fst).Nodup) (v : Int) (hv : v ≠ 0) :
    metaOpset opsets = some v ↔ opsetOf opsets "" = .ok v := by
  have key : ∀ l : List (String × Int), (l.map Prod.fst).Nodup →
      (l.filter (fun p => p.1 == "")).getLast? = l.find? (fun p => p.1 == "") := by
    intro l
    induction l with
    | nil => intro _; rfl
    | cons p l ih =>
      intro hn
      simp only [List.map_cons, List.nodup_cons] at hn
      by_cases hp : p.1 = ""
      · have : l.filter (fun p => p.1 == "") = [] := by
          rw [List.filter_eq_nil_iff]
          intro q hq
          simp only [beq_iff_eq]
          intro hq'
          exact hn.1 (List.mem_map.mpr ⟨q, hq, hq'.trans hp.symm⟩)
        simp [hp, this]
      · simp [hp, ih hn.2]
  unfold metaOpset opsetOf
  rw [key opsets h]
  cases hf : opsets.find? (fun p => p.1 == "") with
  | none => simp
  | some p =>
    simp only [Except.ok.injEq]
    by_cases h0 : p.2 = 0
    · simp only [h0, if_true]
      constructor
      · intro h; cases h
      · intro h; exact absurd h.symm hv
    · simp [h0]

end Verif
