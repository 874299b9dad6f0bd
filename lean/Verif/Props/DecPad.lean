import Verif.Spec.DecPad

/-!
# C105: padding

`aten.pad` is replaced by the operator for the mode and for as many dimensions as are padded.
-/

namespace Verif

open Lin DecPad

variable {E : Type}

theorem DecPad.trim_spec (pads : List Int) : ∀ k, (∀ i, 2 * k ≤ i → pads.getD i 0 = 0) →
    (trim pads k = .crash ∧ ∀ i, pads.getD i 0 = 0) ∨
      ∃ n, 0 < n ∧ n ≤ k ∧ trim pads k = .ok (2 * n) ∧ (∀ i, 2 * n ≤ i → pads.getD i 0 = 0) ∧ ∀ m, Within m pads → n ≤ m
  | 0, h => Or.inl ⟨rfl, fun i => h i (by omega)⟩
  | k + 1, h => by
    rw [trim]
    by_cases q : pads.getD (2 * k + 1) 0 ≠ 0 ∨ pads.getD (2 * k) 0 ≠ 0
    · rw [if_pos q]
      refine Or.inr ⟨k + 1, by omega, by omega, rfl, h, fun m hm => ?_⟩
      by_contra c
      rcases q with q | q
      · exact q (hm _ (by omega))
      · exact q (hm _ (by omega))
    · rw [if_neg q]
      have q1 : pads.getD (2 * k + 1) 0 = 0 := by
        by_contra c
        exact q (Or.inl c)
      have q2 : pads.getD (2 * k) 0 = 0 := by
        by_contra c
        exact q (Or.inr c)
      have h' : ∀ i, 2 * k ≤ i → pads.getD i 0 = 0 := by
        intro i hi
        by_cases e : i = 2 * k
        · rw [e, q2]
        · by_cases e' : i = 2 * k + 1
          · rw [e', q1]
          · exact h i (by omega)
      rcases trim_spec pads k h' with ⟨a, b⟩ | ⟨n, a, b, c, d, e⟩
      · exact Or.inl ⟨a, b⟩
      · exact Or.inr ⟨n, a, by omega, c, d, e⟩

theorem DecPad.take_same {pads : List Int} {n : Nat} (h : ∀ i, n ≤ i → pads.getD i 0 = 0) : SamePads (pads.take n) pads := by
  intro i
  by_cases q : i < n
  · simp [List.getD_eq_getElem?_getD, List.getElem?_take, q]
  · rw [h i (by omega)]
    simp [List.getD_eq_getElem?_getD, List.getElem?_take, q]

theorem DecPad.beyond {pads : List Int} (h : pads.length % 2 = 0) : ∀ i, 2 * (pads.length / 2) ≤ i → pads.getD i 0 = 0 := by
  intro i hi
  rw [List.getD_eq_getElem?_getD, List.getElem?_eq_none (by omega)]
  rfl

/-- Constant pads: the operator made pads the same, for the least number of dimensions; it is only refused if that is more than three. Missing: pads that are all zero. -/
theorem C105_pad_partial (zero : E) (fill : Fill E) {pads : List Int} (run : List Int) (he : pads.length % 2 = 0) (hz : ∃ i, pads.getD i 0 ≠ 0) {mode : String} {w : Way}
    (hm : (mode = "reflect" ∧ w = .reflect) ∨ (mode = "replicate" ∧ w = .replicate)) :
    (Within 3 pads ∧ ∃ n p, decompose zero (some mode) fill (some pads) true run = .ok (.padding w n p) ∧ p.length = 2 * n ∧ SamePads p pads ∧ ∀ m, Within m pads → n ≤ m) ∨
      (¬ Within 3 pads ∧ decompose zero (some mode) fill (some pads) true run = .unmatched) := by
  have hw : way mode = some w := by
    rcases hm with ⟨rfl, rfl⟩ | ⟨rfl, rfl⟩ <;> rfl
  have hc : ¬ mode = "constant" := by
    rcases hm with ⟨rfl, _⟩ | ⟨rfl, _⟩ <;> decide
  have ho : ¬ pads.length % 2 = 1 := by omega
  rcases trim_spec pads (pads.length / 2) (beyond he) with ⟨_, b⟩ | ⟨n, a, b, c, d, e⟩
  · obtain ⟨i, hi⟩ := hz
    exact absurd (b i) hi
  · have hn : ¬ 2 * n = 0 := by omega
    have hd : 2 * n / 2 = n := by omega
    simp only [decompose, if_neg hc, if_true, if_neg ho, c, Outcome.bind, if_neg hn, dispatch, hw, hd]
    by_cases q : n ≤ 3
    · rw [if_pos (by omega)]
      exact Or.inl ⟨fun i hi => d i (by omega), n, _, rfl, by rw [List.length_take]; omega, take_same d, e⟩
    · rw [if_neg (by omega)]
      exact Or.inr ⟨fun h => q (e 3 h), rfl⟩

/-- Pads that are not constants: all are kept. -/
theorem C105_dynamic (zero : E) (fill : Fill E) {pads : List Int} (run : List Int) {n : Nat} (hl : pads.length = 2 * n) {mode : String} {w : Way}
    (hm : (mode = "reflect" ∧ w = .reflect) ∨ (mode = "replicate" ∧ w = .replicate)) :
    decompose zero (some mode) fill (some pads) false run = if 1 ≤ n ∧ n ≤ 3 then .ok (.padding w n pads) else .unmatched := by
  have hw : way mode = some w := by
    rcases hm with ⟨rfl, rfl⟩ | ⟨rfl, rfl⟩ <;> rfl
  have hc : ¬ mode = "constant" := by
    rcases hm with ⟨rfl, _⟩ | ⟨rfl, _⟩ <;> decide
  have hd : 2 * n / 2 = n := by omega
  simp only [decompose, if_neg hc, Bool.false_eq_true, if_false, dispatch, hw, hl, hd]
  rw [List.take_of_length_le (by omega)]
  by_cases q : 1 ≤ n ∧ n ≤ 3
  · rw [if_pos (by omega), if_pos q]
  · rw [if_neg (by omega), if_neg q]

/-- Padding with a constant, which is zero if none is given, for any pads. -/
theorem C105_constant (zero : E) (pads : Option (List Int)) (constant : Bool) (run : List Int) :
    decompose zero (some "constant") .missing pads constant run = .ok (.constant run zero) ∧
      (∀ v, decompose zero (some "constant") (.given v) pads constant run = .ok (.constant run v)) ∧
      decompose zero (some "constant") .optional pads constant run = .unmatched := ⟨rfl, fun _ => rfl, rfl⟩

/-- Other modes are never replaced by an operator that pads, and nor is an odd number of constant pads. -/
theorem C105_rejects (zero : E) (fill : Fill E) (pads : Option (List Int)) (constant : Bool) (run : List Int) {mode : String} (hm : mode ≠ "constant") :
    (mode ≠ "reflect" → mode ≠ "replicate" → ∀ m, decompose zero (some mode) fill pads constant run ≠ .ok m) ∧
      (∀ p, pads = some p → p.length % 2 = 1 → decompose zero (some mode) fill pads true run = .unmatched) ∧
      decompose zero none fill pads constant run = .unmatched ∧ decompose zero (some mode) fill none constant run = .unmatched := by
  refine ⟨fun h1 h2 m => ?_, fun p hp ho => ?_, rfl, ?_⟩
  · have hw : way mode = none := by simp [way, h1, h2]
    cases pads with
    | none => simp [decompose, hm]
    | some pads =>
      simp only [decompose, if_neg hm, dispatch, hw]
      by_cases hc : constant = true
      · rw [if_pos hc]
        by_cases ho : pads.length % 2 = 1
        · rw [if_pos ho]; simp
        · rw [if_neg ho]
          rcases trim_spec pads (pads.length / 2) (beyond (by omega)) with ⟨a, _⟩ | ⟨n, a, _, c, _⟩
          · rw [a]; simp [Outcome.bind]
          · have hn : ¬ 2 * n = 0 := by omega
            rw [c]
            simp [Outcome.bind, hn]
      · rw [if_neg hc]; simp
  · subst hp
    simp [decompose, hm, ho]
  · simp [decompose, hm]

/-- Pads that are all zero should leave the operand as it is, but the loop goes on beyond the beginning of the list; so it does for no pads. -/
theorem C105_violated_zero (zero : E) (fill : Fill E) (run : List Int) {pads : List Int} (he : pads.length % 2 = 0) (hz : ∀ i, pads.getD i 0 = 0) {mode : String} (hm : mode ≠ "constant") :
    decompose zero (some mode) fill (some pads) true run = .crash := by
  have ho : ¬ pads.length % 2 = 1 := by omega
  rcases trim_spec pads (pads.length / 2) (beyond he) with ⟨a, _⟩ | ⟨n, a, _, _, _, e⟩
  · simp only [decompose, if_neg hm, if_true, if_neg ho, a, Outcome.bind]
  · have := e 0 fun i _ => hz i
    omega

/-- So the operand is never what is given back. -/
theorem C105_violated_self (zero : E) (mode : Option String) (fill : Fill E) (pads : Option (List Int)) (constant : Bool) (run : List Int) :
    decompose zero mode fill pads constant run ≠ .ok .self := by
  have hd : ∀ (m : String) (p : List Int) (u : Nat), dispatch (E := E) m p u ≠ .ok .self := by
    intro m p u h
    unfold dispatch at h
    cases hw : way m with
    | none => rw [hw] at h; cases h
    | some w =>
      rw [hw] at h
      simp only at h
      split_ifs at h
      cases h
  cases mode with
  | none => simp [decompose]
  | some mode =>
    by_cases hm : mode = "constant"
    · subst hm
      cases fill <;> simp [decompose]
    · cases pads with
      | none => simp [decompose, hm]
      | some pads =>
        simp only [decompose, if_neg hm]
        by_cases hc : constant = true
        · rw [if_pos hc]
          by_cases ho : pads.length % 2 = 1
          · rw [if_pos ho]; simp
          · rw [if_neg ho]
            rcases trim_spec pads (pads.length / 2) (beyond (by omega)) with ⟨a, _⟩ | ⟨n, a, _, c, _⟩
            · rw [a]; simp [Outcome.bind]
            · have hn : ¬ 2 * n = 0 := by omega
              rw [c]
              simp only [Outcome.bind, if_neg hn]
              exact hd _ _ _
        · rw [if_neg hc]
          exact hd _ _ _

namespace Test105

example : decompose (0 : Int) (some "reflect") .missing (some [1, 2, 0, 3, 0, 0]) true [] = .ok (.padding .reflect 2 [1, 2, 0, 3]) := by rfl

example : decompose (0 : Int) (some "replicate") .missing (some [0, 0, 0, 0, 0, 1, 0, 0]) true [] = .ok (.padding .replicate 3 [0, 0, 0, 0, 0, 1]) := by rfl

example : decompose (0 : Int) (some "reflect") .missing (some [0, 0]) true [] = .crash := by rfl

example : Within 2 [1, 2, 0, 3, 0, 0] ∧ ¬ Within 1 [1, 2, 0, 3, 0, 0] := by
  constructor
  · intro i hi
    match i, hi with
    | 4, _ => rfl
    | 5, _ => rfl
    | i + 6, _ => rfl
  · intro h
    exact absurd (h 3 (by omega)) (by decide)

end Test105

end Verif
