import Verif.Lemmas.LinPad
import Verif.Lemmas.DimOps
import Verif.Spec.LinDiag

namespace Verif.Lin

variable {E : Type}

theorem others_eq (d1 d2 : Nat) (l : List Int) : othersFrom d1 d2 0 l = others d1 d2 l := by
  suffices h : ∀ (l : List Int) (i : Nat), othersFrom d1 d2 i l = ((l.zipIdx i).filter fun p => decide (p.2 ≠ d1 ∧ p.2 ≠ d2)).map (·.1) from h l 0
  intro l
  induction l with
  | nil => intro i; rfl
  | cons x xs ih =>
    intro i
    rw [othersFrom, List.zipIdx_cons, List.filter_cons, ih (i + 1)]
    by_cases h : i = d1 ∨ i = d2
    · rw [if_pos h, if_neg (by simp only [decide_eq_true_eq]; omega)]
    · rw [if_neg h, if_pos (by simp only [decide_eq_true_eq]; omega)]
      rfl

theorem weaveFrom_length (d1 d2 : Nat) (a b : Int) : ∀ (m i : Nat) (rest : List Int), (weaveFrom d1 d2 a b i m rest).length = m := by
  intro m
  induction m with
  | zero => intro i rest; rfl
  | succ m ih =>
    intro i rest
    rw [weaveFrom]
    split
    · rw [List.length_cons, ih]
    · split <;> rw [List.length_cons, ih]

/-- What was left out and put back. -/
theorem weaveFrom_others (d1 d2 : Nat) (a b : Int) : ∀ (l : List Int) (i : Nat) (tl : List Int),
    (∀ k, i + k = d1 → k < l.length → l.getD k 0 = a) → (∀ k, i + k = d2 → k < l.length → l.getD k 0 = b) →
    weaveFrom d1 d2 a b i l.length (othersFrom d1 d2 i l ++ tl) = l := by
  intro l
  induction l with
  | nil => intro i tl _ _; rfl
  | cons x xs ih =>
    intro i tl h1 h2
    have ih' := ih (i + 1) tl (fun k hk hl => by have := h1 (k + 1) (by omega) (by simpa using hl); simpa using this)
      (fun k hk hl => by have := h2 (k + 1) (by omega) (by simpa using hl); simpa using this)
    rw [List.length_cons, weaveFrom, othersFrom]
    by_cases e1 : i = d1
    · rw [if_pos e1, if_pos (Or.inl e1), ih']
      have := h1 0 (by omega) (by simp)
      rw [List.getD_cons_zero] at this
      rw [this]
    · rw [if_neg e1]
      by_cases e2 : i = d2
      · rw [if_pos e2, if_pos (Or.inr e2), ih']
        have := h2 0 (by omega) (by simp)
        rw [List.getD_cons_zero] at this
        rw [this]
      · rw [if_neg e2, if_neg (by omega), List.cons_append, List.getD_cons_zero, List.drop_one, List.tail_cons, ih']

theorem weaveFrom_get (d1 d2 : Nat) (a b : Int) : ∀ (m i : Nat) (rest : List Int) (k : Nat), k < m →
    (i + k = d1 → (weaveFrom d1 d2 a b i m rest).getD k 0 = a) ∧ (i + k = d2 → d1 ≠ d2 → (weaveFrom d1 d2 a b i m rest).getD k 0 = b) := by
  intro m
  induction m with
  | zero => intro i rest k hk; omega
  | succ m ih =>
    intro i rest k hk
    rw [weaveFrom]
    cases k with
    | zero =>
      refine ⟨fun h => by rw [if_pos (by omega)]; rfl, fun h hne => ?_⟩
      rw [if_neg (by omega), if_pos (by omega)]
      rfl
    | succ k =>
      have hk' : k < m := by omega
      split
      · have := ih (i + 1) rest k hk'
        simp only [List.getD_cons_succ]
        exact ⟨fun h => this.1 (by omega), fun h => this.2 (by omega)⟩
      · split
        · have := ih (i + 1) rest k hk'
          simp only [List.getD_cons_succ]
          exact ⟨fun h => this.1 (by omega), fun h => this.2 (by omega)⟩
        · have := ih (i + 1) (rest.drop 1) k hk'
          simp only [List.getD_cons_succ]
          exact ⟨fun h => this.1 (by omega), fun h => this.2 (by omega)⟩

/-- How many of the positions from `i` on, `m` in number, are `d`. -/
def hits (d i m : Nat) : Nat := if i ≤ d ∧ d < i + m then 1 else 0

theorem others_weaveFrom (d1 d2 : Nat) (hne : d1 ≠ d2) (a b : Int) : ∀ (m i : Nat) (rest : List Int), m ≤ rest.length + hits d1 i m + hits d2 i m →
    othersFrom d1 d2 i (weaveFrom d1 d2 a b i m rest) = rest.take (m - hits d1 i m - hits d2 i m) := by
  intro m
  induction m with
  | zero => intro i rest _; simp [weaveFrom, othersFrom]
  | succ m ih =>
    intro i rest h
    rw [weaveFrom]
    by_cases e1 : i = d1
    · have x1 : hits d1 i (m + 1) = 1 := if_pos (by omega)
      have x2 : hits d1 (i + 1) m = 0 := if_neg (by omega)
      have x3 : hits d2 i (m + 1) = hits d2 (i + 1) m := by unfold hits; congr 1; simp only [eq_iff_iff]; omega
      rw [if_pos e1, othersFrom, if_pos (Or.inl e1), ih (i + 1) rest (by omega)]
      congr 1; omega
    · have x1 : hits d1 i (m + 1) = hits d1 (i + 1) m := by unfold hits; congr 1; simp only [eq_iff_iff]; omega
      rw [if_neg e1]
      by_cases e2 : i = d2
      · have x2 : hits d2 i (m + 1) = 1 := if_pos (by omega)
        have x3 : hits d2 (i + 1) m = 0 := if_neg (by omega)
        rw [if_pos e2, othersFrom, if_pos (Or.inr e2), ih (i + 1) rest (by omega)]
        congr 1; omega
      · have x2 : hits d2 i (m + 1) = hits d2 (i + 1) m := by unfold hits; congr 1; simp only [eq_iff_iff]; omega
        have b1 : hits d1 (i + 1) m + hits d2 (i + 1) m ≤ m := by
          unfold hits
          split <;> split <;> omega
        rw [if_neg e2, othersFrom, if_neg (by omega)]
        cases rest with
        | nil => simp only [List.length_nil] at h; omega
        | cons y ys =>
          rw [List.getD_cons_zero, List.drop_one, List.tail_cons, ih (i + 1) ys (by simp only [List.length_cons] at h; omega)]
          rw [show m + 1 - hits d1 i (m + 1) - hits d2 i (m + 1) = (m - hits d1 (i + 1) m - hits d2 (i + 1) m) + 1 by omega, List.take_succ_cons]

theorem inRange_others (d1 d2 : Nat) : ∀ (ns j : List Int) (i : Nat), j.length = ns.length →
    (inRange ns j = true ↔ inRange (othersFrom d1 d2 i ns) (othersFrom d1 d2 i j) = true ∧
      ∀ k, i + k = d1 ∨ i + k = d2 → k < ns.length → 0 ≤ j.getD k 0 ∧ j.getD k 0 < ns.getD k 0) := by
  intro ns
  induction ns with
  | nil =>
    intro j i h
    rw [List.length_eq_zero_iff.1 h]
    simp [inRange, othersFrom]
  | cons n ns ih =>
    intro j i h
    cases j with
    | nil => cases h
    | cons x xs =>
      have ih' := ih xs (i + 1) (by simpa using h)
      rw [inRange, Bool.and_eq_true, decide_eq_true_eq, ih', othersFrom, othersFrom]
      have hsplit : (∀ k, i + k = d1 ∨ i + k = d2 → k < (n :: ns).length → 0 ≤ (x :: xs).getD k 0 ∧ (x :: xs).getD k 0 < (n :: ns).getD k 0) ↔
          ((i = d1 ∨ i = d2 → 0 ≤ x ∧ x < n) ∧ ∀ k, i + 1 + k = d1 ∨ i + 1 + k = d2 → k < ns.length → 0 ≤ xs.getD k 0 ∧ xs.getD k 0 < ns.getD k 0) := by
        constructor
        · intro h
          refine ⟨fun h0 => by have := h 0 (by omega) (by simp); simpa using this, fun k hk hl => ?_⟩
          have := h (k + 1) (by omega) (by simpa using hl)
          simpa using this
        · rintro ⟨h0, h1⟩ k hk hl
          cases k with
          | zero => simpa using h0 (by omega)
          | succ k => simpa using h1 k (by omega) (by simpa using hl)
      rw [hsplit]
      by_cases e : i = d1 ∨ i = d2
      · rw [if_pos e, if_pos e]
        constructor
        · rintro ⟨h1, h2, h3⟩; exact ⟨h2, fun _ => h1, h3⟩
        · rintro ⟨h2, h1, h3⟩; exact ⟨h1 e, h2, h3⟩
      · rw [if_neg e, if_neg e, inRange, Bool.and_eq_true, decide_eq_true_eq]
        constructor
        · rintro ⟨h1, h2, h3⟩; exact ⟨⟨h1, h2⟩, fun h => absurd h e, h3⟩
        · rintro ⟨⟨h1, h2⟩, _, h3⟩; exact ⟨h1, h2, h3⟩

theorem othersFrom_length (d1 d2 : Nat) (hne : d1 ≠ d2) : ∀ (l : List Int) (i : Nat),
    (othersFrom d1 d2 i l).length + hits d1 i l.length + hits d2 i l.length = l.length := by
  intro l
  induction l with
  | nil => intro i; simp only [othersFrom, List.length_nil, hits]; rw [if_neg (by omega), if_neg (by omega)]
  | cons x xs ih =>
    intro i
    have := ih (i + 1)
    rw [othersFrom]
    simp only [List.length_cons]
    by_cases e1 : i = d1
    · have x1 : hits d1 i (xs.length + 1) = 1 := if_pos (by omega)
      have x2 : hits d1 (i + 1) xs.length = 0 := if_neg (by omega)
      have x3 : hits d2 i (xs.length + 1) = hits d2 (i + 1) xs.length := by unfold hits; congr 1; simp only [eq_iff_iff]; omega
      rw [if_pos (Or.inl e1)]; omega
    · have x1 : hits d1 i (xs.length + 1) = hits d1 (i + 1) xs.length := by unfold hits; congr 1; simp only [eq_iff_iff]; omega
      by_cases e2 : i = d2
      · have x2 : hits d2 i (xs.length + 1) = 1 := if_pos (by omega)
        have x3 : hits d2 (i + 1) xs.length = 0 := if_neg (by omega)
        rw [if_pos (Or.inr e2)]; omega
      · have x2 : hits d2 i (xs.length + 1) = hits d2 (i + 1) xs.length := by unfold hits; congr 1; simp only [eq_iff_iff]; omega
        rw [if_neg (by omega), List.length_cons]; omega

theorem inRange_append {ns ms is js : List Int} (h : is.length = ns.length) : inRange (ns ++ ms) (is ++ js) = (inRange ns is && inRange ms js) := by
  induction ns generalizing is with
  | nil => rw [List.length_eq_zero_iff.1 h]; simp [inRange]
  | cons n ns ih =>
    cases is with
    | nil => cases h
    | cons i is =>
      simp only [List.cons_append, inRange, ih (is := is) (by simpa using h), Bool.and_assoc]

theorem split_last {ns : List Int} {m : Int} {idx : List Int} (h : inRange (ns ++ [m]) idx = true) :
    ∃ is k, idx = is ++ [k] ∧ is.length = ns.length ∧ inRange ns is = true ∧ 0 ≤ k ∧ k < m := by
  have hl := inRange_length h
  simp only [List.length_append, List.length_singleton] at hl
  have hne : idx ≠ [] := by rintro rfl; simp at hl
  refine ⟨idx.dropLast, idx.getLast hne, (List.dropLast_concat_getLast hne).symm, by simp; omega, ?_⟩
  rw [← List.dropLast_concat_getLast hne, inRange_append (by simp; omega)] at h
  simp only [inRange, Bool.and_true, Bool.and_eq_true, decide_eq_true_eq] at h
  exact ⟨h.1, h.2⟩

end Verif.Lin
