import Verif.Lemmas.Promote

/-! Helper lemmas: the Python-level promotion against the compiler's. -/

namespace Verif.Promote
open ScalarType Verif.PromoteSpec

/-! ### The Python-level computation on two operands -/

theorem addOperand_pos (so : Bool) (st : State) (r : Int) (t : ScalarType) (h : 0 < r) :
    addOperand so st (some r, t) = addOperand so st (some 1, t) := by
  have h0 : r ≠ 0 := by omega
  simp [addOperand, h0, h]

theorem ptt_norm (l r : Int) (a b : ScalarType) (hl : 0 ≤ l) (hr : 0 ≤ r) :
    promoteTensorTensor l a r b
      = promoteTensorTensor (if 0 < l then 1 else 0) a (if 0 < r then 1 else 0) b := by
  unfold promoteTensorTensor
  by_cases h1 : 0 < l <;> by_cases h2 : 0 < r
  all_goals
    simp only [h1, h2, if_true, if_false]
    try rw [addOperand_pos _ _ l _ h1]
    try simp only [addOperand_pos _ _ r _ h2]
    try rw [show l = 0 by omega]
    try simp only [show r = 0 by omega]

theorem pst_norm (r : Int) (s t : ScalarType) (hr : 0 ≤ r) :
    promoteScalarTensor s r t = promoteScalarTensor s (if 0 < r then 1 else 0) t := by
  unfold promoteScalarTensor
  by_cases h2 : 0 < r
  · simp only [h2, if_true, addOperand_pos _ _ r _ h2]
  · rw [show r = 0 by omega]; simp

/-- Finite check: the rank flags stand for all ranks. -/
theorem two_operands_finite :
    (∀ a, Standard a → ∀ b, Standard b → ∀ l ∈ [(0 : Int), 1], ∀ r ∈ [(0 : Int), 1],
      promoteTensorTensor l a l a = .ok a ∧
      promoteTensorTensor l a r b = promoteDtypes [(some l, a), (some r, b)]) ∧
    (∀ a, Standard a → ∀ s ∈ [long, double], ∀ l ∈ [(0 : Int), 1],
      promoteTensorTensor 0 s 0 s = .ok s ∧
      promoteScalarTensor s l a = promoteDtypes [(some l, a), (none, s)] ∧
      promoteScalarTensor s l a = promoteDtypes [(none, s), (some l, a)]) ∧
    (∀ s ∈ [long, double], ∀ s' ∈ [long, double],
      promoteTensorTensor 0 s 0 s' = promoteDtypes [(none, s), (none, s')]) := by
  refine ⟨?_, ?_, ?_⟩
  · decide +kernel
  · decide +kernel
  · decide +kernel

/-- Only the sign of the rank matters to the compiler's promotion of two operands. -/
theorem promoteDtypes_pair_norm (o o' : Operand) (ho : Valid o) (ho' : Valid o') :
    promoteDtypes [o, o'] = promoteDtypes
      [(o.1.map fun r => if 0 < r then 1 else 0, o.2), (o'.1.map fun r => if 0 < r then 1 else 0, o'.2)] := by
  obtain ⟨r, a⟩ := o
  obtain ⟨r', b⟩ := o'
  have key : ∀ (so : Bool) (st : State) (r : Int) (t : ScalarType), 0 ≤ r →
      addOperand so st (some r, t) = addOperand so st (some (if 0 < r then 1 else 0), t) := by
    intro so st r t hr
    by_cases h : 0 < r
    · simp only [h, if_true]; exact addOperand_pos so st r t h
    · rw [show r = 0 by omega]; simp
  unfold promoteDtypes
  cases r with
  | none =>
    cases r' with
    | none => rfl
    | some r' =>
      have : 0 ≤ r' := ho'.1
      simp [addOperands, key _ _ r' b this]
  | some r =>
    have h1 : 0 ≤ r := ho.1
    cases r' with
    | none => simp [addOperands, key _ _ r a h1]
    | some r' =>
      have h2 : 0 ≤ r' := ho'.1
      simp [addOperands, key _ _ r a h1, key _ _ r' b h2]

/-! ### Any number of tensors of one kind of rank followed by scalars -/

/-- State with one tensor category filled. -/
def mkState (pos : Bool) (d w : ScalarType) : State := if pos then ⟨d, w, undefined⟩ else ⟨undefined, w, d⟩

/-- Rank of the kind `pos`. -/
def RankKind (pos : Bool) (r : Int) : Prop := if pos then 0 < r else r = 0

theorem addOperand_kind (so pos : Bool) (d w : ScalarType) (r : Int) (t : ScalarType)
    (h : RankKind pos r) : addOperand so (mkState pos d w) (some r, t)
      = (promoteSkipUndefined d t).map (fun j => mkState pos j w) := by
  cases pos
  · have : r = 0 := h
    subst this
    simp only [addOperand, mkState, if_true, Bool.false_eq_true, if_false]
    cases promoteSkipUndefined d t <;> rfl
  · have h' : 0 < r := h
    have h0 : r ≠ 0 := by omega
    simp only [addOperand, mkState, if_true, h0, if_false, h']
    cases promoteSkipUndefined d t <;> rfl

theorem kind_finite :
    (∀ pos : Bool, ∀ d, Standard d → resultType (mkState pos d undefined) = .ok d) ∧
    (∀ a, Standard a → ∀ b, Standard b → ∃ j, Standard j ∧ promoteSkipUndefined a b = .ok j) ∧
    (∀ pos : Bool, ∀ d, Standard d → ∀ w ∈ [undefined, long, float], ∀ s ∈ [long, double],
      (match resultType (mkState pos d w), promoteSkipUndefined w (if s = double then float else s) with
        | .ok d1, .ok w1 => decide (Standard d1) && decide (w1 ∈ [undefined, long, float]) &&
            decide (promoteScalarTensor s (if pos then 1 else 0) d1 = resultType (mkState pos d w1))
        | _, _ => false) = true) := by
  refine ⟨by decide +kernel, ?_, by decide +kernel⟩
  intro a ha b hb
  have key : ∀ a, Standard a → ∀ b, Standard b →
      (match promoteSkipUndefined a b with | .ok j => decide (Standard j) | _ => false) = true := by
    decide +kernel
  have := key a ha b hb
  cases h : promoteSkipUndefined a b with
  | error e => rw [h] at this; simp at this
  | ok j => rw [h] at this; exact ⟨j, by simpa using this, rfl⟩

theorem ptt_kind (pos : Bool) (l r : Int) (a b j : ScalarType) (hl : RankKind pos l) (hr : RankKind pos r)
    (ha : Standard a) (hj : Standard j) (h : promoteSkipUndefined a b = .ok j) :
    promoteTensorTensor l a r b = .ok j := by
  have hinit : State.init = mkState pos undefined undefined := by cases pos <;> rfl
  unfold promoteTensorTensor
  rw [hinit, addOperand_kind _ _ _ _ _ _ hl]
  have h1 : promoteSkipUndefined undefined a = .ok a := by simp [promoteSkipUndefined]
  simp only [h1, Except.map, bind, Except.bind]
  rw [addOperand_kind _ _ _ _ _ _ hr, h]
  simp only [Except.map]
  exact kind_finite.1 pos j hj

theorem rankKind_max {pos : Bool} {l r : Int} (hl : RankKind pos l) (hr : RankKind pos r) :
    RankKind pos (max l r) := by
  cases pos <;> simp_all [RankKind] <;> omega

theorem pyLoop_tensors (pos : Bool) (ts : List Operand) (rest : List Operand)
    (h : ∀ o ∈ ts, ∃ r, o.1 = some r ∧ RankKind pos r ∧ Standard o.2) :
    ∀ (l : Int) (a : ScalarType), RankKind pos l → Standard a →
    ∃ l' d, RankKind pos l' ∧ Standard d ∧
      pyLoop (some l, a) (ts ++ rest) = pyLoop (some l', d) rest ∧
      ∀ so w, addOperands so (mkState pos a w) ts = .ok (mkState pos d w) := by
  induction ts with
  | nil => intro l a hl ha; exact ⟨l, a, hl, ha, rfl, fun _ _ => rfl⟩
  | cons o ts ih =>
    intro l a hl ha
    obtain ⟨r, ho, hr, hstd⟩ := h o (by simp)
    obtain ⟨r', t⟩ := o
    simp only at ho hstd
    subst ho
    obtain ⟨j, hj, hab⟩ := kind_finite.2.1 a ha t hstd
    obtain ⟨l', d, h1, h2, h3, h4⟩ := ih (fun o ho => h o (by simp [ho])) (max l r) j (rankKind_max hl hr) hj
    refine ⟨l', d, h1, h2, ?_, ?_⟩
    · rw [← h3]
      simp only [List.cons_append, pyLoop, pyStep, ptt_kind pos l r a t j hl hr ha hj hab, bind, Except.bind]
    · intro so w
      rw [← h4 so w]
      simp only [addOperands, addOperand_kind so pos a w r t hr, hab, Except.map, bind, Except.bind]

theorem pyLoop_scalars (pos : Bool) (d : ScalarType) (hd : Standard d) (ss : List Operand)
    (h : ∀ o ∈ ss, o.1 = none ∧ o.2 ∈ [long, double]) :
    ∀ (l : Int) (w d1 : ScalarType), RankKind pos l → w ∈ [undefined, long, float] →
    resultType (mkState pos d w) = .ok d1 →
    pyLoop (some l, d1) ss = (addOperands false (mkState pos d w) ss).bind resultType := by
  induction ss with
  | nil =>
    intro l w d1 hl hw h1
    simp [pyLoop, addOperands, Except.bind, h1]
  | cons o ss ih =>
    intro l w d1 hl hw h1
    obtain ⟨ho, hs⟩ := h o (by simp)
    obtain ⟨r, s⟩ := o
    simp only at ho hs
    subst ho
    have hf := kind_finite.2.2 pos d hd w hw s hs
    rw [h1] at hf
    cases hw1 : promoteSkipUndefined w (if s = double then float else s) with
    | error e => rw [hw1] at hf; simp at hf
    | ok w1 =>
      rw [hw1] at hf
      simp only [Bool.and_eq_true, decide_eq_true_eq] at hf
      obtain ⟨⟨hf1, hf2⟩, hf3⟩ := hf
      have hl0 : 0 ≤ l := by cases pos <;> simp [RankKind] at hl <;> omega
      have hnorm : (if 0 < l then (1 : Int) else 0) = (if pos then 1 else 0) := by
        cases pos <;> simp [RankKind] at hl <;> simp [hl]
      have hadd : addOperand false (mkState pos d w) (none, s) = .ok (mkState pos d w1) := by
        have : scalarTypeForScalar false s = .ok (if s = double then float else s) := by
          rcases (by simpa using hs : s = long ∨ s = double) with rfl | rfl <;> rfl
        have hwr : (mkState pos d w).wrapped = w := by cases pos <;> rfl
        simp only [addOperand, this, hwr, hw1, bind, Except.bind]
        cases pos <;> rfl
      have hr1 : ∃ d2, resultType (mkState pos d w1) = .ok d2 := by
        have := kind_finite.2.2 pos d hd w1 hf2 long (by simp)
        cases hh : resultType (mkState pos d w1) with
        | error e => rw [hh] at this; simp at this
        | ok d2 => exact ⟨d2, rfl⟩
      obtain ⟨d2, hd2⟩ := hr1
      simp only [pyLoop, pyStep, addOperands, hadd]
      rw [pst_norm l s d1 hl0, hnorm, hf3, hd2]
      exact ih (fun o ho => h o (by simp [ho])) l w1 d2 hl hf2 hd2

end Verif.Promote
