import Verif.Spec.Promote

/-! Helper lemmas for dtype promotion: finite tables lifted to all lists. -/

namespace Verif.Promote
open ScalarType Verif.PromoteSpec

theorem ScalarType.mem_all (t : ScalarType) : t ∈ ScalarType.all := by
  cases t <;> decide

/-- Lift a check over the enumerators to all scalar types. -/
theorem forall_of_all {P : ScalarType → Prop} (h : ∀ t ∈ ScalarType.all, P t) : ∀ t, P t :=
  fun t => h t (ScalarType.mem_all t)

instance {P : ScalarType → Prop} [DecidablePred P] : Decidable (∀ t, P t) :=
  decidable_of_iff (∀ t ∈ ScalarType.all, P t)
    ⟨fun h t => h t (ScalarType.mem_all t), fun h t _ => h t⟩

/-- Join on the standard dtypes, as a total function. -/
def join (a b : ScalarType) : ScalarType := promoteLookup a b

theorem std_promote : ∀ a b, Standard a → Standard b → promoteTypes a b = .ok (join a b) := by
  decide +kernel

theorem std_join : ∀ a b, Standard a → Standard b → Standard (join a b) := by decide +kernel

theorem join_comm : ∀ a b, Standard a → Standard b → join a b = join b a := by decide +kernel

theorem join_assoc : ∀ a, Standard a → ∀ b, Standard b → ∀ c, Standard c →
    join (join a b) c = join a (join b c) := by decide +kernel

theorem join_idem : ∀ a, Standard a → join a a = a := by decide +kernel

theorem join_ub : ∀ a b, Standard a → Standard b → Fits a (join a b) ∧ Fits b (join a b) := by
  decide +kernel

theorem join_least : ∀ a, Standard a → ∀ b, Standard b → ∀ c, Standard c → Fits a c → Fits b c →
    Fits (join a b) c := by decide +kernel

theorem fits_trans : ∀ a, Standard a → ∀ b, Standard b → ∀ c, Standard c → Fits a b → Fits b c →
    Fits a c := by decide +kernel

theorem fits_refl : ∀ a, Standard a → Fits a a := by decide +kernel

theorem fits_antisymm : ∀ a, Standard a → ∀ b, Standard b → Fits a b → Fits b a → a = b := by
  decide +kernel

theorem undef_not_std : ¬ Standard undefined := by decide

end Verif.Promote

namespace Verif.Promote
open ScalarType Verif.PromoteSpec

theorem fits_std {a b : ScalarType} (h : Fits a b) : Standard a ∧ Standard b := by
  unfold Fits at h
  unfold Standard
  cases ha : kind a <;> cases hb : kind b <;> simp_all

theorem isLeast_congr {l m : List ScalarType} (h : ∀ x, x ∈ l ↔ x ∈ m) {t : ScalarType} :
    IsLeast l t ↔ IsLeast m t := by
  unfold IsLeast
  simp only [h]

theorem isLeast_unique {l : List ScalarType} {s t : ScalarType} (hs : IsLeast l s)
    (ht : IsLeast l t) : s = t :=
  fits_antisymm s hs.1 t ht.1 (hs.2.2 t ht.1 ht.2.1) (ht.2.2 s hs.1 hs.2.1)

theorem isLeast_singleton {a : ScalarType} (ha : Standard a) : IsLeast [a] a :=
  ⟨ha, by simpa using fits_refl a ha, fun c _ h => h a (by simp)⟩

theorem isLeast_cons {l : List ScalarType} {a b : ScalarType} (hl : IsLeast l a) (hb : Standard b) :
    IsLeast (b :: l) (join a b) := by
  refine ⟨std_join a b hl.1 hb, ?_, ?_⟩
  · intro x hx
    rcases List.mem_cons.mp hx with rfl | hx
    · exact (join_ub a x hl.1 hb).2
    · have h1 := hl.2.1 x hx
      exact fits_trans x (fits_std h1).1 a hl.1 _ (std_join a b hl.1 hb) h1 (join_ub a b hl.1 hb).1
  · intro c hc h
    exact join_least a hl.1 b hb c hc (hl.2.2 c hc (fun x hx => h x (by simp [hx]))) (h b (by simp))

/-- One component of the promotion state summarises the dtypes `l` seen so far. -/
def Comp (l : List ScalarType) (a : ScalarType) : Prop :=
  (l = [] ∧ a = undefined) ∨ (l ≠ [] ∧ IsLeast l a)

theorem psu_comp {l : List ScalarType} {a b : ScalarType} (hl : Comp l a) (hb : Standard b) :
    ∃ c, promoteSkipUndefined a b = .ok c ∧ Comp (b :: l) c := by
  rcases hl with ⟨rfl, rfl⟩ | ⟨_, hl⟩
  · exact ⟨b, rfl, Or.inr ⟨by simp, isLeast_singleton hb⟩⟩
  · refine ⟨join a b, ?_, Or.inr ⟨by simp, isLeast_cons hl hb⟩⟩
    have ha : a ≠ undefined := by rintro rfl; exact undef_not_std hl.1
    have hb' : b ≠ undefined := by rintro rfl; exact undef_not_std hb
    unfold promoteSkipUndefined
    simp only [ha, hb', if_false]
    exact std_promote a b hl.1 hb

theorem comp_congr {l m : List ScalarType} (h : ∀ x, x ∈ l ↔ x ∈ m) {t : ScalarType} :
    Comp l t → Comp m t := by
  rintro (⟨rfl, rfl⟩ | ⟨hne, hl⟩)
  · left
    refine ⟨?_, rfl⟩
    cases m with
    | nil => rfl
    | cons a m => have := (h a).mpr (by simp); simp at this
  · right
    refine ⟨?_, (isLeast_congr h).mp hl⟩
    rintro rfl
    cases l with
    | nil => exact hne rfl
    | cons a l => have := (h a).mp (by simp); simp at this

theorem comp_unique {l : List ScalarType} {s t : ScalarType} (hs : Comp l s) (ht : Comp l t) :
    s = t := by
  rcases hs with ⟨h, rfl⟩ | ⟨hne, hs⟩ <;> rcases ht with ⟨h', rfl⟩ | ⟨hne', ht⟩
  · rfl
  · exact absurd h hne'
  · exact absurd h' hne
  · exact isLeast_unique hs ht

/-- A supported operand: standard dtype, non-negative rank; scalars are `int` or `float`. -/
def Valid (o : Operand) : Prop :=
  match o.1 with
  | none => o.2 = long ∨ o.2 = double
  | some r => 0 ≤ r ∧ Standard o.2

/-- dtypes of the operands with at least one dimension -/
def dims (os : List Operand) : List ScalarType :=
  os.filterMap fun o => match o.1 with
    | some r => if 0 < r then some o.2 else none
    | none => none

/-- dtypes of the rank-0 tensors -/
def zeros (os : List Operand) : List ScalarType :=
  os.filterMap fun o => match o.1 with
    | some r => if 0 < r then none else some o.2
    | none => none

/-- dtypes standing for the scalars -/
def wrappeds (so : Bool) (os : List Operand) : List ScalarType :=
  os.filterMap fun o => match o.1 with
    | some _ => none
    | none => some (if o.2 = double then (if so then double else float) else long)

/-- The state summarises the operands seen. -/
def StateOf (so : Bool) (os : List Operand) (st : State) : Prop :=
  Comp (dims os) st.dim ∧ Comp (zeros os) st.zero ∧ Comp (wrappeds so os) st.wrapped

theorem addOperand_state {so : Bool} {os : List Operand} {st : State} {o : Operand}
    (h : StateOf so os st) (ho : Valid o) :
    ∃ st', addOperand so st o = .ok st' ∧ StateOf so (o :: os) st' := by
  obtain ⟨r, t⟩ := o
  obtain ⟨h1, h2, h3⟩ := h
  cases r with
  | none =>
    have : ∃ t', scalarTypeForScalar so t = .ok t' ∧ Standard t' ∧
        t' = (if t = double then (if so then double else float) else long) := by
      rcases ho with ho | ho <;> simp only at ho <;> subst ho
      · exact ⟨long, rfl, by decide, by simp⟩
      · cases so
        · exact ⟨float, rfl, by decide, by simp⟩
        · exact ⟨double, rfl, by decide, by simp⟩
    obtain ⟨t', ht', hstd, heq⟩ := this
    obtain ⟨c, hc, hcomp⟩ := psu_comp h3 hstd
    refine ⟨{ st with wrapped := c }, ?_, h1, h2, ?_⟩
    · simp [addOperand, ht', hc, bind, Except.bind]
    · simpa [wrappeds, heq] using hcomp
  | some r =>
    obtain ⟨hr, hstd⟩ := ho
    simp only at hr hstd
    by_cases h0 : r = 0
    · subst h0
      obtain ⟨c, hc, hcomp⟩ := psu_comp h2 hstd
      refine ⟨{ st with zero := c }, ?_, h1, ?_, h3⟩
      · simp [addOperand, hc, bind, Except.bind]
      · simpa [zeros] using hcomp
    · have hpos : 0 < r := by omega
      obtain ⟨c, hc, hcomp⟩ := psu_comp h1 hstd
      refine ⟨{ st with dim := c }, ?_, ?_, ?_, h3⟩
      · simp [addOperand, h0, hpos, hc, bind, Except.bind]
      · simpa [dims, hpos] using hcomp
      · simpa [zeros, hpos] using h2

theorem filterMap_rev_cons {α β : Type} (f : α → Option β) (os : List α) (o : α) (seen : List α) (x : β) :
    x ∈ ((o :: os).reverse ++ seen).filterMap f ↔ x ∈ (os.reverse ++ o :: seen).filterMap f := by
  simp

theorem addOperands_state {so : Bool} {os seen : List Operand} {st : State}
    (h : StateOf so seen st) (hv : ∀ o ∈ os, Valid o) :
    ∃ st', addOperands so st os = .ok st' ∧ StateOf so (os.reverse ++ seen) st' := by
  induction os generalizing st seen with
  | nil => exact ⟨st, rfl, by simpa using h⟩
  | cons o os ih =>
    obtain ⟨st1, h1, hs1⟩ := addOperand_state h (hv o (by simp))
    obtain ⟨st2, h2, hs2⟩ := ih hs1 (fun x hx => hv x (by simp [hx]))
    refine ⟨st2, ?_, ?_⟩
    · simp only [addOperands, h1, bind, Except.bind]; exact h2
    · simpa using hs2

theorem stateOf_init (so : Bool) : StateOf so [] State.init :=
  ⟨Or.inl ⟨rfl, rfl⟩, Or.inl ⟨rfl, rfl⟩, Or.inl ⟨rfl, rfl⟩⟩

theorem stateOf_congr {so : Bool} {os os' : List Operand} (h : ∀ o, o ∈ os ↔ o ∈ os') {st : State}
    (hs : StateOf so os st) : StateOf so os' st := by
  obtain ⟨h1, h2, h3⟩ := hs
  refine ⟨comp_congr ?_ h1, comp_congr ?_ h2, comp_congr ?_ h3⟩
  all_goals
    intro x
    simp only [dims, zeros, wrappeds, List.mem_filterMap, h]

theorem stateOf_unique {so : Bool} {os : List Operand} {s t : State} (hs : StateOf so os s)
    (ht : StateOf so os t) : s = t := by
  obtain ⟨h1, h2, h3⟩ := hs
  obtain ⟨g1, g2, g3⟩ := ht
  cases s; cases t
  simp only [State.mk.injEq]
  exact ⟨comp_unique h1 g1, comp_unique h3 g3, comp_unique h2 g2⟩

/-- On supported operands the promotion is `resultType` of the summary state. -/
theorem promoteDtypes_eq {os : List Operand} (hne : os ≠ []) (hv : ∀ o ∈ os, Valid o) :
    ∃ st, StateOf (os.all fun o => o.1.isNone) os st ∧ promoteDtypes os = resultType st := by
  obtain ⟨st, h1, h2⟩ := addOperands_state (stateOf_init (os.all fun o => o.1.isNone)) hv
  refine ⟨st, stateOf_congr (by simp) h2, ?_⟩
  unfold promoteDtypes
  simp only [hne, if_false, h1, bind, Except.bind]

/-- A state component: undefined or a standard dtype. -/
def StdOrUndef (t : ScalarType) : Prop := t = undefined ∨ Standard t

instance (t : ScalarType) : Decidable (StdOrUndef t) := inferInstanceAs (Decidable (_ ∨ _))

theorem comp_std {l : List ScalarType} {a : ScalarType} (h : Comp l a) : StdOrUndef a := by
  rcases h with ⟨_, rfl⟩ | ⟨_, h⟩
  · exact Or.inl rfl
  · exact Or.inr h.1

/-- What `result_type` yields, as a total function on good states. -/
def resultOf (d z w : ScalarType) : ScalarType :=
  match resultType ⟨d, w, z⟩ with
  | .ok t => t
  | .error _ => undefined

theorem resultType_ok : ∀ d, StdOrUndef d → ∀ z, StdOrUndef z → ∀ w, StdOrUndef w →
    resultType ⟨d, w, z⟩ = .ok (resultOf d z w) ∧ StdOrUndef (resultOf d z w) ∧
    (d = undefined → z = undefined → w = undefined → resultOf d z w = undefined) := by
  decide +kernel

/-- The result has the highest category present, and the dimensioned operands decide the dtype if
they have that category; every dimensioned operand fits. -/
theorem resultOf_spec : ∀ d, StdOrUndef d → ∀ z, StdOrUndef z → ∀ w, StdOrUndef w →
    (d ≠ undefined ∨ z ≠ undefined ∨ w ≠ undefined) →
    Standard (resultOf d z w) ∧ cat (resultOf d z w) = max (cat d) (max (cat z) (cat w)) ∧
    (d ≠ undefined → Fits d (resultOf d z w)) ∧
    (d ≠ undefined → max (cat z) (cat w) ≤ cat d → cat d ≠ 0 → resultOf d z w = d) ∧
    (d = undefined → z ≠ undefined → cat w ≤ cat z → resultOf d z w = z) ∧
    (d = undefined → z = undefined → resultOf d z w = w) := by
  decide +kernel

end Verif.Promote

namespace Verif.Promote
open ScalarType Verif.PromoteSpec

theorem cat_join : ∀ a b, Standard a → Standard b → cat (join a b) = max (cat a) (cat b) := by
  decide +kernel

theorem cat_fits : ∀ a b, Fits a b → cat a ≤ cat b := by decide +kernel

theorem exists_isLeast {l : List ScalarType} (hne : l ≠ []) (h : ∀ x ∈ l, Standard x) :
    ∃ t, IsLeast l t ∧ ∃ x ∈ l, cat x = cat t := by
  induction l with
  | nil => exact absurd rfl hne
  | cons a l ih =>
    by_cases hl : l = []
    · subst hl
      exact ⟨a, isLeast_singleton (h a (by simp)), a, by simp, rfl⟩
    · obtain ⟨t, ht, x, hx, hc⟩ := ih hl (fun x hx => h x (by simp [hx]))
      have ha := h a (by simp)
      refine ⟨join t a, isLeast_cons ht ha, ?_⟩
      have hcj := cat_join t a ht.1 ha
      by_cases hle : cat t ≤ cat a
      · exact ⟨a, by simp, by omega⟩
      · exact ⟨x, by simp [hx], by omega⟩

theorem comp_cat {l : List ScalarType} {a : ScalarType} (h : Comp l a) (hs : ∀ x ∈ l, Standard x) :
    (∀ x ∈ l, cat x ≤ cat a) ∧ (l ≠ [] → ∃ x ∈ l, cat x = cat a) := by
  rcases h with ⟨rfl, rfl⟩ | ⟨hne, h⟩
  · simp
  · refine ⟨fun x hx => cat_fits x a (h.2.1 x hx), fun _ => ?_⟩
    obtain ⟨t, ht, x, hx, hc⟩ := exists_isLeast hne hs
    have := isLeast_unique h ht
    subst this
    exact ⟨x, hx, hc⟩

theorem dims_std {os : List Operand} (hv : ∀ o ∈ os, Valid o) : ∀ x ∈ dims os, Standard x := by
  intro x hx
  simp only [dims, List.mem_filterMap] at hx
  obtain ⟨⟨r, t⟩, ho, h⟩ := hx
  have hv := hv _ ho
  cases r with
  | none => simp at h
  | some r =>
    simp only at h
    split at h
    · cases h; exact hv.2
    · cases h

theorem zeros_std {os : List Operand} (hv : ∀ o ∈ os, Valid o) : ∀ x ∈ zeros os, Standard x := by
  intro x hx
  simp only [zeros, List.mem_filterMap] at hx
  obtain ⟨⟨r, t⟩, ho, h⟩ := hx
  have hv := hv _ ho
  cases r with
  | none => simp at h
  | some r =>
    simp only at h
    split at h
    · cases h
    · cases h; exact hv.2

theorem wrappeds_std {so : Bool} (os : List Operand) : ∀ x ∈ wrappeds so os, Standard x := by
  intro x hx
  simp only [wrappeds, List.mem_filterMap] at hx
  obtain ⟨⟨r, t⟩, ho, h⟩ := hx
  cases r with
  | some r => simp at h
  | none =>
    simp only at h
    cases h
    split
    · cases so <;> decide
    · decide

/-- Category of an operand's dtype in terms of the three lists. -/
theorem operand_in_lists {so : Bool} {os : List Operand} (hv : ∀ o ∈ os, Valid o) {o : Operand}
    (ho : o ∈ os) :
    (o.2 ∈ dims os) ∨ (o.2 ∈ zeros os) ∨ (∃ x ∈ wrappeds so os, cat x = cat o.2) := by
  obtain ⟨r, t⟩ := o
  have h := hv _ ho
  cases r with
  | none =>
    right; right
    refine ⟨_, List.mem_filterMap.mpr ⟨(none, t), ho, rfl⟩, ?_⟩
    rcases h with h | h <;> simp only at h <;> subst h
    · simp
    · cases so <;> decide
  | some r =>
    by_cases hr : 0 < r
    · left; exact List.mem_filterMap.mpr ⟨(some r, t), ho, by simp [hr]⟩
    · right; left; exact List.mem_filterMap.mpr ⟨(some r, t), ho, by simp [hr]⟩

theorem lists_from_operand {so : Bool} {os : List Operand} (hv : ∀ o ∈ os, Valid o) {x : ScalarType}
    (h : x ∈ dims os ∨ x ∈ zeros os ∨ x ∈ wrappeds so os) : ∃ o ∈ os, cat o.2 = cat x := by
  simp only [dims, zeros, wrappeds, List.mem_filterMap] at h
  rcases h with ⟨⟨r, t⟩, ho, h⟩ | ⟨⟨r, t⟩, ho, h⟩ | ⟨⟨r, t⟩, ho, h⟩
  · refine ⟨_, ho, ?_⟩
    cases r <;> simp only at h
    · cases h
    · split at h <;> simp_all
  · refine ⟨_, ho, ?_⟩
    cases r <;> simp only at h
    · cases h
    · split at h <;> simp_all
  · refine ⟨_, ho, ?_⟩
    have hv := hv _ ho
    cases r <;> simp only at h
    · cases h
      rcases hv with h | h <;> simp only at h <;> subst h
      · simp
      · cases so <;> decide
    · cases h

/-- One of the three summaries is defined if there is an operand. -/
theorem state_defined {so : Bool} {os : List Operand} (hne : os ≠ []) (hv : ∀ o ∈ os, Valid o)
    {st : State} (hs : StateOf so os st) :
    st.dim ≠ undefined ∨ st.zero ≠ undefined ∨ st.wrapped ≠ undefined := by
  cases os with
  | nil => exact absurd rfl hne
  | cons o os =>
    have hmem : ∀ {l : List ScalarType} {a x : ScalarType}, Comp l a → x ∈ l → a ≠ undefined := by
      intro l a x hc hx
      rcases hc with ⟨rfl, _⟩ | ⟨_, h⟩
      · simp at hx
      · rintro rfl; exact undef_not_std h.1
    rcases operand_in_lists (so := so) hv (o := o) (by simp) with h | h | ⟨x, h, _⟩
    · exact Or.inl (hmem hs.1 h)
    · exact Or.inr (Or.inl (hmem hs.2.1 h))
    · exact Or.inr (Or.inr (hmem hs.2.2 h))

end Verif.Promote
