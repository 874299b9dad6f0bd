import Verif.Lemmas.PromotePy

/-! # C44, C45, C55: dtype promotion -/

namespace Verif

open Verif.Promote Verif.Promote.ScalarType Verif.PromoteSpec

/-- **C44 (disagreement).** The order of operands matters as soon as `complex32` occurs, or an
8-bit float (which the lookup table does not initialise). -/
theorem C44_violated :
    promoteDtypes [(some 1, complexHalf), (some 1, byte), (some 1, float)] = .ok float ∧
    promoteDtypes [(some 1, float), (some 1, complexHalf), (some 1, byte)] = .ok byte ∧
    promoteDtypes [(some 1, float8_e5m2), (some 1, float), (some 1, double)] = .ok double ∧
    promoteDtypes [(some 1, float), (some 1, double), (some 1, float8_e5m2)] = .ok byte := by
  decide +kernel

/-- **C44 (partial).** For operands of standard dtypes (bool, integer, IEEE/bfloat floating,
complex64/128; scalars int or float; any ranks) the promoted dtype only depends on *which* operands
occur: not on their order and not on repetitions.
Missing: complex32, 8-bit/4-bit floats (false, see `C44_violated`), quantized dtypes (not handled by
the code). -/
theorem C44_order_independent_partial (os os' : List Operand) (hne : os ≠ [])
    (hv : ∀ o ∈ os, Valid o) (hsame : ∀ o, o ∈ os ↔ o ∈ os') :
    promoteDtypes os = promoteDtypes os' := by
  have hne' : os' ≠ [] := by
    rintro rfl
    cases os with
    | nil => exact hne rfl
    | cons o os => have := (hsame o).mp (by simp); simp at this
  have hv' : ∀ o ∈ os', Valid o := fun o ho => hv o ((hsame o).mpr ho)
  obtain ⟨st, h1, h2⟩ := promoteDtypes_eq hne hv
  obtain ⟨st', h1', h2'⟩ := promoteDtypes_eq hne' hv'
  have hall : (os.all fun o => o.1.isNone) = (os'.all fun o => o.1.isNone) := by
    rw [Bool.eq_iff_iff]
    simp only [List.all_eq_true, hsame]
  rw [hall] at h1
  have := stateOf_unique (stateOf_congr hsame h1) h1'
  rw [h2, h2', this]

/-- C44: in particular any permutation. -/
theorem C44_permutation_partial (os os' : List Operand) (hne : os ≠ [])
    (hv : ∀ o ∈ os, Valid o) (hp : os.Perm os') : promoteDtypes os = promoteDtypes os' :=
  C44_order_independent_partial os os' hne hv (fun _ => hp.mem_iff)

/-- Non-trivial supported operands. -/
example : (∀ o ∈ [((some 2 : Option Int), half), (none, double), (some 0, long), (some 1, bfloat16)],
    Valid o) ∧ promoteDtypes [(some 2, half), (none, double), (some 0, long), (some 1, bfloat16)]
      = .ok float := by
  refine ⟨?_, by decide +kernel⟩
  intro o ho
  simp only [List.mem_cons, List.not_mem_nil, or_false] at ho
  rcases ho with rfl | rfl | rfl | rfl <;> simp [Valid] <;> decide

/-- **C45 (disagreement).** Two operands of the same 8-bit float dtype promote to `uint8`. -/
theorem C45_violated :
    promoteDtypes [(some 1, float8_e4m3fn), (some 1, float8_e4m3fn)] = .ok byte ∧
    promoteDtypes [(some 1, float4_e2m1fn_x2), (some 1, float4_e2m1fn_x2)] = .ok byte := by
  decide +kernel

/-- **C45 (partial).** Promoting any number of tensors with at least one dimension, of standard
dtypes, succeeds with the *least* standard dtype in which each operand dtype fits (integers by
range, floats by exponent and mantissa).
Missing: complex32, 8-bit/4-bit floats (false, see `C45_violated`), quantized dtypes. -/
theorem C45_least_upper_bound_partial (ts : List (Nat × ScalarType)) (hne : ts ≠ [])
    (hv : ∀ t ∈ ts, Standard t.2) :
    ∃ r, promoteDtypes (ts.map fun t => (some ((t.1 : Int) + 1), t.2)) = .ok r ∧
      IsLeast (ts.map (·.2)) r := by
  have hv' : ∀ o ∈ ts.map (fun t => ((some ((t.1 : Int) + 1) : Option Int), t.2)), Valid o := by
    intro o ho
    obtain ⟨t, ht, rfl⟩ := List.mem_map.mp ho
    exact ⟨by omega, hv t ht⟩
  obtain ⟨st, ⟨h1, h2, h3⟩, h4⟩ := promoteDtypes_eq (by simpa using hne) hv'
  have hd : ∀ l : List (Nat × ScalarType),
      dims (l.map fun t => ((some ((t.1 : Int) + 1) : Option Int), t.2)) = l.map (·.2) ∧
      zeros (l.map fun t => ((some ((t.1 : Int) + 1) : Option Int), t.2)) = [] ∧
      (∀ so, wrappeds so (l.map fun t => ((some ((t.1 : Int) + 1) : Option Int), t.2)) = []) := by
    intro l
    induction l with
    | nil => simp [dims, zeros, wrappeds]
    | cons t l ih =>
      obtain ⟨n, d⟩ := t
      have hp : (0 : Int) < (n : Int) + 1 := by omega
      simp only [dims, zeros, wrappeds] at ih
      simp [dims, zeros, wrappeds, hp, ih.1, ih.2.1, ih.2.2]
  obtain ⟨e1, e2, e3⟩ := hd ts
  rw [e1] at h1
  rw [e2] at h2
  rw [e3] at h3
  rcases h1 with ⟨he, _⟩ | ⟨_, h1⟩
  · exact absurd (by simpa using he) hne
  have nil : ∀ {a}, Comp [] a → a = undefined := by
    rintro a (⟨_, h⟩ | ⟨he, _⟩)
    · exact h
    · exact absurd rfl he
  have g2 := nil h2
  have g3 := nil h3
  clear h2 h3
  refine ⟨st.dim, ?_, h1⟩
  rw [h4]
  obtain ⟨d, w, z⟩ := st
  simp only at h1 g2 g3 ⊢
  subst g2 g3
  have : ∀ d, Standard d → resultType ⟨d, undefined, undefined⟩ = .ok d := by decide +kernel
  exact this d h1.1

/-- C45: operands all of one standard dtype promote to that dtype. -/
theorem C45_single_dtype_partial (t : ScalarType) (ht : Standard t) (ranks : List Nat)
    (hne : ranks ≠ []) :
    promoteDtypes (ranks.map fun (r : Nat) => (some ((r : Int) + 1), t)) = .ok t := by
  obtain ⟨r, h1, h2⟩ := C45_least_upper_bound_partial (ranks.map fun r => (r, t)) (by simpa using hne)
    (by intro x hx; obtain ⟨n, _, rfl⟩ := List.mem_map.mp hx; exact ht)
  have h3 : IsLeast (ranks.map fun _ => t) t := by
    refine ⟨ht, ?_, ?_⟩
    · intro a ha
      obtain ⟨n, _, rfl⟩ := List.mem_map.mp ha
      exact fits_refl t ht
    · intro c _ h
      cases ranks with
      | nil => exact absurd rfl hne
      | cons n ns => exact h t (by simp)
  have : r = t := isLeast_unique h2 (by simpa [List.map_map, Function.comp_def] using h3)
  subst this
  simpa [List.map_map, Function.comp_def] using h1

/-- C45, operands of every kind (scalars, rank-0 tensors, tensors): promotion succeeds with a
standard dtype; its category (bool < integer < floating < complex) is the highest category among the
operands; and each operand with at least one dimension fits. -/
theorem C45_category_partial (os : List Operand) (hne : os ≠ []) (hv : ∀ o ∈ os, Valid o) :
    ∃ r, promoteDtypes os = .ok r ∧ Standard r ∧
      (∀ o ∈ os, cat o.2 ≤ cat r) ∧ (∃ o ∈ os, cat o.2 = cat r) ∧
      (∀ o ∈ os, ∀ k, o.1 = some k → 0 < k → Fits o.2 r) := by
  obtain ⟨st, hs, h4⟩ := promoteDtypes_eq hne hv
  have hdef := state_defined hne hv hs
  obtain ⟨h1, h2, h3⟩ := hs
  obtain ⟨hok, _, _⟩ := resultType_ok st.dim (comp_std h1) st.zero (comp_std h2) st.wrapped (comp_std h3)
  obtain ⟨r1, r2, r3, _⟩ := resultOf_spec st.dim (comp_std h1) st.zero (comp_std h2) st.wrapped
    (comp_std h3) hdef
  have c1 := comp_cat h1 (dims_std hv)
  have c2 := comp_cat h2 (zeros_std hv)
  have c3 := comp_cat h3 (wrappeds_std os)
  refine ⟨resultOf st.dim st.zero st.wrapped, by rw [h4]; exact hok, r1, ?_, ?_, ?_⟩
  · intro o ho
    rw [r2]
    rcases operand_in_lists (so := os.all fun o => o.1.isNone) hv ho with h | h | ⟨x, h, hx⟩
    · have := c1.1 _ h; omega
    · have := c2.1 _ h; omega
    · have := c3.1 _ h; omega
  · rw [r2]
    have pick : ∀ {l : List ScalarType} {a : ScalarType}, Comp l a →
        (l ≠ [] → ∃ x ∈ l, cat x = cat a) → a ≠ undefined → ∃ x ∈ l, cat x = cat a := by
      intro l a hc hx hd
      rcases hc with ⟨_, rfl⟩ | ⟨hne, _⟩
      · exact absurd rfl hd
      · exact hx hne
    have cu : cat undefined = 0 := by decide
    have fin : ∀ {x : ScalarType}, (x ∈ dims os ∨ x ∈ zeros os ∨ x ∈ wrappeds (os.all fun o => o.1.isNone) os) →
        cat x = max (cat st.dim) (max (cat st.zero) (cat st.wrapped)) →
        ∃ o ∈ os, cat o.2 = max (cat st.dim) (max (cat st.zero) (cat st.wrapped)) := by
      intro x hx hc
      obtain ⟨o, ho, hh⟩ := lists_from_operand hv hx
      exact ⟨o, ho, by omega⟩
    by_cases hd : st.dim ≠ undefined ∧ max (cat st.zero) (cat st.wrapped) ≤ cat st.dim
    · obtain ⟨x, hx, hc⟩ := pick h1 c1.2 hd.1
      exact fin (Or.inl hx) (by omega)
    · by_cases hz : st.zero ≠ undefined ∧ max (cat st.dim) (cat st.wrapped) ≤ cat st.zero
      · obtain ⟨x, hx, hc⟩ := pick h2 c2.2 hz.1
        exact fin (Or.inr (Or.inl hx)) (by omega)
      · have hw : st.wrapped ≠ undefined := by
          rintro hw
          rw [hw, cu] at hd hz
          by_cases e1 : st.dim = undefined
          · rw [e1, cu] at hz
            by_cases e2 : st.zero = undefined
            · rcases hdef with h | h | h
              · exact h e1
              · exact h e2
              · exact h hw
            · exact hz ⟨e2, by omega⟩
          · by_cases e2 : st.zero = undefined
            · rw [e2, cu] at hd; exact hd ⟨e1, by omega⟩
            · have : ¬ max (cat st.zero) 0 ≤ cat st.dim := fun h => hd ⟨e1, h⟩
              have : ¬ max (cat st.dim) 0 ≤ cat st.zero := fun h => hz ⟨e2, h⟩
              omega
        obtain ⟨x, hx, hc⟩ := pick h3 c3.2 hw
        refine fin (Or.inr (Or.inr hx)) ?_
        by_cases e1 : st.dim = undefined
        · by_cases e2 : st.zero = undefined
          · rw [e1, e2, cu]; omega
          · have : ¬ max (cat st.dim) (cat st.wrapped) ≤ cat st.zero := fun h => hz ⟨e2, h⟩
            rw [e1, cu] at this ⊢; omega
        · have a1 : ¬ max (cat st.zero) (cat st.wrapped) ≤ cat st.dim := fun h => hd ⟨e1, h⟩
          by_cases e2 : st.zero = undefined
          · rw [e2, cu] at a1 ⊢; omega
          · have : ¬ max (cat st.dim) (cat st.wrapped) ≤ cat st.zero := fun h => hz ⟨e2, h⟩
            omega
  · intro o ho k hk hpos
    have hmem : o.2 ∈ dims os :=
      List.mem_filterMap.mpr ⟨o, ho, by simp [hk, hpos]⟩
    rcases h1 with ⟨he, _⟩ | ⟨_, h1⟩
    · rw [he] at hmem; simp at hmem
    · have hu : st.dim ≠ undefined := by
        intro h; rw [h] at h1; exact undef_not_std h1.1
      have hf := h1.2.1 _ hmem
      exact fits_trans _ (fits_std hf).1 _ h1.1 _ r1 hf (r3 hu)

/-- C45, weak scalars: a Python scalar whose category does not exceed that of a dimensioned tensor
(of at least integer category) leaves the tensor's dtype unchanged. -/
theorem C45_weak_scalar_partial (k : Nat) (t s : ScalarType) (ht : Standard t)
    (hs : s = long ∨ s = double) (hc : cat s ≤ cat t) (h1 : 1 ≤ cat t) :
    promoteDtypes [(some ((k : Int) + 1), t), (none, s)] = .ok t := by
  have hv : Valid (some ((k : Int) + 1), t) := ⟨by omega, ht⟩
  have hv' : Valid (none, s) := hs
  rw [promoteDtypes_pair_norm _ _ hv hv']
  have hp : (0 : Int) < (k : Int) + 1 := by omega
  simp only [Option.map_some, hp, if_true, Option.map_none]
  have : ∀ t, Standard t → ∀ s ∈ [long, double], cat s ≤ cat t → 1 ≤ cat t →
      promoteDtypes [(some 1, t), (none, s)] = .ok t := by decide +kernel
  exact this t ht s (by simpa using hs) hc h1

/-- The 8-byte int does not widen an `int8` tensor; a float scalar turns it into `float32`. -/
example : promoteDtypes [(some 3, char), (none, long)] = .ok char ∧
    promoteDtypes [(some 3, char), (none, double)] = .ok float := by decide +kernel

/-- **C55 (disagreement).** The Python-level promotion, folded pairwise, differs from the
compiler's on three operands: a rank-0 double, an int vector and a half vector. It is also
sensitive to the order of operands. -/
theorem C55_violated :
    pyPromoteDtypes [(some 0, double), (some 1, int), (some 1, half)] = .ok double ∧
    promoteDtypes [(some 0, double), (some 1, int), (some 1, half)] = .ok half ∧
    pyPromoteDtypes [(some 1, int), (some 1, half), (some 0, double)] = .ok half := by
  decide +kernel

/-- **C55 (partial).** For one or two operands (any ranks, standard dtypes, int/float scalars) the
Python-level promotion used to test dtype functions against PyTorch gives the dtype the compiler
computes. Missing: three or more operands (false in general, see `C55_violated`;
see `C55_same_category_partial` for the cases that hold). -/
theorem C55_two_operands_partial (o o' : Operand) (ho : Valid o) (ho' : Valid o') :
    pyPromoteDtypes [o, o'] = promoteDtypes [o, o'] := by
  obtain ⟨f1, f2, f3⟩ := two_operands_finite
  rw [promoteDtypes_pair_norm o o' ho ho']
  obtain ⟨r, a⟩ := o
  obtain ⟨r', b⟩ := o'
  have flag : ∀ x : Int, (if 0 < x then (1 : Int) else 0) ∈ [(0 : Int), 1] := by
    intro x; split <;> simp
  simp only [pyPromoteDtypes, pyLoop]
  cases r with
  | none =>
    have hs : a ∈ [long, double] := by simpa [Valid] using ho
    have hidem : promoteTensorTensor 0 a 0 a = .ok a := (f2 byte (by decide) a hs 0 (by simp)).1
    cases r' with
    | none =>
      have hs' : b ∈ [long, double] := by simpa [Valid] using ho'
      simp only [pyStep, hidem, bind, Except.bind, Option.map_none]
      rw [f3 a hs b hs']
      cases promoteDtypes [(none, a), (none, b)] <;> rfl
    | some r' =>
      obtain ⟨h0, hstd⟩ := ho'
      simp only at h0 hstd
      simp only [pyStep, hidem, bind, Except.bind, Option.map_none, Option.map_some]
      rw [pst_norm r' a b h0, (f2 b hstd a hs _ (flag r')).2.2]
      cases promoteDtypes [(none, a), (some (if 0 < r' then (1 : Int) else 0), b)] <;> rfl
  | some r =>
    obtain ⟨h0, hstd⟩ := ho
    simp only at h0 hstd
    have hidem : promoteTensorTensor r a r a = .ok a := by
      rw [ptt_norm r r a a h0 h0]
      exact (f1 a hstd a hstd _ (flag r) _ (flag r)).1
    cases r' with
    | none =>
      have hs' : b ∈ [long, double] := by simpa [Valid] using ho'
      simp only [pyStep, hidem, bind, Except.bind, Option.map_none, Option.map_some]
      rw [show max r r = r by omega, pst_norm r b a h0, (f2 a hstd b hs' _ (flag r)).2.1]
      cases promoteDtypes [(some (if 0 < r then (1 : Int) else 0), a), (none, b)] <;> rfl
    | some r' =>
      obtain ⟨h0', hstd'⟩ := ho'
      simp only at h0' hstd'
      simp only [pyStep, hidem, bind, Except.bind, Option.map_some]
      rw [show max r r = r by omega, ptt_norm r r' a b h0 h0', (f1 a hstd b hstd' _ (flag r) _ (flag r')).2]
      cases promoteDtypes [(some (if 0 < r then (1 : Int) else 0), a), (some (if 0 < r' then (1 : Int) else 0), b)] <;> rfl

/-- **C55 (partial).** Any number of operands: tensors all of rank at least one, or all of rank zero,
followed by any number of int/float scalars.
Missing: rank-0 and ranked tensors mixed, scalars in front of tensors (false for three operands,
see `C55_violated`). -/
theorem C55_same_category_partial (pos : Bool) (ts ss : List Operand) (hne : ts ≠ [])
    (ht : ∀ o ∈ ts, ∃ r, o.1 = some r ∧ (if pos then 0 < r else r = 0) ∧ Standard o.2)
    (hs : ∀ o ∈ ss, o.1 = none ∧ o.2 ∈ [long, double]) :
    pyPromoteDtypes (ts ++ ss) = promoteDtypes (ts ++ ss) := by
  cases ts with
  | nil => exact absurd rfl hne
  | cons o ts =>
    obtain ⟨r, ho, hr, hstd⟩ := ht o (by simp)
    obtain ⟨r', a⟩ := o
    simp only at ho hstd
    subst ho
    obtain ⟨l', d, h1, h2, h3, h4⟩ := pyLoop_tensors pos ((some r, a) :: ts) ss ht r a hr hstd
    have hall : (((some r, a) :: ts ++ ss).all fun o => o.1.isNone) = false := by simp
    have happ : ∀ (so : Bool) (xs ys : List Operand) (st : State),
        addOperands so st (xs ++ ys) = (addOperands so st xs).bind fun st => addOperands so st ys := by
      intro so xs
      induction xs with
      | nil => intro ys st; rfl
      | cons x xs ih =>
        intro ys st
        simp only [List.cons_append, addOperands, bind, Except.bind, ih]
        cases addOperand so st x <;> rfl
    have hinit : State.init = mkState pos undefined undefined := by cases pos <;> rfl
    have hfirst : addOperands false State.init ((some r, a) :: ts) = .ok (mkState pos d undefined) := by
      have hdup := h4 false undefined
      simp only [addOperands, hinit, addOperand_kind _ _ _ _ _ _ hr] at hdup ⊢
      have e1 : promoteSkipUndefined undefined a = .ok a := by simp [promoteSkipUndefined]
      have e2 : promoteSkipUndefined a a = .ok a := by
        have h0 := (by decide +kernel : ∀ a, Standard a → promoteSkipUndefined a a = .ok a)
        exact h0 a hstd
      rw [e2] at hdup
      rw [e1]
      exact hdup
    show pyLoop (some r, a) ((some r, a) :: ts ++ ss) = _
    rw [h3]
    unfold promoteDtypes
    rw [if_neg (by simp), hall]
    simp only [happ, hfirst]
    exact pyLoop_scalars pos d h2 ss hs l' undefined d h1 (by simp) (kind_finite.1 pos d h2)

example : pyPromoteDtypes [(some 2, int), (some 1, half), (some 3, bool), (none, double), (none, long)]
    = .ok half := by decide +kernel

example : pyPromoteDtypes [(some 2, long), (none, double)] = .ok float ∧
    pyPromoteDtypes [(none, long), (none, double)] = .ok double := by decide +kernel

end Verif
