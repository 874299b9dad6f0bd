import Verif.Lemmas.Reporting

/-!
# C48, C49: the end-to-end test report
-/

namespace Verif

open Report

/-- C48, one value: with positive golden floats and no NaN in the value, no failure is recorded exactly if
the value agrees with the golden one. -/
theorem C48_value_partial (value golden : Val) (c : List Ctx) (hg : Floats Positive golden)
    (hv : Floats (· ≠ .nan) value) : valueReport value golden c = .ok [] ↔ Agree value golden :=
  valueReport_iff c hg hv

theorem inputReports_nil_iff (s : String) (c : List Ctx) (i : Nat) (vs gs : List Val)
    (hv : ∀ v ∈ vs, Floats (· ≠ .nan) v) (hg : ∀ v ∈ gs, Floats Positive v) :
    inputReports s c i vs gs = .ok [] ↔
      ∀ (j : Nat) (v g : Val), vs[j]? = some v → gs[j]? = some g → Agree v g := by
  induction vs generalizing i gs with
  | nil => simp [inputReports]
  | cons v vs ih =>
    cases gs with
    | nil => simp [inputReports]
    | cons g gs =>
      unfold inputReports
      have hv0 := hv v (by simp)
      have hg0 := hg g (by simp)
      have ih' := ih (i + 1) gs (fun x hx => hv x (by simp [hx])) (fun x hx => hg x (by simp [hx]))
      have h0 := valueReport_iff (v := v) (g := g) (c ++ [.input i s]) hg0 hv0
      rw [bind_ok]
      constructor
      · rintro ⟨r, hr, h⟩
        rw [bind_ok] at h
        obtain ⟨rs, hrs, h⟩ := h
        have h := Except.ok.inj h
        by_cases e : r = []
        · subst e
          simp only [if_true] at h
          subst h
          intro j v' g' h1 h2
          cases j with
          | zero => cases h1; cases h2; exact h0.mp hr
          | succ j => exact ih'.mp hrs j v' g' (by simpa using h1) (by simpa using h2)
        · simp [e] at h
      · intro h
        refine ⟨[], h0.mpr (h 0 v g rfl rfl), ?_⟩
        rw [bind_ok]
        exact ⟨[], ih'.mpr fun j v' g' h1 h2 => h (j + 1) v' g' (by simpa using h1) (by simpa using h2),
          rfl⟩

theorem itemReport_nil_iff (t g : TraceItem) (c : List Ctx)
    (hv : (∀ v ∈ t.inputs, Floats (· ≠ .nan) v) ∧ Floats (· ≠ .nan) t.output)
    (hg : (∀ v ∈ g.inputs, Floats Positive v) ∧ Floats Positive g.output) :
    itemReport t g c = .ok [] ↔ SameCall t g := by
  unfold itemReport SameCall AgreeAll
  have h1 := inputReports_nil_iff t.symbol c 0 t.inputs g.inputs hv.1 hg.1
  have h2 := valueReport_iff (v := t.output) (g := g.output) (c ++ [.output t.symbol]) hg.2 hv.2
  rw [bind_ok]
  constructor
  · rintro ⟨is, his, h⟩
    rw [bind_ok] at h
    obtain ⟨o, ho, h⟩ := h
    have h := Except.ok.inj h
    simp only [List.append_eq_nil_iff] at h
    obtain ⟨⟨⟨ha, hb⟩, rfl⟩, hd⟩ := h
    have ho' : o = [] := by
      by_cases e : o = []
      · exact e
      · simp [e] at hd
    subst ho'
    refine ⟨?_, ⟨?_, h1.mp his⟩, h2.mp ho⟩
    · simpa [oneIf] using ha
    · simpa [oneIf] using hb
  · rintro ⟨ha, ⟨hb, hc⟩, hd⟩
    refine ⟨[], h1.mpr hc, ?_⟩
    rw [bind_ok]
    exact ⟨[], h2.mpr hd, by simp [oneIf, ha, hb]⟩

theorem itemReports_iff (i : Nat) (ts gs : List TraceItem)
    (hv : TraceAll (Floats (· ≠ .nan)) ts) (hg : TraceAll (Floats Positive) gs) :
    (∃ rs, itemReports i ts gs = .ok rs ∧ (rs.any fun x => decide (x ≠ [])) = false) ↔
      SameCalls ts gs := by
  unfold SameCalls
  induction ts generalizing i gs with
  | nil => simp [itemReports]
  | cons t ts ih =>
    cases gs with
    | nil => simp [itemReports]
    | cons g gs =>
      unfold itemReports
      have h0 := itemReport_nil_iff t g [.traceItem i t.symbol] (hv t (by simp)) (hg g (by simp))
      have ih' := ih (i + 1) gs (fun x hx => hv x (by simp [hx])) (fun x hx => hg x (by simp [hx]))
      constructor
      · rintro ⟨rs, h, hany⟩
        rw [bind_ok] at h
        obtain ⟨r, hr, h⟩ := h
        rw [bind_ok] at h
        obtain ⟨rs', hrs', h⟩ := h
        have h := Except.ok.inj h
        subst h
        simp only [List.any_cons, Bool.or_eq_false_iff, decide_eq_false_iff_not, ne_eq,
          Classical.not_not] at hany
        obtain ⟨rfl, hany⟩ := hany
        intro j t' g' h1 h2
        cases j with
        | zero => cases h1; cases h2; exact h0.mp hr
        | succ j =>
          exact ih'.mp ⟨rs', hrs', by simpa using hany⟩ j t' g' (by simpa using h1) (by simpa using h2)
      · intro h
        obtain ⟨rs, hrs, hany⟩ := ih'.mpr fun j t' g' h1 h2 =>
          h (j + 1) t' g' (by simpa using h1) (by simpa using h2)
        refine ⟨[] :: rs, ?_, by simpa using hany⟩
        rw [bind_ok]
        refine ⟨[], h0.mpr (h 0 t g rfl rfl), ?_⟩
        rw [bind_ok]
        exact ⟨rs, hrs, rfl⟩

/-- C48, what passing says: a test without errors whose scalars can be judged passes exactly if the calls
that both traces have agree. -/
theorem C48_common_calls_partial (r : TestResult) (hn : NoError r) (hj : Judgeable r) :
    testFailed r = .ok false ↔ SameCalls r.trace r.goldenTrace := by
  rw [← itemReports_iff 0 r.trace r.goldenTrace hj.1 hj.2]
  unfold testFailed
  rw [hn.1, hn.2]
  simp only [Option.isSome_none, Bool.false_eq_true, if_false]
  rw [bind_ok]
  constructor
  · rintro ⟨rs, h1, h2⟩; exact ⟨rs, h1, Except.ok.inj h2⟩
  · rintro ⟨rs, h1, h2⟩; exact ⟨rs, h1, by rw [h2]⟩

/-- C48: for traces of the same length, passing means the traces agree. -/
theorem C48_pass_partial (r : TestResult) (hn : NoError r) (hj : Judgeable r)
    (hl : r.trace.length = r.goldenTrace.length) :
    testFailed r = .ok false ↔ SameTrace r.trace r.goldenTrace := by
  rw [C48_common_calls_partial r hn hj]
  exact ⟨fun h => ⟨hl, h⟩, fun h => h.2⟩

/-- C48: a test with a compilation or runtime error is failed. -/
theorem C48_error_fails (r : TestResult) (h : ¬ NoError r) : testFailed r = .ok true := by
  unfold NoError at h
  unfold testFailed
  cases hc : r.compilationError with
  | some e => rfl
  | none =>
    cases hr : r.runtimeError with
    | some e => rfl
    | none => exact absurd ⟨hc, hr⟩ h

/-- A test of one call `forward` with the given outputs. -/
def oneOutput (value golden : Val) : TestResult :=
  ⟨"t", none, none, [⟨"forward", [], value⟩], [⟨"forward", [], golden⟩]⟩

/-- C48 fails for negative golden floats: `5.0` passes where `-3.0` is expected. -/
theorem C48_violated_negative :
    testFailed (oneOutput (.float (.fin 5)) (.float (.fin (-3)))) = .ok false ∧
      ¬ Agree (.float (.fin 5)) (.float (.fin (-3))) := by
  refine ⟨by decide +kernel, ?_⟩
  intro h
  have h : Same (.float (.fin 5)) (.float (.fin (-3))) := h
  cases h with
  | int h1 h2 => cases h2
  | float h =>
    rcases h with h | ⟨a, b, h1, h2, h3⟩
    · cases h
    · cases h1; cases h2
      exact absurd h3 (by decide +kernel)

/-- C48 fails for NaN: it passes where `2.0` is expected. -/
theorem C48_violated_nan :
    testFailed (oneOutput (.float .nan) (.float (.fin 2))) = .ok false ∧
      ¬ Agree (.float .nan) (.float (.fin 2)) := by
  refine ⟨by decide +kernel, ?_⟩
  intro h
  have h : Same (.float .nan) (.float (.fin 2)) := h
  cases h with
  | int h1 h2 => cases h2
  | float h =>
    rcases h with h | ⟨a, b, h1, h2, h3⟩
    · cases h
    · cases h1

/-- C48 fails for an infinite golden float: any float passes. -/
theorem C48_violated_infinite (x : Fl) :
    testFailed (oneOutput (.float x) (.float (.inf false))) = .ok false ∧
      (x ≠ .inf false → ¬ Agree (.float x) (.float (.inf false))) := by
  constructor
  · rcases x with _ | b | q
    · rfl
    · cases b <;> decide +kernel
    · rfl
  · intro hx h
    have h : Same (.float x) (.float (.inf false)) := h
    cases h with
    | int h1 h2 => cases h2
    | float h =>
      rcases h with h | ⟨a, b, h1, h2, h3⟩
      · exact hx h
      · cases h2

/-- C48 fails for truncated traces: a run that makes none of the calls passes. -/
theorem C48_violated_truncated (g : TraceItem) :
    testFailed ⟨"t", none, none, [], [g]⟩ = .ok false ∧ ¬ SameTrace [] [g] :=
  ⟨rfl, fun h => absurd h.1 (by simp)⟩

/-- C48: a golden float of zero makes the report itself raise, even for equal values. -/
theorem C48_violated_zero (x : Fl) :
    testFailed (oneOutput (.float x) (.float (.fin 0))) = .error .zeroDivision := by
  rcases x with _ | _ | _ <;> rfl

/-- A nested value is compared throughout: the second element of the tuple differs. -/
example : valueReport (.tuple [.int 1, .list [.bool true, .str "a"]])
    (.tuple [.int 1, .list [.int 1, .str "b"]]) [] =
    .ok [⟨[.tupleElement 1, .listElement 1], .notEqual⟩] := by with_unfolding_all rfl

example : valueReport (.tuple [.dict [("x", .int 3), ("a", .str "s")]])
    (.dict [("a", .str "s"), ("x", .int 3)]) [] = .ok [] := by decide +kernel

example : valueReport (.tensor ⟨[2], "f32", fun i => .fin (i + 1)⟩)
    (.tensor ⟨[2], "f32", fun i => .fin (1001 / 1000 * (i + 1))⟩) [] = .ok [] := by decide +kernel

/-! ## C49 -/

theorem classify_ok {ex : List String} {r : TestResult} {f : TestResult → Bool}
    (h : testFailed r = .ok (f r)) :
    ∃ o, classify ex r = .ok (o, r.name) ∧ Belongs f ex r o := by
  unfold classify
  rw [h]
  refine ⟨outcome (f r) (ex.contains r.name), rfl, ?_⟩
  unfold outcome Belongs
  by_cases hx : ex.contains r.name = true
  · have hm : r.name ∈ ex := by simpa using hx
    cases hf : f r <;> simp [hx, hm]
  · have hm : r.name ∉ ex := by simpa using hx
    cases hf : f r <;> simp [hm]

theorem belongs_unique {f : TestResult → Bool} {ex : List String} {r : TestResult} {o o' : Outcome}
    (h : Belongs f ex r o) (h' : Belongs f ex r o') : o = o' := by
  cases o <;> cases o' <;> simp_all [Belongs]

/-- The outcome of every result. -/
theorem classify_all {ex : List String} {f : TestResult → Bool} (results : List TestResult)
    (h : ∀ r ∈ results, testFailed r = .ok (f r)) :
    ∃ os : List (Outcome × String), pyMap (classify ex) results = .ok os ∧
      os.length = results.length ∧
      ∀ (i : Nat) (r : TestResult), results[i]? = some r →
        ∃ o, os[i]? = some (o, r.name) ∧ Belongs f ex r o := by
  induction results with
  | nil => exact ⟨[], rfl, rfl, by simp⟩
  | cons r rs ih =>
    obtain ⟨os, h1, h2, h3⟩ := ih fun x hx => h x (by simp [hx])
    obtain ⟨o, ho, hb⟩ := classify_ok (ex := ex) (h r (by simp))
    refine ⟨(o, r.name) :: os, by simp [pyMap, ho, h1], by simp [h2], ?_⟩
    intro i r' hi
    cases i with
    | zero => cases hi; exact ⟨o, rfl, hb⟩
    | succ i => exact h3 i r' (by simpa using hi)

theorem verdicts_append (a b : List Line) : verdicts (a ++ b) = verdicts a ++ verdicts b := by
  simp [verdicts]
theorem entries_append (a b : List Line) : entries (a ++ b) = entries a ++ entries b := by
  simp [entries]
theorem totals_append (a b : List Line) : totals (a ++ b) = totals a ++ totals b := by
  simp [totals]

theorem verdicts_verdict (os : List (Outcome × String)) :
    verdicts (os.map fun r => Line.verdict r.1 r.2) = os := by
  induction os with
  | nil => rfl
  | cons o os ih => unfold verdicts at ih ⊢; simp [ih]

theorem verdicts_section (os : List (Outcome × String)) (ks : List Outcome) :
    verdicts ((ks.map (section_ os)).flatten) = [] := by
  unfold verdicts
  simp only [List.filterMap_eq_nil_iff, List.mem_flatten, List.mem_map]
  rintro l ⟨ls, ⟨k, _, rfl⟩, hl⟩
  unfold section_ at hl
  split at hl
  · simp at hl
  · split at hl
    · simp at hl
    · rcases List.mem_cons.mp hl with rfl | hl
      · rfl
      · obtain ⟨n, _, rfl⟩ := List.mem_map.mp hl
        rfl

theorem totals_section (os : List (Outcome × String)) (ks : List Outcome) :
    totals ((ks.map (section_ os)).flatten) = [] := by
  unfold totals
  simp only [List.filterMap_eq_nil_iff, List.mem_flatten, List.mem_map]
  rintro l ⟨ls, ⟨k, _, rfl⟩, hl⟩
  unfold section_ at hl
  split at hl
  · simp at hl
  · split at hl
    · simp at hl
    · rcases List.mem_cons.mp hl with rfl | hl
      · rfl
      · obtain ⟨n, _, rfl⟩ := List.mem_map.mp hl
        rfl

theorem verdicts_total (os : List (Outcome × String)) (ks : List Outcome) :
    verdicts ((ks.map (totalLine os)).flatten) = [] := by
  unfold verdicts
  simp only [List.filterMap_eq_nil_iff, List.mem_flatten, List.mem_map]
  rintro l ⟨ls, ⟨k, _, rfl⟩, hl⟩
  unfold totalLine at hl
  split at hl
  · simp at hl
  · rcases List.mem_singleton.mp hl with rfl
    rfl

theorem entries_total (os : List (Outcome × String)) (ks : List Outcome) :
    entries ((ks.map (totalLine os)).flatten) = [] := by
  unfold entries
  simp only [List.filterMap_eq_nil_iff, List.mem_flatten, List.mem_map]
  rintro l ⟨ls, ⟨k, _, rfl⟩, hl⟩
  unfold totalLine at hl
  split at hl
  · simp at hl
  · rcases List.mem_singleton.mp hl with rfl
    rfl

theorem entries_verdict (os : List (Outcome × String)) :
    entries (os.map fun r => Line.verdict r.1 r.2) = [] := by
  simp [entries]

theorem totals_verdict (os : List (Outcome × String)) :
    totals (os.map fun r => Line.verdict r.1 r.2) = [] := by
  simp [totals]

theorem mem_byOutcome (os : List (Outcome × String)) (o : Outcome) (n : String) :
    n ∈ byOutcome os o ↔ (o, n) ∈ os := by
  unfold byOutcome
  simp only [List.mem_map, List.mem_filter, decide_eq_true_eq]
  constructor
  · rintro ⟨⟨o', n'⟩, ⟨h1, rfl⟩, rfl⟩; exact h1
  · intro h; exact ⟨(o, n), ⟨h, rfl⟩, rfl⟩

theorem hadUnexpected_iff (os : List (Outcome × String)) :
    hadUnexpected os = true ↔ ∃ e ∈ os, e.1 = .fail ∨ e.1 = .xpass := by
  unfold hadUnexpected
  have key : ∀ o, ((byOutcome os o).length != 0) = true ↔ ∃ e ∈ os, e.1 = o := by
    intro o
    simp only [bne_iff_ne, ne_eq, List.length_eq_zero_iff]
    constructor
    · intro h
      obtain ⟨n, hn⟩ := List.exists_mem_of_ne_nil _ h
      exact ⟨(o, n), (mem_byOutcome os o n).mp hn, rfl⟩
    · rintro ⟨⟨o', n⟩, he, rfl⟩ h
      have := (mem_byOutcome os o' n).mpr he
      rw [h] at this
      simp at this
  rw [Bool.or_eq_true, key, key]
  constructor
  · rintro (⟨e, h1, h2⟩ | ⟨e, h1, h2⟩)
    · exact ⟨e, h1, Or.inl h2⟩
    · exact ⟨e, h1, Or.inr h2⟩
  · rintro ⟨e, h1, h2 | h2⟩
    · exact Or.inl ⟨e, h1, h2⟩
    · exact Or.inr ⟨e, h1, h2⟩

/-- C49, the returned flag: true exactly if some result is unexpected. -/
theorem C49_flag (results : List TestResult) (expected : List String) (config : String)
    (failed : TestResult → Bool) (h : ∀ r ∈ results, testFailed r = .ok (failed r)) :
    ∃ lines flag, reportResults results expected config = .ok (lines, flag) ∧
      (flag = true ↔ ∃ r ∈ results, Unexpected failed expected r) := by
  obtain ⟨os, h1, h2, h3⟩ := classify_all (ex := expected) results h
  refine ⟨_, _, by unfold reportResults; rw [h1]; rfl, ?_⟩
  rw [hadUnexpected_iff]
  constructor
  · rintro ⟨e, he, ho⟩
    obtain ⟨i, hi, rfl⟩ := List.getElem_of_mem he
    have hi' : i < results.length := by omega
    obtain ⟨o, e1, e2⟩ := h3 i results[i] (List.getElem?_eq_getElem hi')
    rw [List.getElem?_eq_getElem hi] at e1
    have e1 := Option.some.inj e1
    rw [e1] at ho
    refine ⟨results[i], List.getElem_mem _, ?_⟩
    rcases ho with rfl | rfl
    · exact Or.inl e2
    · exact Or.inr e2
  · rintro ⟨r, hr, hu⟩
    obtain ⟨i, hi, rfl⟩ := List.getElem_of_mem hr
    obtain ⟨o, e1, e2⟩ := h3 i results[i] (List.getElem?_eq_getElem hi)
    refine ⟨_, List.mem_of_getElem? e1, ?_⟩
    rcases hu with hu | hu
    · exact Or.inl (belongs_unique (o' := .fail) e2 hu)
    · exact Or.inr (belongs_unique (o' := .xpass) e2 hu)

/-- C49, the verdicts: one line per result in order, under the one outcome the result belongs to. -/
theorem C49_verdicts (results : List TestResult) (expected : List String) (config : String)
    (failed : TestResult → Bool) (h : ∀ r ∈ results, testFailed r = .ok (failed r)) :
    ∃ lines flag, reportResults results expected config = .ok (lines, flag) ∧
      (verdicts lines).length = results.length ∧
      ∀ (i : Nat) (r : TestResult), results[i]? = some r →
        ∃ o, (verdicts lines)[i]? = some (o, r.name) ∧ Belongs failed expected r o ∧
          ∀ o', Belongs failed expected r o' → o' = o := by
  obtain ⟨os, h1, h2, h3⟩ := classify_all (ex := expected) results h
  refine ⟨_, _, by unfold reportResults; rw [h1]; rfl, ?_⟩
  have e : ∀ x : List Line, verdicts (if hadUnexpected os then [.unexpectedSummary config] else []) = [] := by
    intro _; split <;> rfl
  simp only [verdicts_append, verdicts_verdict, verdicts_section, verdicts_total, e []]
  simp only [verdicts, List.filterMap_cons, List.filterMap_nil, List.append_nil]
  refine ⟨h2, fun i r hi => ?_⟩
  obtain ⟨o, e1, e2⟩ := h3 i r hi
  exact ⟨o, e1, e2, fun o' h' => belongs_unique h' e2⟩

/-- C49, the summary of unexpected outcomes: a name is listed there under `o` exactly if a result of that
name has that outcome and the outcome is unexpected. -/
theorem C49_entries (results : List TestResult) (expected : List String) (config : String)
    (failed : TestResult → Bool) (h : ∀ r ∈ results, testFailed r = .ok (failed r)) :
    ∃ lines flag, reportResults results expected config = .ok (lines, flag) ∧
      ∀ (o : Outcome) (n : String), (o, n) ∈ entries lines ↔
        (o = .fail ∨ o = .xpass) ∧ ∃ r ∈ results, r.name = n ∧ Belongs failed expected r o := by
  obtain ⟨os, h1, h2, h3⟩ := classify_all (ex := expected) results h
  refine ⟨_, _, by unfold reportResults; rw [h1]; rfl, ?_⟩
  intro o n
  have e : entries (if hadUnexpected os then [.unexpectedSummary config] else []) = [] := by
    split <;> rfl
  simp only [entries_append, entries_verdict, entries_total, e]
  have e2 : entries [Line.summary] = [] := rfl
  rw [e2]
  simp only [List.append_nil, List.nil_append]
  have mos : (o, n) ∈ os ↔ ∃ r ∈ results, r.name = n ∧ Belongs failed expected r o := by
    constructor
    · intro he
      obtain ⟨i, hi, e1⟩ := List.getElem_of_mem he
      obtain ⟨o', e3, e4⟩ := h3 i results[i] (List.getElem?_eq_getElem (by omega))
      rw [List.getElem?_eq_getElem hi, e1] at e3
      cases e3
      exact ⟨results[i], List.getElem_mem _, rfl, e4⟩
    · rintro ⟨r, hr, rfl, hb⟩
      obtain ⟨i, hi, rfl⟩ := List.getElem_of_mem hr
      obtain ⟨o', e3, e4⟩ := h3 i results[i] (List.getElem?_eq_getElem (by omega))
      rw [belongs_unique hb e4]
      exact List.mem_of_getElem? e3
  rw [← mos]
  unfold entries
  simp only [List.mem_filterMap, List.mem_flatten, List.mem_map]
  constructor
  · rintro ⟨l, ⟨ls, ⟨k, hk, rfl⟩, hl⟩, he⟩
    unfold section_ at hl
    split at hl
    · simp at hl
    · rename_i hne
      split at hl
      · simp at hl
      · rcases List.mem_cons.mp hl with rfl | hl
        · cases he
        · obtain ⟨m, hm, rfl⟩ := List.mem_map.mp hl
          cases he
          refine ⟨?_, (mem_byOutcome os o n).mp hm⟩
          cases o <;> simp at hne ⊢
  · rintro ⟨ho, hm⟩
    have hb := (mem_byOutcome os o n).mpr hm
    refine ⟨.entry o n, ⟨section_ os o, ⟨o, ?_, rfl⟩, ?_⟩, rfl⟩
    · unfold outcomeKeys
      rw [List.mem_eraseDups]
      simp only [List.mem_append, List.mem_map]
      exact Or.inl (Or.inl ⟨_, hm, rfl⟩)
    · unfold section_
      rw [if_neg (by rcases ho with rfl | rfl <;> simp),
        if_neg (by
          rw [List.length_eq_zero_iff]
          intro h0
          rw [h0] at hb
          simp at hb)]
      exact List.mem_cons_of_mem _ (List.mem_map.mpr ⟨n, hb, rfl⟩)

theorem totals_total (os : List (Outcome × String)) (ks : List Outcome) (o : Outcome) (n : Nat) :
    (o, n) ∈ totals ((ks.map (totalLine os)).flatten) ↔
      o ∈ ks ∧ n = (byOutcome os o).length ∧ n ≠ 0 := by
  unfold totals
  simp only [List.mem_filterMap, List.mem_flatten, List.mem_map]
  constructor
  · rintro ⟨l, ⟨ls, ⟨k, hk, rfl⟩, hl⟩, he⟩
    unfold totalLine at hl
    split at hl
    · simp at hl
    · rename_i hne
      rcases List.mem_singleton.mp hl with rfl
      cases he
      exact ⟨hk, rfl, by simpa using hne⟩
  · rintro ⟨hk, rfl, hn⟩
    refine ⟨.total o (byOutcome os o).length, ⟨totalLine os o, ⟨o, hk, rfl⟩, ?_⟩, rfl⟩
    unfold totalLine
    rw [if_neg (by simpa using hn)]
    simp

/-- C49, the totals: the number printed for an outcome is the number of verdicts with that outcome, and
an outcome without verdicts is not printed. -/
theorem C49_totals (results : List TestResult) (expected : List String) (config : String)
    (failed : TestResult → Bool) (h : ∀ r ∈ results, testFailed r = .ok (failed r)) :
    ∃ lines flag, reportResults results expected config = .ok (lines, flag) ∧
      ∀ (o : Outcome) (n : Nat), (o, n) ∈ totals lines ↔
        n = (verdicts lines).countP (fun e => e.1 = o) ∧ n ≠ 0 := by
  obtain ⟨os, h1, h2, h3⟩ := classify_all (ex := expected) results h
  refine ⟨_, _, by unfold reportResults; rw [h1]; rfl, ?_⟩
  intro o n
  have e : verdicts (if hadUnexpected os then [.unexpectedSummary config] else []) = [] := by
    split <;> rfl
  have e' : totals (if hadUnexpected os then [.unexpectedSummary config] else []) = [] := by
    split <;> rfl
  simp only [verdicts_append, verdicts_verdict, verdicts_section, verdicts_total, e,
    totals_append, totals_verdict, totals_section, e']
  have e1 : verdicts [Line.summary] = [] := rfl
  have e2 : totals [Line.summary] = [] := rfl
  rw [e1, e2]
  simp only [List.append_nil, List.nil_append]
  rw [totals_total]
  unfold byOutcome
  rw [List.length_map, List.countP_eq_length_filter]
  constructor
  · rintro ⟨_, h4, h5⟩; exact ⟨h4, h5⟩
  · rintro ⟨h4, h5⟩; exact ⟨by cases o <;> simp, h4, h5⟩

/-- C49, the exit status: for a run with valid arguments that selects some test, the process exits with 0
exactly if failures are ignored or no result is unexpected. -/
theorem C49_exit (a : Run) (runTests : List String → List TestResult) (failed : TestResult → Bool)
    (hv : ∀ n ∈ a.doNotAttempt.getD [], n ∈ a.registry)
    (hs : ∃ n ∈ a.registry, n ∉ a.doNotAttempt.getD [] ∧ n ∉ a.crashing ∧ a.filter n = true)
    (h : ∀ r ∈ runTests a.selected, testFailed r = .ok (failed r)) :
    ∃ code, mainExit a runTests = .ok code ∧
      (code = 0 ↔ a.ignoreFailures = true ∨
        ¬ ∃ r ∈ runTests a.selected, Unexpected failed a.xfail r) ∧ code ≤ 1 := by
  obtain ⟨lines, flag, e1, e2⟩ := C49_flag (runTests a.selected) a.xfail a.config failed h
  have hsel : a.selected ≠ [] := by
    obtain ⟨n, h1, h2, h3, h4⟩ := hs
    apply List.ne_nil_of_mem (a := n)
    unfold Run.selected
    rw [List.mem_filter, List.mem_filter]
    refine ⟨⟨h1, ?_⟩, h4⟩
    have : n ∉ a.excluded := by
      unfold Run.excluded
      rw [List.mem_append]
      rintro (h | h)
      · exact h2 h
      · exact h3 h
    simpa using this
  have hany : ((a.doNotAttempt.getD []).any fun n => !a.registry.contains n) = false := by
    rw [List.any_eq_false]
    intro n hn
    simpa using hv n hn
  refine ⟨if a.ignoreFailures then 0 else (if flag then 1 else 0), ?_, ?_, ?_⟩
  · unfold mainExit
    rw [hany, e1]
    simp only [Bool.false_eq_true, if_false, List.length_eq_zero_iff, hsel]
    cases a.ignoreFailures <;> rfl
  · rw [← e2]
    cases a.ignoreFailures <;> cases flag <;> simp
  · cases a.ignoreFailures <;> cases flag <;> simp

/-- C49: a run that selects nothing, or names an unknown test, exits with 1 without running anything. -/
theorem C49_exit_nothing (a : Run) (runTests : List String → List TestResult)
    (h : (∃ n ∈ a.doNotAttempt.getD [], n ∉ a.registry) ∨
      ∀ n ∈ a.registry, n ∈ a.doNotAttempt.getD [] ∨ n ∈ a.crashing ∨ a.filter n = false) :
    mainExit a runTests = .ok 1 := by
  unfold mainExit
  by_cases h1 : ((a.doNotAttempt.getD []).any fun n => !a.registry.contains n) = true
  · rw [if_pos h1]
  · rw [if_neg h1]
    rcases h with ⟨n, h2, h3⟩ | h
    · exact absurd (List.any_eq_true.mpr ⟨n, h2, by simpa using h3⟩) h1
    · rw [if_pos]
      rw [List.length_eq_zero_iff]
      unfold Run.selected
      rw [List.filter_eq_nil_iff]
      intro n hn
      rw [List.mem_filter] at hn
      obtain ⟨h2, h3⟩ := hn
      have h4 : n ∉ a.excluded := by simpa using h3
      unfold Run.excluded at h4
      rw [List.mem_append] at h4
      rcases h n h2 with h | h | h
      · exact absurd (Or.inl h) h4
      · exact absurd (Or.inr h) h4
      · simp [h]

/-- Four tests, one under each outcome. -/
example : reportResults
    [⟨"a", none, none, [], []⟩, ⟨"b", some "x", none, [], []⟩, ⟨"c", none, some "y", [], []⟩,
      ⟨"d", none, none, [], []⟩] ["c", "d"] "linalg" =
    .ok ([.verdict .pass "a", .verdict .fail "b", .verdict .xfail "c", .verdict .xpass "d",
      .unexpectedSummary "linalg", .heading .fail 1, .entry .fail "b", .heading .xpass 1,
      .entry .xpass "d", .summary, .total .pass 1, .total .fail 1, .total .xfail 1, .total .xpass 1],
      true) := by with_unfolding_all rfl

end Verif
