import Verif.Lemmas.Unroll

/-!
# C77: unrolling loops
-/

namespace Verif
open Unroll
open Fold (V)

variable {W E : Type}

/-- **C77.**  Where the pattern unrolls a loop that never stops before its trip count, the new block does what the loop and
the operations after it did: it raises if they do, and otherwise ends in the same world, with the same values of all names,
and with the values of the loop's results in the names that replace them. -/
theorem C77_preserves_partial (S : Sem W E) (g : Ctx) (L : Loop) (after ops : List Op) (seen values : List V) (bound : V)
    (hok : L.Ok seen) (hafter : Ssa (seen ++ L.results) after) (hseen : ∀ v ∈ seen ++ L.results, v < bound)
    (hres : ∀ o ∈ after, ∀ r ∈ o.res, r < bound) (h : pattern g L after bound = .block ops values)
    (w : W) (σ : V → E) (hg : Consistent S g σ) (hc : Continues S L σ) :
    SameEnd L values bound (execLoop S L after (w, σ)) (exec S ops (w, σ)) := by
  have hs : ∀ v ∈ seen, v < bound := fun v hv => hseen v (List.mem_append_left _ hv)
  unfold pattern at h
  split at h
  · cases h
  split at h
  · cases h
  · rename_i hf
    have hcond : S.truthy (σ L.initialCondition) = true := by
      have : g.bool L.initialCondition = some true := by simpa [Ctx.isForLike] using hf
      exact hg.2 _ _ this
    cases hi : g.int L.maxTripCount with
    | none => rw [hi] at h; cases h
    | some c =>
      rw [hi] at h
      dsimp only at h
      have hct := hg.1 _ _ hi
      rw [execLoop, hct, hcond]
      split at h
      · rename_i hc0
        have hz : c.toNat = 0 := by omega
        rw [hz, runLoop]
        dsimp only
        cases hn : noIterations L c with
        | none => rw [hn] at h; cases h
        | some vs =>
          rw [hn] at h
          injection h with h1 h2
          subst h1 h2
          have hvs : vs = L.inits := by
            rw [noIterations] at hn
            split at hn
            · injection hn with hn; exact hn.symm
            · cases hy : L.yields with
              | nil =>
                rw [hy] at hn
                simp only [lookupAll, Option.some.injEq] at hn
                have h1 := hok.len_yield
                rw [hy] at h1
                have h2 := hok.len_init
                rw [← h1] at h2
                rw [← hn, List.length_eq_zero_iff.1 h2]
              | cons y ys => rw [hy] at hn; simp [lookupAll, Mapping.find] at hn
          subst hvs
          have hlen : L.inits.length = L.results.length := by rw [hok.len_init, hok.len_result]
          refine after_sim S hok.results hlen after (seen ++ L.results) w _ _ ⟨fun n _ hn => ?_, ?_⟩ hafter hseen hres
            (fun r hr => List.mem_append_right _ hr) (fun a ha => Or.inl (List.mem_append_left _ (hok.inits a ha)))
          · rw [setAll_other _ _ _ _ hn]
          · rw [setAll_map _ _ _ hok.results (by rw [List.length_map, hlen])]
      · rename_i hc0
        cases hit : iterations L bound c.toNat 0 L.inits (bound + c.toNat) with
        | none => rw [hit] at h; cases h
        | some p =>
          obtain ⟨its, vs⟩ := p
          rw [hit] at h
          injection h with h1 h2
          subst h1 h2
          obtain ⟨τ, e1, e2, e3⟩ := indices_exec S bound w c.toNat σ
          rw [List.append_assoc, exec_append, e1]
          dsimp only
          rw [exec_append]
          have hle : bound ≤ bound + c.toNat := Nat.le_add_right _ _
          have hsim := iterations_sim S hok hs hc (Nat.le_refl bound) c.toNat 0 L.inits _ (L.inits.map σ) w τ its vs hit hle
            (List.map_congr_left fun v hv => e3 v (hs v (hok.inits v hv))) hok.len_init
            (fun a ha => Nat.lt_of_lt_of_le (hs a (hok.inits a ha)) hle) (fun a ha => Or.inl (hok.inits a ha))
            (fun v hv => e3 v (hs v hv))
            (fun j _ hj => ⟨e2 j (by omega), Nat.add_lt_add_left (by omega) _⟩)
          rcases hsim with ⟨e4, e5⟩ | ⟨w', vals', τ', e4, e5, h6, h7, h8, h9⟩
          · rw [e4, e5]; trivial
          · rw [e4, e5]
            dsimp only
            have hlen : vs.length = L.results.length := by rw [h8, hok.len_result]
            refine after_sim S hok.results hlen after (seen ++ L.results) w' _ _ ⟨fun n hn hnr => ?_, ?_⟩ hafter hseen hres
              (fun r hr => List.mem_append_right _ hr) (fun a ha => (h9 a ha).imp (List.mem_append_left _) id)
            · rw [setAll_other _ _ _ _ hnr, h7 n (Nat.lt_of_lt_of_le hn hle), e3 n hn]
            · rw [h6, setAll_map _ _ _ hok.results (by rw [← h6, List.length_map, hlen])]

/-- **C77 (well-formedness).**  In the new block every name is defined once, before it is used, and so are the names that
replace the loop's results. -/
theorem C77_well_formed (g : Ctx) (L : Loop) (after ops : List Op) (seen values : List V) (bound : V)
    (hok : L.Ok seen) (hafter : Ssa (seen ++ L.results) after) (hseen : ∀ v ∈ seen ++ L.results, v < bound)
    (hres : ∀ o ∈ after, ∀ r ∈ o.res, r < bound) (h : pattern g L after bound = .block ops values) :
    Ssa seen ops ∧ (∀ a ∈ values, a ∈ seen ++ ops.flatMap Op.res) ∧ values.length = L.results.length := by
  have hs : ∀ v ∈ seen, v < bound := fun v hv => hseen v (List.mem_append_left _ hv)
  unfold pattern at h
  split at h
  · cases h
  split at h
  · cases h
  · cases hi : g.int L.maxTripCount with
    | none => rw [hi] at h; cases h
    | some c =>
      rw [hi] at h
      dsimp only at h
      split at h
      · cases hn : noIterations L c with
        | none => rw [hn] at h; cases h
        | some vs =>
          rw [hn] at h
          injection h with h1 h2
          subst h1 h2
          have hvs : (∀ a ∈ vs, a ∈ seen) ∧ vs.length = L.params.length := by
            rw [noIterations] at hn
            split at hn
            · injection hn with hn; subst hn; exact ⟨hok.inits, hok.len_init⟩
            · cases hy : L.yields with
              | nil =>
                rw [hy] at hn
                simp only [lookupAll, Option.some.injEq] at hn
                subst hn
                have h1 := hok.len_yield
                rw [hy] at h1
                exact ⟨by simp, h1⟩
              | cons y ys => rw [hy] at hn; simp [lookupAll, Mapping.find] at hn
          have hlen : vs.length = L.results.length := by rw [hvs.2, hok.len_result]
          refine ⟨after_ssa hok.results hlen after (seen ++ L.results) seen hafter hres
            (fun r hr => List.mem_append_right _ hr) (fun v hv hn => ?_) hvs.1 (fun a ha => Or.inl (List.mem_append_left _ ha)),
            fun a ha => List.mem_append_left _ (hvs.1 a ha), hlen⟩
          rcases List.mem_append.1 hv with hv | hv
          · exact hv
          · exact absurd hv hn
      · cases hit : iterations L bound c.toNat 0 L.inits (bound + c.toNat) with
        | none => rw [hit] at h; cases h
        | some p =>
          obtain ⟨its, vs⟩ := p
          rw [hit] at h
          injection h with h1 h2
          subst h1 h2
          have hle : bound ≤ bound + c.toNat := Nat.le_add_right _ _
          obtain ⟨b1, b2, b3, b4⟩ := iterations_ssa hok bound c.toNat 0 L.inits (bound + c.toNat)
            (seen ++ (indices bound c.toNat).flatMap Op.res) its vs hit hok.len_init (fun v hv => List.mem_append_left _ hv)
            (fun a ha => List.mem_append_left _ (hok.inits a ha))
            (fun a ha => by
              rcases List.mem_append.1 ha with ha | ha
              · exact Nat.lt_of_lt_of_le (hs a ha) hle
              · exact ((indices_res _ _ _).1 ha).2)
            (fun j _ hj => List.mem_append_right _ ((indices_res _ _ _).2
              ⟨Nat.le_add_right _ _, Nat.add_lt_add_left (by omega) _⟩))
          have hlen : vs.length = L.results.length := by rw [b4, hok.len_result]
          refine ⟨?_, fun a ha => ?_, hlen⟩
          · refine ssa_append _ _ _ (ssa_append _ _ _ (indices_ssa bound c.toNat seen hs) b1) ?_
            refine after_ssa hok.results hlen after (seen ++ L.results) _ hafter hres
              (fun r hr => List.mem_append_right _ hr) (fun v hv hn => ?_) (fun a ha => ?_) (fun a ha => ?_)
            · rcases List.mem_append.1 hv with hv | hv
              · exact List.mem_append_left _ hv
              · exact absurd hv hn
            · simpa [List.flatMap_append, List.append_assoc] using b2 a ha
            · rcases List.mem_append.1 ha with ha | ha
              · exact Or.inl (List.mem_append_left _ ha)
              · rw [List.flatMap_append] at ha
                rcases List.mem_append.1 ha with ha | ha
                · exact Or.inr ((indices_res _ _ _).1 ha).1
                · obtain ⟨o, ho, hr⟩ := List.mem_flatMap.1 ha
                  exact Or.inr (Nat.le_trans hle (b3 o ho a hr))
          · have := b2 a ha
            simp only [List.flatMap_append, List.mem_append] at this ⊢
            tauto

/-- **C77 (definedness).**  The pattern trips over its assertion exactly if it matches and the trip count is negative although
the loop has results, or positive although the loop yields a value defined outside. -/
theorem C77_undef_iff (g : Ctx) (L : Loop) (after : List Op) (seen : List V) (bound : V) (hok : L.Ok seen) :
    pattern g L after bound = .undef ↔
      g.inCalculate = true ∧ g.bool L.initialCondition = some true ∧
        ∃ c, g.int L.maxTripCount = some c ∧ ((c < 0 ∧ L.results ≠ []) ∨ (0 < c ∧ ¬L.YieldsOwn)) := by
  have hl : L.yields.length = L.results.length := by rw [hok.len_yield, hok.len_result]
  unfold pattern Ctx.isForLike
  cases hcalc : g.inCalculate
  · simp
  cases hf : (g.bool L.initialCondition == some true)
  · have : g.bool L.initialCondition ≠ some true := by simpa using hf
    simp [this]
  have hf' : g.bool L.initialCondition = some true := by simpa using hf
  cases hi : g.int L.maxTripCount with
  | none => simp
  | some c =>
    simp only [Bool.not_true, Bool.false_eq_true, if_false, hf', true_and, Option.some.injEq, exists_eq_left']
    split
    · rename_i hc
      unfold noIterations
      by_cases h0 : c = 0
      · subst h0; simp
      · rw [if_neg h0]
        have hneg : c < 0 := by omega
        cases hy : L.yields with
        | nil =>
          rw [hy] at hl
          have hr : L.results = [] := List.length_eq_zero_iff.1 hl.symm
          have h1 : ¬(0 < c) := by omega
          simp [lookupAll, hr, h1]
        | cons y ys =>
          rw [hy] at hl
          have hr : L.results ≠ [] := by intro e; rw [e] at hl; simp at hl
          simp [lookupAll, Mapping.find, hneg, hr]
    · rename_i hc
      have h1 : ¬(c < 0) := by omega
      have h2 : 0 < c := by omega
      by_cases hown : L.YieldsOwn
      · have := iterations_own hok.len_yield hown bound c.toNat 0 L.inits (bound + c.toNat) hok.len_init
        cases hit : iterations L bound c.toNat 0 L.inits (bound + c.toNat) with
        | none => exact absurd hit this
        | some p => simp [hown, h1]
      · obtain ⟨n, hn⟩ : ∃ n, c.toNat = n + 1 := ⟨c.toNat - 1, by omega⟩
        rw [hn, iterations_not_own hown bound n 0 L.inits _ hok.len_init]
        simp [hown, h2]

/-- **C77 (progress).**  Every for-like loop in a calculation with a constant trip count that is not negative, and which
yields values of its own, is unrolled. -/
theorem C77_applies (g : Ctx) (L : Loop) (after : List Op) (seen : List V) (bound : V) (hok : L.Ok seen)
    (hcalc : g.inCalculate = true) (hf : g.bool L.initialCondition = some true) (c : Int)
    (hi : g.int L.maxTripCount = some c) (h0 : 0 ≤ c) (hown : L.YieldsOwn) :
    ∃ ops values, pattern g L after bound = .block ops values := by
  cases h : pattern g L after bound with
  | block ops values => exact ⟨ops, values, rfl⟩
  | undef =>
    obtain ⟨_, _, c', hc', h⟩ := (C77_undef_iff g L after seen bound hok).1 h
    rw [hi] at hc'
    injection hc' with hc'
    subst hc'
    rcases h with ⟨h, _⟩ | ⟨_, h⟩
    · omega
    · exact absurd hown h
  | failure =>
    exfalso
    unfold pattern Ctx.isForLike at h
    simp only [hcalc, hf, hi, Bool.not_true, Bool.false_eq_true, if_false, beq_self_eq_true] at h
    split at h
    · split at h <;> cases h
    · split at h <;> cases h

/-! ## Violations -/

/-- Integers; site 0 adds its operands, site 1 tells whether its operand is zero, site 2 counts in the world. -/
def loopSem : Sem Nat Int where
  int := id
  toInt := id
  truthy := fun e => e ≠ 0
  run := fun s vs w =>
    if s = 0 then some (fun _ => vs.sum, w)
    else if s = 1 then some (fun _ => if vs.sum = 0 then 1 else 0, w)
    else some (fun _ => 0, w + 1)

/-- `for i in range(n): x = x + i`, with a counter: names 0 `n`, 1 the condition, 2 the start. -/
def sumLoop : Loop :=
  ⟨0, 1, [2], [3], 4, [5], [.call [6] 2 [], .call [7] 0 [5, 4]], 1, [7]⟩

/-- The same loop stops after its first iteration with `i ≠ 0`. -/
def stopLoop : Loop :=
  ⟨0, 1, [2], [3], 4, [5], [.call [6] 2 [], .call [7] 0 [5, 4], .call [8] 1 [4]], 8, [7]⟩

/-- A loop yielding a value from outside. -/
def outerLoop : Loop := ⟨0, 1, [2], [3], 4, [5], [], 1, [2]⟩

def loopCtx (n : Int) : Ctx where
  inCalculate := true
  int := fun v => if v = 0 then some n else none
  bool := fun v => if v = 1 then some true else none

def loopStart (n : Int) : V → Int := fun v => if v = 0 then n else if v = 1 then 1 else if v = 2 then 10 else 0

theorem sumLoop_ok : sumLoop.Ok [0, 1, 2] := by
  constructor <;> simp [sumLoop, Ssa, Op.args, Op.res, Loop.scope]

theorem stopLoop_ok : stopLoop.Ok [0, 1, 2] := by
  constructor <;> simp [stopLoop, Ssa, Op.args, Op.res, Loop.scope]

theorem outerLoop_ok : outerLoop.Ok [0, 1, 2] := by
  constructor <;> simp [outerLoop, Ssa, Loop.scope]

/-- `isForLike` only looks at the condition before the first iteration: a loop that stops is unrolled to its trip count. -/
theorem C77_condition_violated :
    ∃ ops values, pattern (loopCtx 4) stopLoop [] 9 = .block ops values
      ∧ Consistent loopSem (loopCtx 4) (loopStart 4)
      ∧ (execLoop loopSem stopLoop [] (0, loopStart 4)).map (·.1) = some 2
      ∧ (exec loopSem ops (0, loopStart 4)).map (·.1) = some 4 := by
  refine ⟨_, _, rfl, ⟨fun v c h => ?_, fun v b h => ?_⟩, by decide +kernel, by decide +kernel⟩
  · simp only [loopCtx] at h
    split at h
    · rename_i hv; subst hv; injection h
    · cases h
  · simp only [loopCtx] at h
    split at h
    · rename_i hv; subst hv; cases h; rfl
    · cases h

/-- A loop that yields a value defined outside it, and a loop with a negative trip count. -/
theorem C77_undef_violated :
    pattern (loopCtx 1) outerLoop [] 9 = .undef ∧ pattern (loopCtx (-1)) sumLoop [] 9 = .undef := by
  refine ⟨?_, ?_⟩ <;> decide +kernel

/-! ## Cases -/

example : pattern (loopCtx 2) sumLoop [.call [8] 0 [3, 2]] 9
    = .block [.const 9 0, .const 10 1, .call [11] 2 [], .call [12] 0 [2, 9], .call [13] 2 [], .call [14] 0 [12, 10],
        .call [8] 0 [14, 2]] [14] := by decide +kernel

example : sumLoop.YieldsOwn := by simp [Loop.YieldsOwn, sumLoop, Op.res]

example (n : Int) : Continues loopSem sumLoop (loopStart n) := by
  intro i vals w w' σ' h
  have : σ' 1 = 1 := by
    simp only [sumLoop, exec, step, loopSem] at h
    simp only [Nat.reduceEqDiff, ↓reduceIte, Option.some.injEq, Prod.mk.injEq] at h
    rw [← h.2]
    rw [setAll_other _ _ _ _ (by decide), setAll_other _ _ _ _ (by decide), setAll_other _ _ _ _ (by decide),
      set1_ne (by decide)]
    rfl
  show decide (σ' 1 ≠ 0) = true
  rw [this]; decide

end Verif
