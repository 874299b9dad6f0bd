import Verif.Lemmas.ListInterp

/-!
# C76: interpreting operations on a list within a block
-/

namespace Verif
open ListInterp
open Fold (V)

variable {W E : Type}

/-- **C76.**  Where the pattern rewrites a block, the new block ends as the old one: with an exception when that does, in the
same world and with the same contents of all other lists, and its last literal has the contents of the list.  The list
itself is not put into another list (`NotNested`). -/
theorem C76_preserves_partial (S : Sem W E) (k : V → Option Int) (hS : S.Ok k) (L : V) (es : List V) (bound : V)
    (ops ops' : List Op) (seen : List V) (hssa : Ssa seen (.construct L es :: ops)) (hseen : ∀ v ∈ seen, v < bound)
    (hres : ∀ o ∈ Op.construct L es :: ops, ∀ n ∈ o.results, n < bound) (hnn : NotNested L ops)
    (h : pattern L es k bound ops = .block ops') :
    ∃ t, bound ≤ t ∧ ∀ (w : W) (σ : V → List E),
      SameEnd L t bound (exec S (.construct L es :: ops) (w, σ)) (exec S ops' (w, σ)) := by
  unfold pattern at h
  cases hl : literals L k es ops with
  | none => rw [hl] at h; cases h
  | some p =>
    obtain ⟨lits, gen⟩ := p
    rw [hl] at h
    dsimp only at h
    split at h
    · cases h
    · cases hr : rewrite L lits bound (bound + 1) ops with
      | none => rw [hr] at h; cases h
      | some q =>
        obtain ⟨ops1, last⟩ := q
        rw [hr] at h
        injection h with h
        subst h
        have hLB : L < bound := hres (.construct L es) (by simp) L (by simp [Op.results])
        have hLs : L ∉ seen := hssa.2.1 L (by simp [Op.results])
        have hes : L ∉ es := fun hm => hLs (hssa.1 L hm)
        refine ⟨last, rewrite_last _ _ _ _ _ _ (Nat.le_refl _) (Nat.le_succ _) hr, fun w σ => ?_⟩
        rw [exec, exec]
        simp only [step]
        refine (rewrite_sim hS hLB ops es (seen ++ [L]) lits gen bound (bound + 1) ops1 last w _ _ hl hr (Nat.le_refl _)
          (Nat.le_succ _) ?_ ?_ hssa.2.2 (by simp) (fun v hv => List.mem_append_left _ (hssa.1 v hv)) hes ?_
          (fun o ho => hres o (List.mem_cons_of_mem _ ho)) hnn).2
        · simp [upd]
        · refine ⟨by simp [upd], fun n hn hnL => ?_⟩
          rw [upd, upd, if_neg (nat_ne hn), if_neg hnL]
        · intro v hv
          rcases List.mem_append.1 hv with hv | hv
          · exact hseen v hv
          · rw [List.mem_singleton.1 hv]; exact hLB

/-- … and it is well formed. -/
theorem C76_well_formed_partial (k : V → Option Int) (L : V) (es : List V) (bound : V) (ops ops' : List Op) (seen : List V)
    (hssa : Ssa seen (.construct L es :: ops)) (hseen : ∀ v ∈ seen, v < bound)
    (hres : ∀ o ∈ Op.construct L es :: ops, ∀ n ∈ o.results, n < bound) (hnn : NotNested L ops)
    (h : pattern L es k bound ops = .block ops') : Ssa seen ops' := by
  unfold pattern at h
  cases hl : literals L k es ops with
  | none => rw [hl] at h; cases h
  | some p =>
    obtain ⟨lits, gen⟩ := p
    rw [hl] at h
    dsimp only at h
    split at h
    · cases h
    · cases hr : rewrite L lits bound (bound + 1) ops with
      | none => rw [hr] at h; cases h
      | some q =>
        obtain ⟨ops1, last⟩ := q
        rw [hr] at h
        injection h with h
        subst h
        have hLB : L < bound := hres (.construct L es) (by simp) L (by simp [Op.results])
        have hLs : L ∉ seen := hssa.2.1 L (by simp [Op.results])
        have hes : L ∉ es := fun hm => hLs (hssa.1 L hm)
        refine ⟨hssa.1, ?_, ?_⟩
        · intro r hr hm
          simp only [Op.results, List.mem_singleton] at hr
          subst hr
          exact Nat.lt_irrefl _ (hseen _ hm)
        · refine rewrite_ssa hLB ops es (seen ++ [L]) _ lits gen bound (bound + 1) ops1 last hl hr (Nat.le_refl _)
            (Nat.le_succ _) (by simp [Op.results]) ?_ hssa.2.2 (fun v hv => List.mem_append_left _ (hssa.1 v hv)) hes ?_
            (fun o ho => hres o (List.mem_cons_of_mem _ ho)) hnn
          · refine ⟨fun v hv hvL => ?_, fun v hv => ?_⟩
            · rcases List.mem_append.1 hv with hv | hv
              · exact List.mem_append_left _ hv
              · exact absurd (List.mem_singleton.1 hv) hvL
            · rcases List.mem_append.1 hv with hv | hv
              · exact Or.inl (List.mem_append_left _ hv)
              · simp only [Op.results, List.mem_singleton] at hv
                subst hv
                exact Or.inr ⟨Nat.le_refl _, Nat.lt_succ_self _⟩
          · intro v hv
            rcases List.mem_append.1 hv with hv | hv
            · exact hseen v hv
            · rw [List.mem_singleton.1 hv]; exact hLB

/-- **C76 (definedness).**  The pattern's behaviour is defined if no operation the pattern does not understand comes in front
of one it does. -/
theorem C76_defined_partial (k : V → Option Int) (L : V) (es : List V) (bound : V) (ops : List Op)
    (h : NoEarlierUnknown L ops) : pattern L es k bound ops ≠ .undef := by
  unfold pattern
  cases hl : literals L k es ops with
  | none => simp
  | some p =>
    obtain ⟨lits, gen⟩ := p
    dsimp only
    split
    · simp
    · have := rewrite_defined ops es lits gen bound (bound + 1) hl h
      cases hr : rewrite L lits bound (bound + 1) ops with
      | none => exact absurd hr this
      | some q => simp

/-- **C76 (progress).**  If everything that happens to the list is understood and something does, the pattern applies, and
afterwards neither the list nor any of the new literals is mutated. -/
theorem C76_applies (k : V → Option Int) (L : V) (es : List V) (bound : V) (ops : List Op)
    (hB : ∀ o ∈ ops, ∀ n ∈ o.operands, n < bound) (hnn : NotNested L ops) (hu : Understood L k es.length ops)
    (hc : ∃ o ∈ ops, L ∈ o.target) :
    ∃ ops', pattern L es k bound ops = .block ops' ∧ ∀ o ∈ ops', ∀ t ∈ o.target, t ≠ L ∧ t < bound := by
  obtain ⟨lits, gen, ops1, last, h1, h2, h3, h4⟩ :=
    understood_applies (B := bound) ops es bound (bound + 1) hu hnn (Nat.le_refl _) (Nat.le_succ _) hB
  have hg := h3.2 hc
  subst hg
  refine ⟨.construct bound es :: ops1.map (Op.subst L last), by unfold pattern; rw [h1]; simp [h2], fun o ho => ?_⟩
  rcases List.mem_cons.1 ho with rfl | ho
  · intro t ht; simp [Op.target] at ht
  · obtain ⟨p, hp, rfl⟩ := List.mem_map.1 ho
    rw [target_subst (fun hm => (h4 p hp L hm).1 rfl)]
    exact h4 p hp

/-- **C76 (no dangling results).**  An operation whose result is used is not erased. -/
theorem C76_used_kept (k : V → Option Int) (L : V) (es : List V) (bound : V) (ops ops' : List Op) (hL : L < bound)
    (h : pattern L es k bound ops = .block ops') :
    ∀ o ∈ ops, o.resultUsed = true → ∃ t, o.subst L t ∈ ops' := by
  unfold pattern at h
  cases hl : literals L k es ops with
  | none => rw [hl] at h; cases h
  | some p =>
    obtain ⟨lits, gen⟩ := p
    rw [hl] at h
    dsimp only at h
    split at h
    · cases h
    · cases hr : rewrite L lits bound (bound + 1) ops with
      | none => rw [hr] at h; cases h
      | some q =>
        obtain ⟨ops1, last⟩ := q
        rw [hr] at h
        injection h with h
        subst h
        intro o ho hused
        obtain ⟨t, ht⟩ := rewrite_kept hL ops es lits gen bound (bound + 1) ops1 last hl hr (Nat.le_refl _) (Nat.le_succ _)
          o ho hused
        exact ⟨t, List.mem_cons_of_mem _ ht⟩

/-! ## Violations -/

/-- After an operation the pattern does not understand, the first loop stops, the second does not: it reads past the end of
the vector of literals. -/
theorem C76_unknown_violated (k : V → Option Int) (s : Nat) :
    pattern 3 [0] k 9 [.append 3 1 false, .mutate s [3] 4 false, .append 3 2 false] = .undef := by
  simp [pattern, literals, Op.uses, Op.operands, Op.self?, Op.apply, Op.mutates, addLiteral, rewrite, Op.nested, consOp]

/-- A list put into another list and appended to afterwards: the first list's name is replaced by that of a literal made
later.  The new block is not well formed. -/
theorem C76_nested_violated :
    ∃ (seen : List V) (ops ops' : List Op), Ssa seen (.construct 3 [0] :: ops)
      ∧ pattern 3 [0] (fun _ => none) 9 ops = .block ops' ∧ ¬Ssa seen ops' := by
  refine ⟨[0, 1, 2], [.append 2 3 false, .append 3 1 false],
    [.construct 9 [0], .construct 10 [0], .append 2 11 false, .construct 11 [0, 1]], ?_, by decide +kernel, ?_⟩
  · simp [Ssa, Op.operands, Op.results]
  · simp [Ssa, Op.operands, Op.results]

/-! ## Cases -/

/-- `l = [a]; l.append(b); read l; l[0] = b; l.insert(1, c); read l`. -/
example : pattern 5 [0] (fun v => if v = 3 then some 0 else if v = 4 then some 1 else none) 9
      [.append 5 1 false, .read 7 [5] 6, .setItem 5 3 1 false, .insert 5 4 2, .read 8 [5] 7]
    = .block [.construct 9 [0], .construct 10 [0, 1], .read 7 [10] 6, .construct 11 [1, 1], .construct 12 [1, 2, 1],
        .read 8 [12] 7] := by decide +kernel

/-- An operation that mutates the list in a region stops the interpretation. -/
example : pattern 5 [0] (fun _ => none) 9 [.append 5 1 false, .mutate 7 [5] 6 true, .append 5 2 false]
    = .block [.construct 9 [0], .construct 10 [0, 1], .mutate 7 [10] 6 true, .append 10 2 false] := by decide +kernel

/-- An append whose result is used, behind a mutation in a region, is kept; in front of it the pattern gives up. -/
example : pattern 5 [0] (fun _ => none) 9 [.append 5 1 false, .mutate 7 [5] 6 true, .append 5 2 true]
      = .block [.construct 9 [0], .construct 10 [0, 1], .mutate 7 [10] 6 true, .append 10 2 true]
    ∧ pattern 5 [0] (fun _ => none) 9 [.append 5 1 true, .mutate 7 [5] 6 true] = .failure := by
  refine ⟨?_, ?_⟩ <;> decide +kernel

/-- Worlds: the values of names. -/
def listSem : Sem (V → Int) Int where
  val := fun w v => w v
  idx := fun _ v => if v = 3 then 0 else 1
  rd := fun _ r cs w v => if v = r then ((cs.map List.sum).sum : Int) else w v
  mu := fun _ r cs w => (cs.map List.reverse, fun v => if v = r then 1 else w v)

example : listSem.Ok (fun v => if v = 3 then some 0 else none) :=
  ⟨fun _ r cs w v h => by simp [listSem, h], fun _ r cs w v h => by simp [listSem, h], fun v c w h => by
    by_cases e : v = 3
    · subst e; simp at h; simp [listSem, ← h]
    · simp [e] at h⟩

example : Ssa [0, 1, 2, 3, 4] [.construct 5 [0], .append 5 1 false, .read 7 [5] 6, .setItem 5 3 1 false]
    ∧ NotNested 5 [.append 5 1 false, .read 7 [5] 6, .setItem 5 3 1 false]
    ∧ Understood 5 (fun v => if v = 3 then some 0 else none) 1 [.append 5 1 false, .read 7 [5] 6, .setItem 5 3 1 false] := by
  refine ⟨by simp [Ssa, Op.operands, Op.results], by simp [NotNested, Op.plainOperands], by simp [Understood]⟩

end Verif
