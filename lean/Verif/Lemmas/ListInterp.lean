import Verif.Spec.ListInterp

namespace Verif.ListInterp
open Fold (V)

variable {W E : Type}

theorem nat_ne {a b : Nat} (h : a < b) : a ≠ b := by omega

def Rel (L t B : V) (σ σ' : V → List E) : Prop := σ' t = σ L ∧ ∀ n, n < B → n ≠ L → σ' n = σ n

theorem read_eq {L t B : V} {σ σ' : V → List E} (h : Rel L t B σ σ') {l : V} (hl : l < B) : σ' (sub L t l) = σ l := by
  unfold sub
  by_cases e : l = L
  · rw [if_pos e, h.1, e]
  · rw [if_neg e, h.2 l hl e]

theorem reads_eq {L t B : V} {σ σ' : V → List E} (h : Rel L t B σ σ') {ls : List V} (hl : ∀ l ∈ ls, l < B) :
    (ls.map (sub L t)).map σ' = ls.map σ := by
  rw [List.map_map]
  exact List.map_congr_left fun l hm => read_eq h (hl l hm)

theorem upd_rel {L t B : V} {σ σ' : V → List E} (ht : B ≤ t) (h : Rel L t B σ σ') {l : V} (hl : l < B) (c : List E) :
    Rel L t B (upd σ l c) (upd σ' (sub L t l) c) := by
  have hlt : ∀ n : V, n < B → n ≠ t := fun n hn => nat_ne (Nat.lt_of_lt_of_le hn ht)
  unfold Rel upd sub
  by_cases e : l = L
  · subst e
    refine ⟨by simp, fun n hn hne => ?_⟩
    rw [if_pos rfl, if_neg (hlt n hn), if_neg hne]
    exact h.2 n hn hne
  · refine ⟨?_, fun n hn hne => ?_⟩
    · rw [if_neg e, if_neg (Ne.symm (hlt l hl)), if_neg (Ne.symm e)]
      exact h.1
    · rw [if_neg e]
      by_cases en : n = l
      · rw [if_pos en, if_pos en]
      · rw [if_neg en, if_neg en]
        exact h.2 n hn hne

theorem updAll_rel {L t B : V} (ht : B ≤ t) :
    ∀ (ls : List V) (cs : List (List E)) (σ σ' : V → List E), Rel L t B σ σ' → (∀ l ∈ ls, l < B) →
      Rel L t B (updAll σ ls cs) (updAll σ' (ls.map (sub L t)) cs)
  | [], _, σ, σ', h, _ => by simpa [updAll] using h
  | _ :: _, [], σ, σ', h, _ => by simpa [updAll] using h
  | l :: ls, c :: cs, σ, σ', h, hl => by
    rw [List.map_cons, updAll, updAll]
    exact updAll_rel ht ls cs _ _ (upd_rel ht h (hl l (by simp)) c) fun x hx => hl x (List.mem_cons_of_mem _ hx)

theorem sub_ne {L t n : V} (h : n ≠ L) : sub L t n = n := if_neg h

theorem map_sub_id {L t : V} {ns : List V} (h : L ∉ ns) : ns.map (sub L t) = ns := by
  conv_rhs => rw [← List.map_id ns]
  exact List.map_congr_left fun n hn => sub_ne (fun e => h (e ▸ hn))

/-- An operation on the old list, and the same operation on the literal that stands for it. -/
theorem step_subst (S : Sem W E) {L t B : V} {w : W} {σ σ' : V → List E} (ht : B ≤ t) (h : Rel L t B σ σ') (o : Op)
    (hB : ∀ n ∈ o.operands, n < B) (hB' : ∀ n ∈ o.results, n < B) (hn : L ∉ o.plainOperands) (hr : L ∉ o.results) :
    SameEnd L t B (step S o (w, σ)) (step S (o.subst L t) (w, σ')) := by
  cases o with
  | construct l es =>
    simp only [Op.plainOperands] at hn
    simp only [Op.results, List.mem_singleton] at hr
    simp only [Op.subst, step, map_sub_id hn]
    have := upd_rel ht h (hB' l (by simp [Op.results])) (es.map (S.val w))
    rw [sub_ne (Ne.symm hr)] at this
    exact ⟨rfl, this⟩
  | append l el u =>
    simp only [Op.plainOperands, List.mem_singleton] at hn
    simp only [Op.subst, step, sub_ne (Ne.symm hn)]
    have hl := hB l (by simp [Op.operands])
    rw [read_eq h hl]
    exact ⟨rfl, upd_rel ht h hl _⟩
  | insert l idx el =>
    simp only [Op.plainOperands, List.mem_cons, List.not_mem_nil, or_false, not_or] at hn
    simp only [Op.subst, step, sub_ne (Ne.symm hn.1), sub_ne (Ne.symm hn.2)]
    have hl := hB l (by simp [Op.operands])
    rw [read_eq h hl]
    exact ⟨rfl, upd_rel ht h hl _⟩
  | setItem l idx el u =>
    simp only [Op.plainOperands, List.mem_cons, List.not_mem_nil, or_false, not_or] at hn
    simp only [Op.subst, step, sub_ne (Ne.symm hn.1), sub_ne (Ne.symm hn.2)]
    have hl := hB l (by simp [Op.operands])
    rw [read_eq h hl]
    cases itemPos (σ l).length (S.idx w idx) with
    | none => exact trivial
    | some i => exact ⟨rfl, upd_rel ht h hl _⟩
  | read s ls r =>
    simp only [Op.subst, step]
    rw [reads_eq h (ls := ls) hB]
    exact ⟨rfl, h⟩
  | mutate s ls r n =>
    simp only [Op.subst, step]
    rw [reads_eq h (ls := ls) hB]
    exact ⟨rfl, updAll_rel ht _ _ _ _ h hB⟩

theorem exec_subst (S : Sem W E) {L t B : V} (ht : B ≤ t) :
    ∀ (ops : List Op) (w : W) (σ σ' : V → List E), Rel L t B σ σ' → (∀ o ∈ ops, ∀ n ∈ o.operands, n < B) →
      (∀ o ∈ ops, ∀ n ∈ o.results, n < B) → (∀ o ∈ ops, L ∉ o.plainOperands) → (∀ o ∈ ops, L ∉ o.results) →
      SameEnd L t B (exec S ops (w, σ)) (exec S (ops.map (Op.subst L t)) (w, σ'))
  | [], w, σ, σ', h, _, _, _, _ => ⟨rfl, h⟩
  | o :: rest, w, σ, σ', h, h1, h2, h3, h4 => by
    have hs := step_subst S (w := w) ht h o (h1 o (by simp)) (h2 o (by simp)) (h3 o (by simp)) (h4 o (by simp))
    rw [List.map_cons, exec, exec]
    cases e : step S o (w, σ) with
    | none =>
      cases e' : step S (o.subst L t) (w, σ') with
      | none => exact trivial
      | some s => rw [e, e'] at hs; exact hs.elim
    | some s =>
      cases e' : step S (o.subst L t) (w, σ') with
      | none => rw [e, e'] at hs; exact hs.elim
      | some s' =>
        rw [e, e'] at hs
        obtain ⟨w1, σ1⟩ := s
        obtain ⟨w2, σ2⟩ := s'
        obtain ⟨hw, hR⟩ := hs
        subst hw
        exact exec_subst S ht rest w2 σ1 σ2 hR (fun o ho => h1 o (List.mem_cons_of_mem _ ho))
          (fun o ho => h2 o (List.mem_cons_of_mem _ ho)) (fun o ho => h3 o (List.mem_cons_of_mem _ ho))
          (fun o ho => h4 o (List.mem_cons_of_mem _ ho))

theorem not_uses {L : V} {o : Op} (h : o.uses L = false) : L ∉ o.operands := by
  intro hm
  rw [Op.uses, List.contains_iff_mem.2 hm] at h
  cases h

theorem subst_id {L t : V} {o : Op} (h : L ∉ o.operands) : o.subst L t = o := by
  cases o with
  | construct l es => simp only [Op.operands] at h; simp only [Op.subst, map_sub_id h]
  | append l el u =>
    simp only [Op.operands, List.mem_cons, List.not_mem_nil, or_false, not_or] at h
    simp only [Op.subst, sub_ne (Ne.symm h.1), sub_ne (Ne.symm h.2)]
  | insert l idx el =>
    simp only [Op.operands, List.mem_cons, List.not_mem_nil, or_false, not_or] at h
    simp only [Op.subst, sub_ne (Ne.symm h.1), sub_ne (Ne.symm h.2.1), sub_ne (Ne.symm h.2.2)]
  | setItem l idx el u =>
    simp only [Op.operands, List.mem_cons, List.not_mem_nil, or_false, not_or] at h
    simp only [Op.subst, sub_ne (Ne.symm h.1), sub_ne (Ne.symm h.2.1), sub_ne (Ne.symm h.2.2)]
  | read s ls r => simp only [Op.operands] at h; simp only [Op.subst, map_sub_id h]
  | mutate s ls r n => simp only [Op.operands] at h; simp only [Op.subst, map_sub_id h]

theorem sub_ne_self {L t n : V} (h : t ≠ L) : sub L t n ≠ L := by
  unfold sub
  by_cases e : n = L
  · rw [if_pos e]; exact h
  · rw [if_neg e]; exact e

theorem not_mem_map_sub {L t : V} (h : t ≠ L) (ns : List V) : L ∉ ns.map (sub L t) := by
  intro hm
  obtain ⟨n, _, e⟩ := List.mem_map.1 hm
  exact sub_ne_self h e

theorem subst_operands {L t : V} (h : t ≠ L) (o : Op) : L ∉ (o.subst L t).operands := by
  cases o <;> simp only [Op.subst, Op.operands]
  · exact not_mem_map_sub h _
  · rename_i l el u; exact not_mem_map_sub h [l, el]
  · rename_i l idx el; exact not_mem_map_sub h [l, idx, el]
  · rename_i l idx el u; exact not_mem_map_sub h [l, idx, el]
  · exact not_mem_map_sub h _
  · exact not_mem_map_sub h _

theorem subst_subst {L t t' : V} (h : t ≠ L) (o : Op) : (o.subst L t).subst L t' = o.subst L t :=
  subst_id (subst_operands h o)

theorem updAll_other : ∀ (ls : List V) (cs : List (List E)) (σ : V → List E) (n : V), n ∉ ls → updAll σ ls cs n = σ n
  | [], _, σ, n, _ => by simp [updAll]
  | _ :: _, [], σ, n, _ => by simp [updAll]
  | l :: ls, c :: cs, σ, n, h => by
    rw [List.mem_cons, not_or] at h
    rw [updAll, updAll_other ls cs _ n h.2, upd, if_neg h.1]

/-- An operation that does not use the list leaves it alone. -/
theorem step_keeps {S : Sem W E} {L : V} {o : Op} {w w1 : W} {σ σ1 : V → List E} (hu : L ∉ o.target) (hr : L ∉ o.results)
    (h : step S o (w, σ) = some (w1, σ1)) : σ1 L = σ L := by
  cases o with
  | construct l es =>
    simp only [Op.results, List.mem_singleton] at hr
    simp only [step, Option.some.injEq, Prod.mk.injEq] at h
    rw [← h.2, upd, if_neg hr]
  | append l el u =>
    simp only [Op.target, List.mem_singleton] at hu
    simp only [step, Option.some.injEq, Prod.mk.injEq] at h
    rw [← h.2, upd, if_neg hu]
  | insert l idx el =>
    simp only [Op.target, List.mem_singleton] at hu
    simp only [step, Option.some.injEq, Prod.mk.injEq] at h
    rw [← h.2, upd, if_neg hu]
  | setItem l idx el u =>
    simp only [Op.target, List.mem_singleton] at hu
    simp only [step] at h
    cases e : itemPos (σ l).length (S.idx w idx) with
    | none => rw [e] at h; cases h
    | some i =>
      rw [e] at h
      simp only [Option.some.injEq, Prod.mk.injEq] at h
      rw [← h.2, upd, if_neg hu]
  | read s ls r =>
    simp only [step, Option.some.injEq, Prod.mk.injEq] at h
    rw [← h.2]
  | mutate s ls r n =>
    simp only [Op.target] at hu
    simp only [step, Option.some.injEq, Prod.mk.injEq] at h
    rw [← h.2, updAll_other _ _ _ _ hu]

/-- … and names other than its results keep their values. -/
theorem step_val {S : Sem W E} {k : V → Option Int} (hS : S.Ok k) {o : Op} {w w1 : W} {σ σ1 : V → List E}
    (h : step S o (w, σ) = some (w1, σ1)) {v : V} (hv : v ∉ o.results) : S.val w1 v = S.val w v := by
  cases o with
  | construct l es =>
    simp only [step, Option.some.injEq, Prod.mk.injEq] at h
    rw [h.1]
  | append l el u =>
    simp only [step, Option.some.injEq, Prod.mk.injEq] at h
    rw [h.1]
  | insert l idx el =>
    simp only [step, Option.some.injEq, Prod.mk.injEq] at h
    rw [h.1]
  | setItem l idx el u =>
    simp only [step] at h
    cases e : itemPos (σ l).length (S.idx w idx) with
    | none => rw [e] at h; cases h
    | some i =>
      rw [e] at h
      simp only [Option.some.injEq, Prod.mk.injEq] at h
      rw [h.1]
  | read s ls r =>
    simp only [Op.results, List.mem_singleton] at hv
    simp only [step, Option.some.injEq, Prod.mk.injEq] at h
    rw [← h.1]
    exact hS.val_rd _ _ _ _ _ hv
  | mutate s ls r n =>
    simp only [Op.results, List.mem_singleton] at hv
    simp only [step, Option.some.injEq, Prod.mk.injEq] at h
    rw [← h.1]
    exact hS.val_mu _ _ _ _ _ hv

theorem target_sub {o : Op} {n : V} (h : n ∈ o.target) : n ∈ o.operands := by
  cases o <;> simp only [Op.target, Op.operands, List.mem_cons, List.not_mem_nil, or_false] at h ⊢ <;> simp_all

theorem consOp_some {o : Op} {x : Option (List Op × V)} {ops : List Op} {last : V} (h : consOp o x = some (ops, last)) :
    ∃ ops', x = some (ops', last) ∧ ops = o :: ops' := by
  cases x with
  | none => cases h
  | some p =>
    obtain ⟨a, c⟩ := p
    simp only [consOp, Option.some.injEq, Prod.mk.injEq] at h
    exact ⟨a, by rw [h.2], h.1.symm⟩

/-- Without literals left the rewriting loop only substitutes. -/
theorem rewrite_nil {L : V} (latest : V) (h : latest ≠ L) :
    ∀ (ops : List Op) (fresh : V) (ops' : List Op) (last : V), rewrite L [] latest fresh ops = some (ops', last) →
      last = latest ∧ ops'.map (Op.subst L latest) = ops.map (Op.subst L latest)
  | [], fresh, ops', last, e => by
    simp only [rewrite, Option.some.injEq, Prod.mk.injEq] at e
    exact ⟨e.2.symm, by rw [← e.1]⟩
  | o :: rest, fresh, ops', last, e => by
    rw [rewrite] at e
    cases hu : o.uses L with
    | true =>
      rw [hu, if_pos rfl] at e
      cases hs : o.self? with
      | some l => rw [hs] at e; cases e
      | none =>
        rw [hs] at e
        dsimp only at e
        cases hn : o.nested with
        | true =>
          rw [hn, if_pos rfl] at e
          simp only [Option.some.injEq, Prod.mk.injEq] at e
          exact ⟨e.2.symm, by rw [← e.1]⟩
        | false =>
          rw [hn, if_neg (by decide)] at e
          obtain ⟨ops1, er, rfl⟩ := consOp_some e
          obtain ⟨h1, h2⟩ := rewrite_nil latest h rest fresh ops1 last er
          exact ⟨h1, by rw [List.map_cons, List.map_cons, h2, subst_subst h]⟩
    | false =>
      rw [hu, if_neg (by decide)] at e
      obtain ⟨ops1, er, rfl⟩ := consOp_some e
      obtain ⟨h1, h2⟩ := rewrite_nil latest h rest fresh ops1 last er
      exact ⟨h1, by rw [List.map_cons, List.map_cons, h2]⟩

theorem rewrite_last {L B : V} : ∀ (ops : List Op) (lits : List (List V)) (latest fresh : V) (ops' : List Op) (last : V),
    B ≤ latest → B ≤ fresh → rewrite L lits latest fresh ops = some (ops', last) → B ≤ last := by
  intro ops
  induction ops with
  | nil =>
    intro lits latest fresh ops' last h1 _ h
    simp only [rewrite, Option.some.injEq, Prod.mk.injEq] at h
    rw [← h.2]; exact h1
  | cons q qs ihq =>
    intro lits latest fresh ops' last h1 h2 h
    have h2' : B ≤ fresh + 1 := Nat.le_succ_of_le h2
    rw [rewrite] at h
    cases hu : q.uses L with
    | false =>
      rw [hu, if_neg (by decide)] at h
      obtain ⟨_, e, _⟩ := consOp_some h
      exact ihq _ _ _ _ _ h1 h2 e
    | true =>
      rw [hu, if_pos rfl] at h
      cases hs : q.self? with
      | some l =>
        rw [hs] at h
        cases lits with
        | nil => cases h
        | cons lit lits =>
          dsimp only at h
          obtain ⟨_, e, _⟩ := consOp_some h
          by_cases hl : l = L
          · rw [if_pos hl] at e; exact ihq _ _ _ _ _ h2 h2' e
          · rw [if_neg hl] at e
            obtain ⟨_, e, _⟩ := consOp_some e
            exact ihq _ _ _ _ _ h2 h2' e
      | none =>
        rw [hs] at h
        dsimp only at h
        cases hn : q.nested with
        | true => rw [hn, if_pos rfl] at h; cases h; exact h1
        | false =>
          rw [hn, if_neg (by decide)] at h
          obtain ⟨_, e, _⟩ := consOp_some h
          exact ihq _ _ _ _ _ h1 h2 e

theorem ssa_bound {B : V} : ∀ (ops : List Op) (seen : List V), Ssa seen ops → (∀ v ∈ seen, v < B) →
    (∀ p ∈ ops, ∀ n ∈ p.results, n < B) → ∀ p ∈ ops, ∀ n ∈ p.operands, n < B := by
  intro ops
  induction ops with
  | nil => intro _ _ _ _ p hp; cases hp
  | cons q qs ihq =>
    intro seen hs hsn hrs p hp n hn
    rcases List.mem_cons.1 hp with rfl | hp
    · exact hsn n (hs.1 n hn)
    · refine ihq (seen ++ q.results) hs.2.2 ?_ (fun p hp => hrs p (List.mem_cons_of_mem _ hp)) p hp n hn
      intro v hv
      rcases List.mem_append.1 hv with hv | hv
      · exact hsn v hv
      · exact hrs q (by simp) v hv

theorem ssa_results {L : V} : ∀ (ops : List Op) (seen : List V), Ssa seen ops → L ∈ seen → ∀ p ∈ ops, L ∉ p.results := by
  intro ops
  induction ops with
  | nil => intro _ _ _ p hp; cases hp
  | cons q qs ihq =>
    intro seen hs hsn p hp
    rcases List.mem_cons.1 hp with rfl | hp
    · exact fun hm => hs.2.1 L hm hsn
    · exact ihq (seen ++ q.results) hs.2.2 (List.mem_append_left _ hsn) p hp

theorem addLiteral_some {b : Bool} {lit : List V} {x : Option (List (List V) × Bool)} {lits : List (List V)} {gen : Bool}
    (h : addLiteral b lit x = some (lits, gen)) : ∃ lits' gen', x = some (lits', gen') ∧ lits = lit :: lits' ∧ gen = (b || gen') := by
  cases x with
  | none => cases h
  | some p =>
    obtain ⟨a, c⟩ := p
    simp only [addLiteral, Option.some.injEq, Prod.mk.injEq] at h
    exact ⟨a, c, rfl, h.1.symm, h.2.symm⟩

theorem insertIndex_eq {k : V → Option Int} {S : Sem W E} (hS : S.Ok k) {idx : V} {n i : Nat} (w : W)
    (h : insertIndex k idx n = some i) : insertPos n (S.idx w idx) = i ∧ i ≤ n := by
  unfold insertIndex at h
  cases hk : k idx with
  | none => rw [hk] at h; cases h
  | some d =>
    rw [hk] at h
    dsimp only at h
    rw [hS.const idx d w hk]
    split at h
    · cases h
    · rename_i hb
      injection h with h
      unfold insertPos
      rw [if_neg (by omega)]
      omega

theorem legalIndex_eq {k : V → Option Int} {S : Sem W E} (hS : S.Ok k) {idx : V} {n i : Nat} (w : W)
    (h : legalIndex k idx n = some i) : itemPos n (S.idx w idx) = some i := by
  unfold legalIndex at h
  cases hk : k idx with
  | none => rw [hk] at h; cases h
  | some d =>
    rw [hk] at h
    dsimp only at h
    rw [hS.const idx d w hk]
    unfold itemPos
    by_cases h0 : d ≥ 0
    · simp only [if_pos h0] at h
      by_cases hb : 0 ≤ d ∧ d < n
      · rw [if_pos hb] at h ⊢; exact h
      · rw [if_neg hb] at h; cases h
    · simp only [if_neg h0] at h
      by_cases hb : 0 ≤ d + n ∧ d + n < n
      · rw [if_pos hb] at h
        rw [if_neg (by omega), if_pos (by omega)]; exact h
      · rw [if_neg hb] at h; cases h

theorem map_insertIdx' {α β : Type} (f : α → β) (l : List α) (i : Nat) (x : α) :
    (l.insertIdx i x).map f = (l.map f).insertIdx i (f x) := by
  induction l generalizing i with
  | nil => cases i <;> rfl
  | cons y ys ih =>
    cases i with
    | zero => rfl
    | succ i => simp [List.insertIdx_succ_cons, ih]

theorem mem_insertIdx' {α : Type} {l : List α} {i : Nat} {x y : α} (h : y ∈ l.insertIdx i x) : y = x ∨ y ∈ l := by
  induction l generalizing i with
  | nil =>
    cases i with
    | zero => simpa using h
    | succ i => simp at h
  | cons z zs ih =>
    cases i with
    | zero => simpa using h
    | succ i =>
      simp only [List.insertIdx_succ_cons, List.mem_cons] at h ⊢
      rcases h with h | h
      · exact Or.inr (Or.inl h)
      · rcases ih h with h | h
        · exact Or.inl h
        · exact Or.inr (Or.inr h)

/-- The simulation. -/
theorem rewrite_sim {S : Sem W E} {k : V → Option Int} (hS : S.Ok k) {L B : V} (hLB : L < B) :
    ∀ (ops : List Op) (running : List V) (seen : List V) (lits : List (List V)) (gen : Bool) (latest fresh : V)
      (ops' : List Op) (last : V) (w : W) (σ σ' : V → List E),
      literals L k running ops = some (lits, gen) → rewrite L lits latest fresh ops = some (ops', last) →
      B ≤ latest → B ≤ fresh → σ L = running.map (S.val w) → Rel L latest B σ σ' → Ssa seen ops → L ∈ seen →
      (∀ v ∈ running, v ∈ seen) → L ∉ running → (∀ v ∈ seen, v < B) → (∀ o ∈ ops, ∀ n ∈ o.results, n < B) →
      NotNested L ops →
      B ≤ last ∧ SameEnd L last B (exec S ops (w, σ)) (exec S (ops'.map (Op.subst L last)) (w, σ')) := by
  intro ops
  induction ops with
  | nil =>
    intro running seen lits gen latest fresh ops' last w σ σ' hl hr hB _ _ hR _ _ _ _ _ _ _
    simp only [rewrite, Option.some.injEq, Prod.mk.injEq] at hr
    rw [← hr.1, ← hr.2]
    exact ⟨hB, rfl, hR⟩
  | cons o rest ih =>
    intro running seen lits gen latest fresh ops' last w σ σ' hl hr hB hBf hσ hR hssa hLs hrun hLr hseen hres hnn
    obtain ⟨hop, hnew, hssa'⟩ := hssa
    have hLres : L ∉ o.results := fun hm => hnew L hm hLs
    have hopB : ∀ n ∈ o.operands, n < B := fun n hn => hseen n (hop n hn)
    have hresB : ∀ n ∈ o.results, n < B := hres o (by simp)
    have hne : ∀ t : V, B ≤ t → t ≠ L := fun t ht => Ne.symm (nat_ne (Nat.lt_of_lt_of_le hLB ht))
    have hplain : L ∉ o.plainOperands := hnn o (by simp)
    have hseen' : ∀ v ∈ seen ++ o.results, v < B := by
      intro v hv
      rcases List.mem_append.1 hv with hv | hv
      · exact hseen v hv
      · exact hresB v hv
    have hnn' : NotNested L rest := fun p hp => hnn p (List.mem_cons_of_mem _ hp)
    have hres' : ∀ p ∈ rest, ∀ n ∈ p.results, n < B := fun p hp => hres p (List.mem_cons_of_mem _ hp)
    -- an operation that stays, and leaves the list alone
    have keep : ∀ (f : Op), f = o.subst L latest → L ∉ o.target → literals L k running rest = some (lits, gen) →
        consOp f (rewrite L lits latest fresh rest) = some (ops', last) →
        B ≤ last ∧ SameEnd L last B (exec S (o :: rest) (w, σ)) (exec S (ops'.map (Op.subst L last)) (w, σ')) := by
      intro f hf htgt hl hr
      obtain ⟨ops1, er, rfl⟩ := consOp_some hr
      have hs := step_subst S (w := w) hB hR o hopB hresB hplain hLres
      rw [List.map_cons, hf, subst_subst (hne latest hB), exec, exec]
      cases e : step S o (w, σ) with
      | none =>
        cases e' : step S (o.subst L latest) (w, σ') with
        | none => exact ⟨rewrite_last _ _ _ _ _ _ hB hBf er, trivial⟩
        | some s => rw [e, e'] at hs; exact hs.elim
      | some s =>
        cases e' : step S (o.subst L latest) (w, σ') with
        | none => rw [e, e'] at hs; exact hs.elim
        | some s' =>
          rw [e, e'] at hs
          obtain ⟨w1, σ1⟩ := s
          obtain ⟨w2, σ2⟩ := s'
          obtain ⟨hw, hR'⟩ := hs
          subst hw
          refine ih running (seen ++ o.results) lits gen latest fresh ops1 last w2 σ1 σ2 hl er hB hBf ?_ hR' hssa'
            (List.mem_append_left _ hLs) (fun v hv => List.mem_append_left _ (hrun v hv)) hLr hseen' hres' hnn'
          rw [step_keeps htgt hLres e, hσ]
          apply List.map_congr_left
          intro v hv
          exact (step_val hS e (fun hm => hnew v hm (hrun v hv))).symm
    -- an operation that changes the list
    have change : ∀ (running' : List V), o.apply k running = some running' → o.self? = some L →
        o.results = [] → step S o (w, σ) = some (w, upd σ L (running'.map (S.val w))) →
        (∀ v ∈ running', v ∈ seen) → L ∉ running' →
        B ≤ last ∧ SameEnd L last B (exec S (o :: rest) (w, σ)) (exec S (ops'.map (Op.subst L last)) (w, σ')) := by
      intro running' hap hself hno hstep hrun' hLr'
      have hu : o.uses L = true := by
        rw [Op.uses]
        apply List.contains_iff_mem.2
        cases o <;> simp [Op.self?] at hself <;> subst hself <;> simp [Op.operands]
      rw [literals, hu, if_pos rfl, hself] at hl
      dsimp only at hl
      rw [hap] at hl
      dsimp only at hl
      rw [if_pos rfl] at hl
      obtain ⟨lits', gen', hl', rfl, _⟩ := addLiteral_some hl
      rw [rewrite, hu, if_pos rfl, hself] at hr
      dsimp only at hr
      rw [if_pos rfl] at hr
      obtain ⟨ops1, er, rfl⟩ := consOp_some hr
      rw [List.map_cons, subst_id (o := Op.construct fresh running') (by simpa [Op.operands] using hLr'), exec, exec,
        hstep]
      simp only [step]
      rw [hno, List.append_nil] at hssa'
      refine ih running' seen lits' gen' fresh (fresh + 1) ops1 last w _ _ hl' er hBf (Nat.le_succ_of_le hBf) ?_ ?_ hssa'
        hLs hrun' hLr' hseen hres' hnn'
      · simp [upd]
      · refine ⟨by simp [upd], fun n hn hnL => ?_⟩
        rw [upd, upd, if_neg (nat_ne (Nat.lt_of_lt_of_le hn hBf)), if_neg hnL]
        exact hR.2 n hn hnL
    cases hu : o.uses L with
    | false =>
      rw [literals, hu, if_neg (by decide)] at hl
      rw [rewrite, hu, if_neg (by decide)] at hr
      have hno := not_uses hu
      exact keep o (subst_id hno).symm (fun hm => hno (target_sub hm)) hl hr
    | true =>
      have hmem : L ∈ o.operands := by
        rw [Op.uses] at hu
        exact List.contains_iff_mem.1 hu
      cases o with
      | construct l es => exact absurd hmem hplain
      | read s ls r =>
        rw [literals, hu, if_pos rfl] at hl
        rw [rewrite, hu, if_pos rfl] at hr
        exact keep _ rfl (by simp [Op.target]) hl hr
      | append l el used =>
        simp only [Op.operands, Op.plainOperands, List.mem_cons, List.not_mem_nil, or_false] at hmem hplain
        have hlL : l = L := by rcases hmem with h | h; exact h.symm; exact absurd h hplain
        subst hlL
        cases used with
        | true => rw [literals, hu, if_pos rfl] at hl; cases hl
        | false =>
          refine change (running ++ [el]) rfl rfl rfl ?_ ?_ ?_
          · simp [step, hσ]
          · intro v hv
            rcases List.mem_append.1 hv with hv | hv
            · exact hrun v hv
            · rw [List.mem_singleton.1 hv]; exact hop el (by simp [Op.operands])
          · intro hm
            rcases List.mem_append.1 hm with hm | hm
            · exact hLr hm
            · exact hplain (List.mem_singleton.1 hm)
      | insert l idx el =>
        simp only [Op.operands, Op.plainOperands, List.mem_cons, List.not_mem_nil, or_false, not_or] at hmem hplain
        have hlL : l = L := by
          rcases hmem with h | h | h
          · exact h.symm
          · exact absurd h hplain.1
          · exact absurd h hplain.2
        subst hlL
        cases hi : insertIndex k idx running.length with
        | none =>
          rw [literals, hu, if_pos rfl] at hl
          simp only [Op.self?, Op.apply, hi] at hl
          cases hl
        | some i =>
          refine change (running.insertIdx i el) (by simp only [Op.apply, hi]) rfl rfl ?_ ?_ ?_
          · have := (insertIndex_eq hS w hi).1
            simp [step, hσ, map_insertIdx', this]
          · intro v hv
            rcases mem_insertIdx' hv with hv | hv
            · rw [hv]; exact hop el (by simp [Op.operands])
            · exact hrun v hv
          · intro hm
            rcases mem_insertIdx' hm with hm | hm
            · exact hplain.2 hm
            · exact hLr hm
      | setItem l idx el used =>
        simp only [Op.operands, Op.plainOperands, List.mem_cons, List.not_mem_nil, or_false, not_or] at hmem hplain
        have hlL : l = L := by
          rcases hmem with h | h | h
          · exact h.symm
          · exact absurd h hplain.1
          · exact absurd h hplain.2
        subst hlL
        cases used with
        | true => rw [literals, hu, if_pos rfl] at hl; cases hl
        | false =>
          cases hi : legalIndex k idx running.length with
          | none =>
            rw [literals, hu, if_pos rfl] at hl
            simp [Op.self?, Op.apply, hi] at hl
          | some i =>
            refine change (running.set i el) (by simp [Op.apply, hi]) rfl rfl ?_ ?_ ?_
            · have := legalIndex_eq hS w hi
              simp [step, hσ, List.map_set, this]
            · intro v hv
              rcases List.mem_or_eq_of_mem_set hv with hv | hv
              · exact hrun v hv
              · rw [hv]; exact hop el (by simp [Op.operands])
            · intro hm
              rcases List.mem_or_eq_of_mem_set hm with hm | hm
              · exact hLr hm
              · exact hplain.2 hm
      | mutate s ls r nested =>
        rw [literals, hu, if_pos rfl] at hl
        rw [rewrite, hu, if_pos rfl] at hr
        simp only [Op.self?, Op.mutates, if_true, Option.some.injEq, Prod.mk.injEq] at hl hr
        obtain ⟨hl1, _⟩ := hl
        subst hl1
        have fin := exec_subst S hB (Op.mutate s ls r nested :: rest) w σ σ' hR
          (ssa_bound _ seen ⟨hop, hnew, hssa'⟩ hseen hres) hres hnn (ssa_results _ seen ⟨hop, hnew, hssa'⟩ hLs)
        cases nested with
        | true =>
          simp only [Op.nested, if_true, Option.some.injEq, Prod.mk.injEq] at hr
          rw [← hr.1, ← hr.2]
          exact ⟨hB, fin⟩
        | false =>
          simp only [Op.nested, Bool.false_eq_true, if_false] at hr
          obtain ⟨ops1, er, rfl⟩ := consOp_some hr
          obtain ⟨h1, h2⟩ := rewrite_nil latest (hne latest hB) rest fresh ops1 last er
          rw [h1, List.map_cons, h2, subst_subst (hne latest hB)]
          exact ⟨hB, fin⟩

end Verif.ListInterp

namespace Verif.ListInterp
open Fold (V)

/-! ## The new block is well formed -/

theorem map_sub_mem {L t : V} {ns seen seen' : List V} (h : ∀ v ∈ seen, v ≠ L → v ∈ seen') (ht : t ∈ seen')
    (hn : ∀ v ∈ ns, v ∈ seen) : ∀ v ∈ ns.map (sub L t), v ∈ seen' := by
  intro v hv
  obtain ⟨n, hm, rfl⟩ := List.mem_map.1 hv
  unfold sub
  by_cases e : n = L
  · rw [if_pos e]; exact ht
  · rw [if_neg e]; exact h n (hn n hm) e

theorem operands_subst {L t : V} (o : Op) : (o.subst L t).operands = o.operands.map (sub L t) := by
  cases o <;> simp [Op.subst, Op.operands]

theorem results_subst {L t : V} (o : Op) : (o.subst L t).results = o.results := by
  cases o <;> simp [Op.subst, Op.results]

/-- What `seen'` may contain besides. -/
structure Cover (L B fresh : V) (seen seen' : List V) : Prop where
  old : ∀ v ∈ seen, v ≠ L → v ∈ seen'
  new : ∀ v ∈ seen', v ∈ seen ∨ B ≤ v ∧ v < fresh

theorem nat_not_lt {a b : Nat} (h : b ≤ a) : ¬ a < b := by omega

theorem Cover.append {L B fresh : V} {seen seen' : List V} (h : Cover L B fresh seen seen') (rs : List V) :
    Cover L B fresh (seen ++ rs) (seen' ++ rs) := by
  refine ⟨fun v hv hne => ?_, fun v hv => ?_⟩
  · rcases List.mem_append.1 hv with hv | hv
    · exact List.mem_append_left _ (h.old v hv hne)
    · exact List.mem_append_right _ hv
  · rcases List.mem_append.1 hv with hv | hv
    · rcases h.new v hv with h | h
      · exact Or.inl (List.mem_append_left _ h)
      · exact Or.inr h
    · exact Or.inl (List.mem_append_right _ hv)

theorem Cover.fresh_results {L B fresh : V} {seen seen' rs : List V} (h : Cover L B fresh seen seen')
    (hn : ∀ r ∈ rs, r ∉ seen) (hB : ∀ r ∈ rs, r < B) : ∀ r ∈ rs, r ∉ seen' := by
  intro r hr hm
  rcases h.new r hm with h | h
  · exact hn r hr h
  · exact nat_not_lt h.1 (hB r hr)

theorem ssa_subst {L t B fresh : V} : ∀ (ops : List Op) (seen seen' : List V), Ssa seen ops → Cover L B fresh seen seen' →
    t ∈ seen' → (∀ o ∈ ops, ∀ n ∈ o.results, n < B) → Ssa seen' (ops.map (Op.subst L t))
  | [], _, _, _, _, _, _ => trivial
  | o :: rest, seen, seen', ⟨h1, h2, h3⟩, hc, ht, hB => by
    refine ⟨?_, ?_, ?_⟩
    · rw [operands_subst]; exact map_sub_mem hc.old ht h1
    · rw [results_subst]; exact hc.fresh_results h2 (hB o (by simp))
    · rw [results_subst]
      exact ssa_subst rest _ _ h3 (hc.append _) (List.mem_append_left _ ht) fun p hp => hB p (List.mem_cons_of_mem _ hp)

/-- The users the loops go through. -/
theorem user_cases {k : V → Option Int} {L : V} {o : Op} {rest : List Op} {running : List V} {x : List (List V) × Bool}
    (hl : literals L k running (o :: rest) = some x) (hu : o.uses L = true) (hplain : L ∉ o.plainOperands) :
    (∃ s ls r, o = .read s ls r)
      ∨ (∃ running', o.apply k running = some running' ∧ o.self? = some L ∧ o.results = []
          ∧ ∀ v ∈ running', v ∈ running ∨ v ∈ o.plainOperands)
      ∨ ∃ s ls r n, o = .mutate s ls r n := by
  have hmem : L ∈ o.operands := by
    rw [Op.uses] at hu
    exact List.contains_iff_mem.1 hu
  have hself : ∀ l, o.self? = some l → L ∈ o.target → l = L := by
    intro l h1 h2
    cases o <;> simp [Op.self?, Op.target] at h1 h2 <;> subst h1 <;> exact h2.symm
  have hap : ∀ l, o.self? = some l → ∃ r, o.apply k running = some r := by
    intro l h
    rw [literals, hu, if_pos rfl, h] at hl
    cases e : o.apply k running with
    | none => rw [e] at hl; cases hl
    | some r => exact ⟨r, rfl⟩
  cases o with
  | construct l es => exact absurd hmem hplain
  | read s ls r => exact Or.inl ⟨s, ls, r, rfl⟩
  | mutate s ls r n => exact Or.inr (Or.inr ⟨s, ls, r, n, rfl⟩)
  | append l el used =>
    obtain ⟨r, hr⟩ := hap l rfl
    simp only [Op.operands, Op.plainOperands, List.mem_cons, List.not_mem_nil, or_false] at hmem hplain
    have hlL : l = L := by rcases hmem with h | h; exact h.symm; exact absurd h hplain
    refine Or.inr (Or.inl ⟨r, hr, by rw [← hlL]; rfl, rfl, fun v hv => ?_⟩)
    cases used with
    | true => cases hr
    | false =>
      simp only [Op.apply, Bool.false_eq_true, if_false, Option.some.injEq] at hr
      subst hr
      simpa [Op.plainOperands] using hv
  | insert l idx el =>
    obtain ⟨r, hr⟩ := hap l rfl
    simp only [Op.operands, Op.plainOperands, List.mem_cons, List.not_mem_nil, or_false, not_or] at hmem hplain
    have hlL : l = L := by
      rcases hmem with h | h | h
      · exact h.symm
      · exact absurd h hplain.1
      · exact absurd h hplain.2
    refine Or.inr (Or.inl ⟨r, hr, by rw [← hlL]; rfl, rfl, fun v hv => ?_⟩)
    cases hi : insertIndex k idx running.length with
    | none => simp only [Op.apply, hi] at hr; cases hr
    | some i =>
      simp only [Op.apply, hi, Option.some.injEq] at hr
      subst hr
      rcases mem_insertIdx' hv with h | h
      · right; simp [Op.plainOperands, h]
      · exact Or.inl h
  | setItem l idx el used =>
    obtain ⟨r, hr⟩ := hap l rfl
    simp only [Op.operands, Op.plainOperands, List.mem_cons, List.not_mem_nil, or_false, not_or] at hmem hplain
    have hlL : l = L := by
      rcases hmem with h | h | h
      · exact h.symm
      · exact absurd h hplain.1
      · exact absurd h hplain.2
    refine Or.inr (Or.inl ⟨r, hr, by rw [← hlL]; rfl, rfl, fun v hv => ?_⟩)
    cases used with
    | true => cases hr
    | false =>
      cases hi : legalIndex k idx running.length with
      | none => simp [Op.apply, hi] at hr
      | some i =>
        simp only [Op.apply, hi, Bool.false_eq_true, if_false, Option.some.injEq] at hr
        subst hr
        rcases List.mem_or_eq_of_mem_set hv with h | h
        · exact Or.inl h
        · right; simp [Op.plainOperands, h]

theorem plain_sub {o : Op} {n : V} (h : n ∈ o.plainOperands) : n ∈ o.operands := by
  cases o <;> simp only [Op.plainOperands, Op.operands, List.mem_cons, List.not_mem_nil, or_false] at h ⊢ <;> simp_all

theorem rewrite_ssa {k : V → Option Int} {L B : V} (hLB : L < B) :
    ∀ (ops : List Op) (running : List V) (seen seen' : List V) (lits : List (List V)) (gen : Bool) (latest fresh : V)
      (ops' : List Op) (last : V),
      literals L k running ops = some (lits, gen) → rewrite L lits latest fresh ops = some (ops', last) →
      B ≤ latest → B ≤ fresh → latest ∈ seen' → Cover L B fresh seen seen' → Ssa seen ops →
      (∀ v ∈ running, v ∈ seen) → L ∉ running → (∀ v ∈ seen, v < B) → (∀ o ∈ ops, ∀ n ∈ o.results, n < B) →
      NotNested L ops → Ssa seen' (ops'.map (Op.subst L last)) := by
  intro ops
  induction ops with
  | nil =>
    intro running seen seen' lits gen latest fresh ops' last hl hr _ _ _ _ _ _ _ _ _ _
    simp only [rewrite, Option.some.injEq, Prod.mk.injEq] at hr
    rw [← hr.1]
    trivial
  | cons o rest ih =>
    intro running seen seen' lits gen latest fresh ops' last hl hr hB hBf hlat hc hssa hrun hLr hseen hres hnn
    obtain ⟨hop, hnew, hssa'⟩ := hssa
    have hresB : ∀ n ∈ o.results, n < B := hres o (by simp)
    have hne : ∀ t : V, B ≤ t → t ≠ L := fun t ht => Ne.symm (nat_ne (Nat.lt_of_lt_of_le hLB ht))
    have hplain : L ∉ o.plainOperands := hnn o (by simp)
    have hnn' : NotNested L rest := fun p hp => hnn p (List.mem_cons_of_mem _ hp)
    have hres' : ∀ p ∈ rest, ∀ n ∈ p.results, n < B := fun p hp => hres p (List.mem_cons_of_mem _ hp)
    have hseen' : ∀ v ∈ seen ++ o.results, v < B := by
      intro v hv
      rcases List.mem_append.1 hv with hv | hv
      · exact hseen v hv
      · exact hresB v hv
    have keep : ∀ (f : Op), f = o.subst L latest → literals L k running rest = some (lits, gen) →
        consOp f (rewrite L lits latest fresh rest) = some (ops', last) → Ssa seen' (ops'.map (Op.subst L last)) := by
      intro f hf hl hr
      obtain ⟨ops1, er, rfl⟩ := consOp_some hr
      rw [List.map_cons, hf, subst_subst (hne latest hB)]
      refine ⟨?_, ?_, ?_⟩
      · rw [operands_subst]; exact map_sub_mem hc.old hlat hop
      · rw [results_subst]; exact hc.fresh_results hnew hresB
      · rw [results_subst]
        exact ih running (seen ++ o.results) _ lits gen latest fresh ops1 last hl er hB hBf (List.mem_append_left _ hlat)
          (hc.append _) hssa' (fun v hv => List.mem_append_left _ (hrun v hv)) hLr hseen' hres' hnn'
    have change : ∀ (running' : List V), o.apply k running = some running' → o.self? = some L →
        o.results = [] → (∀ v ∈ running', v ∈ seen) → L ∉ running' → Ssa seen' (ops'.map (Op.subst L last)) := by
      intro running' hap hself hno hrun' hLr'
      have hu : o.uses L = true := by
        rw [Op.uses]
        apply List.contains_iff_mem.2
        cases o <;> simp [Op.self?] at hself <;> subst hself <;> simp [Op.operands]
      rw [literals, hu, if_pos rfl, hself] at hl
      dsimp only at hl
      rw [hap] at hl
      dsimp only at hl
      rw [if_pos rfl] at hl
      obtain ⟨lits', gen', hl', rfl, _⟩ := addLiteral_some hl
      rw [rewrite, hu, if_pos rfl, hself] at hr
      dsimp only at hr
      rw [if_pos rfl] at hr
      obtain ⟨ops1, er, rfl⟩ := consOp_some hr
      rw [List.map_cons, subst_id (o := Op.construct fresh running') (by simpa [Op.operands] using hLr')]
      rw [hno, List.append_nil] at hssa'
      refine ⟨fun v hv => hc.old v (hrun' v hv) (fun e => hLr' (e ▸ hv)), ?_, ?_⟩
      · intro r hr hm
        simp only [Op.results, List.mem_singleton] at hr
        subst hr
        rcases hc.new _ hm with h | h
        · -- a fresh name is not an old one: it would have been seen
          exact absurd h (by
            intro hs
            exact (Nat.lt_irrefl _ (Nat.lt_of_lt_of_le (hseen _ hs) hBf)))
        · exact Nat.lt_irrefl _ h.2
      · refine ih running' seen _ lits' gen' fresh (fresh + 1) ops1 last hl' er hBf (Nat.le_succ_of_le hBf)
          (by simp [Op.results]) ?_ hssa' hrun' hLr' hseen hres' hnn'
        refine ⟨fun v hv hvL => List.mem_append_left _ (hc.old v hv hvL), fun v hv => ?_⟩
        rcases List.mem_append.1 hv with hv | hv
        · rcases hc.new v hv with h | h
          · exact Or.inl h
          · exact Or.inr ⟨h.1, Nat.lt_succ_of_lt h.2⟩
        · simp only [Op.results, List.mem_singleton] at hv
          subst hv
          exact Or.inr ⟨hBf, Nat.lt_succ_self _⟩
    cases hu : o.uses L with
    | false =>
      rw [literals, hu, if_neg (by decide)] at hl
      rw [rewrite, hu, if_neg (by decide)] at hr
      exact keep o (subst_id (not_uses hu)).symm hl hr
    | true =>
      rcases user_cases hl hu hplain with ⟨s, ls, r, rfl⟩ | ⟨running', hap, hself, hno, hmem⟩ | ⟨s, ls, r, n, rfl⟩
      · rw [literals, hu, if_pos rfl] at hl
        rw [rewrite, hu, if_pos rfl] at hr
        exact keep _ rfl hl hr
      · refine change running' hap hself hno (fun v hv => ?_) (fun hm => ?_)
        · rcases hmem v hv with h | h
          · exact hrun v h
          · exact hop v (plain_sub h)
        · rcases hmem L hm with h | h
          · exact hLr h
          · exact hplain h
      · rw [literals, hu, if_pos rfl] at hl
        rw [rewrite, hu, if_pos rfl] at hr
        simp only [Op.self?, Op.mutates, if_true, Option.some.injEq, Prod.mk.injEq] at hl hr
        obtain ⟨hl1, _⟩ := hl
        subst hl1
        have fin := ssa_subst (L := L) (t := latest) (Op.mutate s ls r n :: rest) seen seen' ⟨hop, hnew, hssa'⟩ hc hlat hres
        cases n with
        | true =>
          simp only [Op.nested, if_true, Option.some.injEq, Prod.mk.injEq] at hr
          rw [← hr.1, ← hr.2]
          exact fin
        | false =>
          simp only [Op.nested, Bool.false_eq_true, if_false] at hr
          obtain ⟨ops1, er, rfl⟩ := consOp_some hr
          obtain ⟨h1, h2⟩ := rewrite_nil latest (hne latest hB) rest fresh ops1 last er
          rw [h1, List.map_cons, h2, subst_subst (hne latest hB)]
          exact fin

/-! ## When the second loop is defined -/

theorem nested_eq (p : Op) : p.mutatesElsewhere = p.nested := by
  cases p with
  | mutate s ls r n => cases n <;> rfl
  | _ => rfl

theorem rewrite_nil_defined {L : V} : ∀ (ops : List Op) (latest fresh : V),
    (∀ p ∈ ops.takeWhile (fun p => !(p.uses L && p.nested)), p.uses L → p.changes = false) →
    rewrite L [] latest fresh ops ≠ none := by
  intro ops
  induction ops with
  | nil => intro latest fresh _; simp [rewrite]
  | cons o rest ih =>
    intro latest fresh h
    rw [rewrite]
    by_cases hn : o.uses L && o.nested
    · obtain ⟨h1, h2⟩ := Bool.and_eq_true_iff.1 hn
      rw [h1, if_pos rfl]
      cases o <;> simp [Op.nested] at h2
      subst h2
      simp [Op.self?, Op.nested]
    · rw [List.takeWhile_cons, show (!(o.uses L && o.nested)) = true by
        cases h1 : o.uses L <;> cases h2 : o.nested <;> simp_all, if_pos rfl] at h
      have hr := fun l f => ih l f fun p hp => h p (List.mem_cons_of_mem _ hp)
      have hcons : ∀ (f : Op) (x : Option (List Op × V)), x ≠ none → consOp f x ≠ none := by
        intro f x hx
        cases x with
        | none => exact absurd rfl hx
        | some p => simp [consOp]
      cases hu : o.uses L with
      | false => rw [if_neg (by decide)]; exact hcons _ _ (hr _ _)
      | true =>
        rw [if_pos rfl]
        have hc := h o (by simp) hu
        have hs : o.self? = none := by cases o <;> simp [Op.changes, Op.self?] at hc ⊢
        rw [hs]
        dsimp only
        rw [hu, Bool.true_and] at hn
        rw [if_neg hn]
        exact hcons _ _ (hr _ _)

theorem rewrite_defined {L : V} {k : V → Option Int} : ∀ (ops : List Op) (running : List V) (lits : List (List V))
    (gen : Bool) (latest fresh : V), literals L k running ops = some (lits, gen) → NoEarlierUnknown L ops →
    rewrite L lits latest fresh ops ≠ none := by
  intro ops
  have hcons : ∀ (f : Op) (x : Option (List Op × V)), x ≠ none → consOp f x ≠ none := by
    intro f x hx
    cases x with
    | none => exact absurd rfl hx
    | some p => simp [consOp]
  induction ops with
  | nil => intro running lits gen latest fresh _ _; simp [rewrite]
  | cons o rest ih =>
    intro running lits gen latest fresh hl h
    rw [literals] at hl
    rw [rewrite]
    cases hu : o.uses L with
    | false =>
      rw [hu, if_neg (by decide)] at hl
      rw [if_neg (by decide)]
      exact hcons _ _ (ih _ _ _ _ _ hl h.2)
    | true =>
      rw [hu, if_pos rfl] at hl
      rw [if_pos rfl]
      cases hs : o.self? with
      | some l =>
        rw [hs] at hl
        dsimp only at hl
        cases ha : o.apply k running with
        | none => rw [ha] at hl; cases hl
        | some r =>
          rw [ha] at hl
          dsimp only at hl
          by_cases hlL : l = L
          · rw [if_pos hlL] at hl
            obtain ⟨lits', gen', hl', rfl, _⟩ := addLiteral_some hl
            dsimp only
            rw [if_pos hlL]
            exact hcons _ _ (ih _ _ _ _ _ hl' h.2)
          · rw [if_neg hlL] at hl
            obtain ⟨lits', gen', hl', rfl, _⟩ := addLiteral_some hl
            dsimp only
            rw [if_neg hlL]
            exact hcons _ _ (hcons _ _ (ih _ _ _ _ _ hl' h.2))
      | none =>
        rw [hs] at hl
        dsimp only at hl ⊢
        cases hm : o.mutates with
        | false =>
          rw [hm, if_neg (by decide)] at hl
          have : o.nested = false := by cases o <;> simp [Op.mutates, Op.nested] at hm ⊢
          rw [this, if_neg (by decide)]
          exact hcons _ _ (ih _ _ _ _ _ hl h.2)
        | true =>
          rw [hm, if_pos rfl] at hl
          cases o <;> simp [Op.mutates] at hm
          rename_i s ls r n
          cases n with
          | true => simp [Op.nested]
          | false =>
            rw [show (Op.mutate s ls r false).nested = false from rfl, if_neg (by decide)]
            simp only [Option.some.injEq, Prod.mk.injEq] at hl
            rw [← hl.1]
            refine hcons _ _ (rewrite_nil_defined rest _ _ ?_)
            have hL : L ∈ ls := by
              rw [Op.uses] at hu
              exact List.contains_iff_mem.1 hu
            have := h.1 s ls r rfl hL
            simpa only [nested_eq] using this

/-! ## When it applies -/

theorem target_uses {L : V} {o : Op} (h : L ∈ o.target) : o.uses L = true :=
  List.contains_iff_mem.2 (target_sub h)

theorem understood_rest {L : V} {k : V → Option Int} {n : Nat} {o : Op} {rest : List Op}
    (h : Understood L k n (o :: rest)) (hplain : L ∉ o.plainOperands) :
    (L ∉ o.target ∧ Understood L k n rest ∧ (o.uses L = true → o.self? = none ∧ o.mutates = false)) ∨
      (∃ f : List V → List V, o.self? = some L ∧ (∀ running : List V, running.length = n →
        o.apply k running = some (f running) ∧ Understood L k (f running).length rest)) := by
  have huse : ∀ l : V, o.self? = some l → l ≠ L → o.uses L = false := by
    intro l hs hl
    rw [Op.uses]
    cases hc : o.operands.contains L with
    | false => rfl
    | true =>
      exfalso
      have := List.contains_iff_mem.1 hc
      cases o <;> simp [Op.self?] at hs <;> subst hs <;> simp [Op.operands, Op.plainOperands] at this hplain
      · rcases this with h | h
        · exact hl h.symm
        · exact hplain h
      · rcases this with h | h | h
        · exact hl h.symm
        · exact hplain.1 h
        · exact hplain.2 h
      · rcases this with h | h | h
        · exact hl h.symm
        · exact hplain.1 h
        · exact hplain.2 h
  cases o with
  | construct l es => exact Or.inl ⟨by simp [Op.target], h, fun _ => ⟨rfl, rfl⟩⟩
  | read s ls r => exact Or.inl ⟨by simp [Op.target], h, fun _ => ⟨rfl, rfl⟩⟩
  | mutate s ls r nn =>
    exact Or.inl ⟨by simpa [Op.target] using h.1, h.2, fun hu => absurd (List.contains_iff_mem.1 hu) h.1⟩
  | append l el used =>
    rw [Understood] at h
    by_cases e : l = L
    · rw [if_pos e] at h
      right
      refine ⟨fun r => r ++ [el], by rw [← e]; rfl, fun running hr => ⟨?_, ?_⟩⟩
      · simp [Op.apply, h.1]
      · simpa [hr] using h.2
    · rw [if_neg e] at h
      left
      refine ⟨by simpa [Op.target] using Ne.symm e, h, fun hu => ?_⟩
      rw [huse l rfl e] at hu; cases hu
  | insert l idx el =>
    rw [Understood] at h
    by_cases e : l = L
    · rw [if_pos e] at h
      obtain ⟨⟨c, hk, h0, hc⟩, hrest⟩ := h
      right
      refine ⟨fun r => r.insertIdx c.toNat el, by rw [← e]; rfl, fun running hr => ⟨?_, ?_⟩⟩
      · have : insertIndex k idx running.length = some c.toNat := by
          unfold insertIndex
          rw [hk]
          dsimp only
          rw [if_neg (by omega)]
        simp only [Op.apply, this]
      · rw [List.length_insertIdx, if_pos (by omega), hr]
        exact hrest
    · rw [if_neg e] at h
      left
      refine ⟨by simpa [Op.target] using Ne.symm e, h, fun hu => ?_⟩
      rw [huse l rfl e] at hu; cases hu
  | setItem l idx el used =>
    rw [Understood] at h
    by_cases e : l = L
    · rw [if_pos e] at h
      obtain ⟨hu, ⟨c, hk, h0, hc⟩, hrest⟩ := h
      right
      refine ⟨fun r => r.set (if c ≥ 0 then c else c + n).toNat el, by rw [← e]; rfl, fun running hr => ⟨?_, ?_⟩⟩
      · have : legalIndex k idx running.length = some (if c ≥ 0 then c else c + n).toNat := by
          unfold legalIndex
          rw [hk, hr]
          dsimp only
          by_cases hc0 : c ≥ 0
          · rw [if_pos hc0, if_pos (by omega)]
          · rw [if_neg hc0, if_pos (by omega)]
        simp [Op.apply, hu, this]
      · rw [List.length_set, hr]
        exact hrest
    · rw [if_neg e] at h
      left
      refine ⟨by simpa [Op.target] using Ne.symm e, h, fun hu => ?_⟩
      rw [huse l rfl e] at hu; cases hu

theorem understood_applies {L B : V} {k : V → Option Int} : ∀ (ops : List Op) (running : List V) (latest fresh : V),
    Understood L k running.length ops → NotNested L ops → B ≤ latest → B ≤ fresh →
    (∀ o ∈ ops, ∀ n ∈ o.operands, n < B) →
    ∃ lits gen ops' last, literals L k running ops = some (lits, gen) ∧ rewrite L lits latest fresh ops = some (ops', last)
      ∧ (gen = true ↔ ∃ o ∈ ops, L ∈ o.target)
      ∧ (∀ o ∈ ops', ∀ t ∈ o.target, t ≠ L ∧ t < B) := by
  intro ops
  induction ops with
  | nil => intro running latest fresh _ _ _ _ _; exact ⟨[], false, [], latest, rfl, rfl, by simp, by simp⟩
  | cons o rest ih =>
    intro running latest fresh h hnn hB hBf hops
    have hnn' : NotNested L rest := fun p hp => hnn p (List.mem_cons_of_mem _ hp)
    have hops' : ∀ p ∈ rest, ∀ n ∈ p.operands, n < B := fun p hp => hops p (List.mem_cons_of_mem _ hp)
    have hplain := hnn o (by simp)
    rcases understood_rest h hplain with ⟨htgt, hrest, huse⟩ | ⟨f, hself, hap⟩
    · obtain ⟨lits, gen, ops', last, h1, h2, h3, h4⟩ := ih running latest fresh hrest hnn' hB hBf hops'
      have hg : gen = true ↔ ∃ p ∈ o :: rest, L ∈ p.target := by
        rw [h3]
        constructor
        · rintro ⟨p, hp, ht⟩; exact ⟨p, List.mem_cons_of_mem _ hp, ht⟩
        · rintro ⟨p, hp, ht⟩
          rcases List.mem_cons.1 hp with rfl | hp
          · exact absurd ht htgt
          · exact ⟨p, hp, ht⟩
      have htargets : ∀ t ∈ o.target, t ≠ L ∧ t < B :=
        fun t ht => ⟨fun e => htgt (e ▸ ht), hops o (by simp) t (target_sub ht)⟩
      cases hu : o.uses L with
      | false =>
        refine ⟨lits, gen, o :: ops', last, by rw [literals, hu, if_neg (by decide)]; exact h1,
          by rw [rewrite, hu, if_neg (by decide), h2]; rfl, hg, ?_⟩
        intro p hp
        rcases List.mem_cons.1 hp with rfl | hp
        · exact htargets
        · exact h4 p hp
      | true =>
        obtain ⟨hs, hm⟩ := huse hu
        have hn : o.nested = false := by cases o <;> simp [Op.mutates, Op.nested] at hm ⊢
        refine ⟨lits, gen, o.subst L latest :: ops', last, by rw [literals, hu, if_pos rfl, hs]; simp [hm, h1],
          by rw [rewrite, hu, if_pos rfl, hs]; simp [hn, h2, consOp], hg, ?_⟩
        intro p hp
        rcases List.mem_cons.1 hp with rfl | hp
        · intro t ht
          exfalso
          cases o <;> simp [Op.self?, Op.mutates, Op.subst, Op.target] at hs hm ht
        · exact h4 p hp
    · obtain ⟨hap1, hrest⟩ := hap running rfl
      obtain ⟨lits, gen, ops', last, h1, h2, h3, h4⟩ := ih (f running) fresh (fresh + 1) hrest hnn' hBf
        (Nat.le_succ_of_le hBf) hops'
      have htgt : L ∈ o.target := by
        cases o <;> simp [Op.self?] at hself <;> subst hself <;> simp [Op.target]
      have hu := target_uses htgt
      refine ⟨f running :: lits, true, .construct fresh (f running) :: ops', last, ?_, ?_, ?_, ?_⟩
      · rw [literals, hu, if_pos rfl, hself]
        dsimp only
        rw [hap1]
        dsimp only
        rw [if_pos rfl, h1]
        rfl
      · rw [rewrite, hu, if_pos rfl, hself]
        dsimp only
        rw [if_pos rfl, h2]
        rfl
      · exact ⟨fun _ => ⟨o, by simp, htgt⟩, fun _ => rfl⟩
      · intro p hp
        rcases List.mem_cons.1 hp with rfl | hp
        · intro t ht; simp [Op.target] at ht
        · exact h4 p hp

theorem target_subst {L t : V} {o : Op} (h : L ∉ o.target) : (o.subst L t).target = o.target := by
  cases o <;> simp only [Op.target, Op.subst, List.mem_singleton] at h ⊢
  · rw [sub_ne (Ne.symm h)]
  · rw [sub_ne (Ne.symm h)]
  · rw [sub_ne (Ne.symm h)]
  · exact map_sub_id h

/-! ## What is not erased -/

theorem apply_used {k : V → Option Int} {running r : List V} {o : Op} (h : o.apply k running = some r) :
    o.resultUsed = false := by
  cases o with
  | append l el used => cases used <;> simp [Op.apply, Op.resultUsed] at h ⊢
  | setItem l idx el used => cases used <;> simp [Op.apply, Op.resultUsed] at h ⊢
  | _ => rfl

theorem rewrite_kept {L B : V} {k : V → Option Int} (hLB : L < B) : ∀ (ops : List Op) (running : List V)
    (lits : List (List V)) (gen : Bool) (latest fresh : V) (ops' : List Op) (last : V),
    literals L k running ops = some (lits, gen) → rewrite L lits latest fresh ops = some (ops', last) →
    B ≤ latest → B ≤ fresh →
    ∀ o ∈ ops, o.resultUsed = true → ∃ t, o.subst L t ∈ ops'.map (Op.subst L last) := by
  intro ops
  induction ops with
  | nil => intro running lits gen latest fresh ops' last _ _ _ _ o ho; simp at ho
  | cons q rest ih =>
    intro running lits gen latest fresh ops' last hl hr hB hBf o ho hused
    have hBf' : B ≤ fresh + 1 := Nat.le_succ_of_le hBf
    have hlat : latest ≠ L := fun e => Nat.lt_irrefl _ (Nat.lt_of_lt_of_le hLB (e ▸ hB))
    rw [literals] at hl
    rw [rewrite] at hr
    cases hu : q.uses L with
    | false =>
      rw [hu, if_neg (by decide)] at hl hr
      obtain ⟨ops1, e, rfl⟩ := consOp_some hr
      rcases List.mem_cons.1 ho with rfl | ho
      · exact ⟨last, by simp⟩
      · obtain ⟨t, ht⟩ := ih _ _ _ _ _ _ _ hl e hB hBf o ho hused
        exact ⟨t, by rw [List.map_cons]; exact List.mem_cons_of_mem _ ht⟩
    | true =>
      rw [hu, if_pos rfl] at hl hr
      cases hs : q.self? with
      | some l =>
        rw [hs] at hl hr
        dsimp only at hl
        cases ha : q.apply k running with
        | none => rw [ha] at hl; cases hl
        | some r =>
          rw [ha] at hl
          dsimp only at hl
          have ho : o ∈ rest := by
            rcases List.mem_cons.1 ho with rfl | ho
            · rw [apply_used ha] at hused; cases hused
            · exact ho
          by_cases hlL : l = L
          · rw [if_pos hlL] at hl
            obtain ⟨lits', gen', hl', rfl, _⟩ := addLiteral_some hl
            dsimp only at hr
            obtain ⟨ops1, e, rfl⟩ := consOp_some hr
            rw [if_pos hlL] at e
            obtain ⟨t, ht⟩ := ih _ _ _ _ _ _ _ hl' e hBf hBf' o ho hused
            exact ⟨t, by rw [List.map_cons]; exact List.mem_cons_of_mem _ ht⟩
          · rw [if_neg hlL] at hl
            obtain ⟨lits', gen', hl', rfl, _⟩ := addLiteral_some hl
            dsimp only at hr
            obtain ⟨ops1, e, rfl⟩ := consOp_some hr
            rw [if_neg hlL] at e
            obtain ⟨ops2, e2, rfl⟩ := consOp_some e
            obtain ⟨t, ht⟩ := ih _ _ _ _ _ _ _ hl' e2 hBf hBf' o ho hused
            exact ⟨t, by rw [List.map_cons, List.map_cons]; exact List.mem_cons_of_mem _ (List.mem_cons_of_mem _ ht)⟩
      | none =>
        rw [hs] at hl hr
        dsimp only at hl hr
        have hqu : q.resultUsed = false := by cases q <;> simp [Op.self?, Op.resultUsed] at hs ⊢
        have ho : o ∈ rest := by
          rcases List.mem_cons.1 ho with rfl | ho
          · rw [hqu] at hused; cases hused
          · exact ho
        cases hn : q.nested with
        | true =>
          rw [hn, if_pos rfl] at hr
          cases hr
          exact ⟨latest, by rw [List.map_cons]; exact List.mem_cons_of_mem _ (List.mem_map_of_mem ho)⟩
        | false =>
          rw [hn, if_neg (by decide)] at hr
          obtain ⟨ops1, e, rfl⟩ := consOp_some hr
          cases hm : q.mutates with
          | false =>
            rw [hm, if_neg (by decide)] at hl
            obtain ⟨t, ht⟩ := ih _ _ _ _ _ _ _ hl e hB hBf o ho hused
            exact ⟨t, by rw [List.map_cons]; exact List.mem_cons_of_mem _ ht⟩
          | true =>
            rw [hm, if_pos rfl] at hl
            simp only [Option.some.injEq, Prod.mk.injEq] at hl
            rw [← hl.1] at e
            obtain ⟨rfl, e2⟩ := rewrite_nil latest hlat _ _ _ _ e
            exact ⟨last, by rw [List.map_cons, e2]; exact List.mem_cons_of_mem _ (List.mem_map_of_mem ho)⟩

end Verif.ListInterp
