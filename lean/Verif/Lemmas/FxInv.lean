import Verif.Lemmas.FxNode

/-!
# Invariants of the importer's transition system
-/

namespace Verif.Fx
open Spec

variable {env : Env} {sc : Scope}

/-! ## Materialisation of lifted inputs -/

theorem materialised_append (a b : List Op) (n : Nat) :
    materialised (a ++ b) n = materialised a n + materialised b n := by
  unfold materialised; rw [List.countP_append]

theorem materialised_plain {k : OpKind} {a b : List Nat} (hk : k.plain = true) (n : Nat) :
    materialised [(⟨k, a, b⟩ : Op)] n = 0 := by
  unfold materialised
  cases k with
  | const l o => cases o <;> simp_all [OpKind.plain]
  | _ => simp_all [OpKind.plain]

theorem materialised_hookOp (h : Hook) (x n : Nat) : materialised [hookOp h x] n = 0 := by
  cases h <;> simp [materialised, hookOp]

theorem materialised_forced {m : Nat} {l : Lit} {len : Nat} {tys : List VTy} {ops : List Op} {x : Nat}
    (h : Forced env m l len tys ops x) (n : Nat) : materialised ops n = if m = n then 1 else 0 := by
  cases h <;> by_cases e : m = n <;> simp [materialised, e]

theorem inputIs_forced {m : Nat} {l : Lit} {len : Nat} {tys : List VTy} {ops pre : List Op} {x : Nat}
    (h : Forced env m l len tys ops x) : InputIs (pre ++ ops) m l x := by
  cases h with
  | load _ => exact Or.inl (by simp [Defines])
  | lit _ => exact Or.inr (Or.inl (by simp [Defines]))
  | boolTensor _ hl => exact Or.inr (Or.inr ⟨_, len, len + 1, hl, by simp [Defines], by simp [Defines], by simp [Defines]⟩)

theorem InputIs.mono {s s' : St} (h : Ext s s') {n : Nat} {l : Lit} {x : Nat} (hi : InputIs s.ops n l x) :
    InputIs s'.ops n l x := by
  rcases hi with hi | hi | ⟨obj, y, c, h1, h2, h3, h4⟩
  · exact Or.inl (Defines.mono h hi)
  · exact Or.inr (Or.inl (Defines.mono h hi))
  · exact Or.inr (Or.inr ⟨obj, y, c, h1, Defines.mono h h2, Defines.mono h h3, Defines.mono h h4⟩)

/-- Lazily bound inputs sit at their own key and have not been materialised. -/
structure LazyInv (s : St) : Prop where
  own : ∀ r i n l, dictGet s.v (.ref r i) = some (.lazy n l) → r = .graph n ∧ i = 0 ∧ materialised s.ops n = 0
  le : ∀ n, materialised s.ops n ≤ 1
  val : ∀ n, materialised s.ops n = 1 → ∃ x l, dictGet s.v (.ref (.graph n) 0) = some (.val x) ∧ InputIs s.ops n l x

theorem LazyInv.init (tys : List VTy) : LazyInv (St.init tys) := by
  refine ⟨?_, ?_, ?_⟩ <;> simp [St.init, materialised]

theorem Step.lazyInv {s s' : St} (h : Step env sc s s') (hi : LazyInv s) : LazyInv s' := by
  have hext := h.ext
  cases h with
  | emit k operands tys hk ho =>
    have hm : ∀ n, materialised (s.ops ++ [(⟨k, operands, List.range' s.tys.length tys.length⟩ : Op)]) n = materialised s.ops n := by
      intro n; rw [materialised_append, materialised_plain hk]; rfl
    refine ⟨fun r i n l hl => ?_, fun n => ?_, fun n hn => ?_⟩
    · obtain ⟨h1, h2, h3⟩ := hi.own r i n l hl
      exact ⟨h1, h2, by rw [← h3]; exact hm n⟩
    · have := hi.le n; simp only [hm]; exact this
    · simp only [hm] at hn
      obtain ⟨x, l, h1, h2⟩ := hi.val n hn
      exact ⟨x, l, h1, InputIs.mono hext h2⟩
  | bind r i name b hname hown hf hh hb =>
    refine ⟨fun r' i' n l hl => ?_, hi.le, fun n hn => ?_⟩
    · simp only [dictGet_set] at hl
      split at hl
      · rename_i e
        cases e
        cases hl
        obtain ⟨e1, e2⟩ := hb
        refine ⟨e1, e2, ?_⟩
        subst e1; subst e2
        have h1 := hi.le n
        by_contra hc
        obtain ⟨x, l', h2, _⟩ := hi.val n (by simp only at hc; omega)
        rw [hf] at h2; cases h2
      · exact hi.own r' i' n l hl
    · obtain ⟨x, l, h1, h2⟩ := hi.val n hn
      exact ⟨x, l, hext.v _ _ h1, h2⟩
  | bindHook r i name x h hname hown hf hh hb =>
    have hm : ∀ n, materialised (s.ops ++ [hookOp h x]) n = materialised s.ops n := by
      intro n; rw [materialised_append, materialised_hookOp]; rfl
    refine ⟨fun r' i' n l hl => ?_, fun n => ?_, fun n hn => ?_⟩
    · simp only [dictGet_set] at hl
      split at hl
      · cases hl
      · obtain ⟨h1, h2, h3⟩ := hi.own r' i' n l hl
        exact ⟨h1, h2, by rw [← h3]; exact hm n⟩
    · have := hi.le n; simp only [hm]; exact this
    · simp only [hm] at hn
      obtain ⟨x, l, h1, h2⟩ := hi.val n hn
      exact ⟨x, l, hext.v _ _ h1, InputIs.mono hext h2⟩
  | force r i n l tys ops x hu hl hfo =>
    obtain ⟨e1, e2, h0⟩ := hi.own r i n l hl
    subst e1; subst e2
    refine ⟨fun r' i' n' l' hl' => ?_, fun n' => ?_, fun n' hn => ?_⟩
    · simp only [dictGet_set] at hl'
      split at hl'
      · cases hl'
      · rename_i hne
        obtain ⟨h1, h2, h3⟩ := hi.own r' i' n' l' hl'
        refine ⟨h1, h2, ?_⟩
        simp only [materialised_append, materialised_forced hfo, h3]
        rw [if_neg]
        intro e; subst e; subst h1; subst h2; exact hne rfl
    · simp only [materialised_append, materialised_forced hfo]
      split
      · rename_i e; subst e; omega
      · have := hi.le n'; omega
    · by_cases e : n = n'
      · subst e
        exact ⟨x, l, by simp, inputIs_forced hfo⟩
      · simp only [materialised_append, materialised_forced hfo, if_neg e, Nat.add_zero] at hn
        obtain ⟨y, l', h1, h2⟩ := hi.val n' hn
        exact ⟨y, l', hext.v _ _ h1, InputIs.mono hext h2⟩
  | unpack r x tys hx hf hl htys =>
    have hm : ∀ n, materialised (s.ops ++ [(⟨.listUnpack, [x], List.range' s.tys.length tys.length⟩ : Op)]) n = materialised s.ops n := by
      intro n; rw [materialised_append, materialised_plain rfl]; rfl
    refine ⟨fun r i n l hl => ?_, fun n => ?_, fun n hn => ?_⟩
    · obtain ⟨h1, h2, h3⟩ := hi.own r i n l hl
      exact ⟨h1, h2, by rw [← h3]; exact hm n⟩
    · have := hi.le n; simp only [hm]; exact this
    · simp only [hm] at hn
      obtain ⟨x, l, h1, h2⟩ := hi.val n hn
      exact ⟨x, l, h1, InputIs.mono hext h2⟩
  | multi r _ => exact ⟨hi.own, hi.le, hi.val⟩
  | sym name x hf hx => exact ⟨hi.own, hi.le, hi.val⟩
  | hook name h _ _ => exact ⟨hi.own, hi.le, hi.val⟩

theorem Reach.lazyInv {s s' : St} (h : Reach env sc s s') (hi : LazyInv s) : LazyInv s' := by
  induction h with
  | refl => exact hi
  | tail _ h ih => exact h.lazyInv ih

/-- The state of the lifted input `n` with contents `l`. -/
def LiftedOk (s : St) (n : Nat) (l : Lit) : Prop :=
  (dictGet s.v (.ref (.graph n) 0) = some (.lazy n l) ∧ materialised s.ops n = 0) ∨
  (∃ x, dictGet s.v (.ref (.graph n) 0) = some (.val x) ∧ InputIs s.ops n l x ∧ materialised s.ops n = 1)

theorem Step.lifted {s s' : St} (h : Step env sc s s') (hi : LazyInv s) {n : Nat} {l : Lit} (hl : LiftedOk s n l) :
    LiftedOk s' n l := by
  have hext := h.ext
  have hi' := h.lazyInv hi
  -- the second alternative is stable
  have stable : (∃ x, dictGet s.v (.ref (.graph n) 0) = some (.val x) ∧ InputIs s.ops n l x ∧ materialised s.ops n = 1) →
      LiftedOk s' n l := by
    rintro ⟨x, h1, h2, h3⟩
    refine Or.inr ⟨x, hext.v _ _ h1, InputIs.mono hext h2, ?_⟩
    have := hi'.le n
    obtain ⟨o, ho⟩ := hext.ops
    rw [ho, materialised_append] at this ⊢
    omega
  rcases hl with ⟨h1, h2⟩ | hl
  · have bound : ∀ k b, dictGet s.v k = none → dictGet (dictSet s.v k b) (.ref (.graph n) 0) = some (.lazy n l) := by
      intro k b hk
      exact dictGet_set_fresh hk h1
    cases h with
    | emit k operands tys hk ho => exact Or.inl ⟨h1, (hi'.own _ _ _ _ h1).2.2⟩
    | bind r i name b hname hown hf hh hb => exact Or.inl ⟨bound _ _ hf, h2⟩
    | bindHook r i name x h hname hown hf hh hb => exact Or.inl ⟨bound _ _ hf, (hi'.own _ _ _ _ (bound _ _ hf)).2.2⟩
    | force r i m l' tys ops x hu hl hfo =>
      obtain ⟨e1, e2, h0⟩ := hi.own r i m l' hl
      subst e1; subst e2
      by_cases e : m = n
      · subst e
        rw [h1] at hl; cases hl
        refine Or.inr ⟨x, by simp, inputIs_forced hfo, ?_⟩
        show materialised (s.ops ++ ops) m = 1
        rw [materialised_append, materialised_forced hfo, if_pos rfl, h2]
      · refine Or.inl ⟨?_, ?_⟩
        · show dictGet (dictSet s.v _ _) _ = _
          rw [dictGet_set, if_neg]
          · exact h1
          · intro e'; cases e'; exact e rfl
        · show materialised (s.ops ++ ops) n = 0
          rw [materialised_append, materialised_forced hfo, if_neg e, h2]
    | unpack r x tys hx hf hl htys => exact Or.inl ⟨h1, (hi'.own _ _ _ _ h1).2.2⟩
    | multi r _ => exact Or.inl ⟨h1, h2⟩
    | sym name x hf hx => exact Or.inl ⟨h1, h2⟩
    | hook name h _ _ => exact Or.inl ⟨h1, h2⟩
  · exact stable hl

theorem Reach.lifted {s s' : St} (h : Reach env sc s s') (hi : LazyInv s) {n : Nat} {l : Lit} (hl : LiftedOk s n l) :
    LiftedOk s' n l := by
  induction h with
  | refl => exact hl
  | tail h h' ih => exact h'.lifted (Reach.lazyInv h hi) ih

/-! ## List unpacking -/

/-- The unpack table describes emitted `prim.ListUnpack` ops. -/
def UnpackInv (env : Env) (s : St) : Prop :=
  ∀ r ys, dictGet s.unpack r = some ys → ∃ x, NodeIs s r x ∧ (⟨.listUnpack, [x], ys⟩ : Op) ∈ s.ops ∧
    ∀ n, nodeOf env r = some n → ys.length = n.valTys.length

theorem UnpackInv.init (tys : List VTy) : UnpackInv env (St.init tys) := by
  intro r ys h; simp [St.init] at h

theorem Step.unpackInv {s s' : St} (h : Step env sc s s') (hi : UnpackInv env s) : UnpackInv env s' := by
  have hext := h.ext
  have keep : ∀ r ys, dictGet s.unpack r = some ys → ∃ x, NodeIs s' r x ∧ (⟨.listUnpack, [x], ys⟩ : Op) ∈ s'.ops ∧
      ∀ n, nodeOf env r = some n → ys.length = n.valTys.length := by
    intro r ys hr
    obtain ⟨x, h1, h2, h3⟩ := hi r ys hr
    exact ⟨x, NodeIs.mono hext h1, hext.mem h2, h3⟩
  cases h with
  | unpack r x tys hx hf hl htys =>
    intro r' ys hr
    simp only [dictGet_set] at hr
    split at hr
    · rename_i e
      subst e; cases hr
      exact ⟨x, hx, by simp, fun n hn => by rw [htys n hn]; simp⟩
    · exact keep r' ys hr
  | _ => exact keep

theorem Reach.unpackInv {s s' : St} (h : Reach env sc s s') (hi : UnpackInv env s) : UnpackInv env s' := by
  induction h with
  | refl => exact hi
  | tail _ h ih => exact h.unpackInv ih

/-! ## Write-back of mutations -/

/-- The values written by callback `h`. -/
def hits : Hook → List Op → List Nat
  | .overwrite m, ops => writes ops m
  | .store n, ops => stores ops n

theorem hits_append (h : Hook) (a b : List Op) : hits h (a ++ b) = hits h a ++ hits h b := by
  cases h <;> simp [hits, writes, stores, List.filterMap_append]

theorem hits_plain (h : Hook) {k : OpKind} {a b : List Nat} (hk : k.plain = true) : hits h [(⟨k, a, b⟩ : Op)] = [] := by
  cases h <;> cases k <;> simp_all [hits, writes, stores, OpKind.plain]

theorem hits_forced (h : Hook) {m : Nat} {l : Lit} {len : Nat} {tys : List VTy} {ops : List Op} {x : Nat}
    (hf : Forced env m l len tys ops x) : hits h ops = [] := by
  cases hf <;> cases h <;> simp [hits, writes, stores]

theorem hits_hookOp (h h' : Hook) (x : Nat) : hits h [hookOp h' x] = if h' = h then [x] else [] := by
  cases h <;> cases h' <;> simp [hits, writes, stores, hookOp]
  · split <;> simp_all
  · split <;> simp_all

/-- Callback `h` fires exactly when `(graph p, 0)` is bound. -/
def FiredOk (s : St) (p : Nat) (h : Hook) : Prop :=
  (dictGet s.v (.ref (.graph p) 0) = none ∧ hits h s.ops = []) ∨
  (∃ x, dictGet s.v (.ref (.graph p) 0) = some (.val x) ∧ hits h s.ops = [x])

/-- Conditions under which callback `h` is the business of node `p` only. -/
structure HookOf (env : Env) (sc : Scope) (hooks : List (String × Hook)) (p : Nat) (node : Node) (h : Hook) : Prop where
  at_ : env.nodes[p]? = some node
  reg : dictGet hooks node.name = some h
  only : ∀ name, dictGet hooks name = some h → name = node.name
  unique : ∀ r, NameIs env r node.name → r = .graph p
  own : ∀ j, sc.own (.graph p) j → j = 0
  attr : ¬ IsAttr env (.graph p)

theorem Step.fired {s s' : St} (hs : Step env sc s s') {p : Nat} {node : Node} {h : Hook}
    (hh : HookOf env sc s.hooks p node h) (hnh : ∀ n h, ¬ sc.hooks n h) (hf : FiredOk s p h) : FiredOk s' p h := by
  have hext := hs.ext
  -- steps that only append ops without hits and do not bind the key
  have quiet : ∀ ops', s'.ops = s.ops ++ ops' → hits h ops' = [] →
      (dictGet s.v (.ref (.graph p) 0) = none → dictGet s'.v (.ref (.graph p) 0) = none) → FiredOk s' p h := by
    intro ops' ho hn hk
    rcases hf with ⟨h1, h2⟩ | ⟨x, h1, h2⟩
    · exact Or.inl ⟨hk h1, by rw [ho, hits_append, h2, hn]; rfl⟩
    · exact Or.inr ⟨x, hext.v _ _ h1, by rw [ho, hits_append, h2, hn]; rfl⟩
  cases hs with
  | emit k operands tys hk ho => exact quiet _ rfl (hits_plain h hk) fun h => h
  | bind r i name b hname hown hfr hho hb =>
    refine quiet [] (by simp) (by cases h <;> rfl) fun hk => ?_
    show dictGet (dictSet s.v _ _) _ = _
    rw [dictGet_set]
    split
    · rename_i e
      cases e
      obtain ⟨n, h1, h2⟩ := hname
      have e := hh.at_
      rw [h1] at e; cases e
      have := hh.reg
      rw [h2] at this
      rw [this] at hho; cases hho
    · exact hk
  | bindHook r i name x h' hname hown hfr hho hb =>
    by_cases e : h' = h
    · subst e
      have hn := hh.only name hho
      subst hn
      have hr := hh.unique r hname
      subst hr
      have hi : i = 0 := by
        rcases hown with ho | ⟨ha, _⟩
        · exact hh.own i ho
        · exact absurd ha hh.attr
      subst hi
      rcases hf with ⟨h1, h2⟩ | ⟨y, h1, h2⟩
      · refine Or.inr ⟨x, by simp, ?_⟩
        show hits h' (s.ops ++ [hookOp h' x]) = _
        rw [hits_append, h2, hits_hookOp, if_pos rfl]; rfl
      · rw [hfr] at h1; cases h1
    · refine quiet [hookOp h' x] rfl (by rw [hits_hookOp, if_neg e]) fun hk => ?_
      show dictGet (dictSet s.v _ _) _ = _
      rw [dictGet_set]
      split
      · rename_i e'
        cases e'
        obtain ⟨n, h1, h2⟩ := hname
        have e1 := hh.at_
        rw [h1] at e1; cases e1
        have := hh.reg
        rw [h2, hho] at this
        cases this; exact absurd rfl e
      · exact hk
  | force r i n l tys ops x hu hl hfo =>
    refine quiet ops rfl (hits_forced h hfo) fun hk => ?_
    show dictGet (dictSet s.v _ _) _ = _
    rw [dictGet_set]
    split
    · rename_i e; rw [e] at hl; rw [hk] at hl; cases hl
    · exact hk
  | unpack r x tys hx hf hl htys => exact quiet _ rfl (hits_plain h rfl) fun h => h
  | multi r _ => exact quiet [] (by simp) (by cases h <;> rfl) fun h => h
  | sym name x hf hx => exact quiet [] (by simp) (by cases h <;> rfl) fun h => h
  | hook name h' hc _ => exact absurd hc (hnh _ _)

theorem Reach.fired {s s' : St} (hs : Reach env sc s s') {p : Nat} {node : Node} {h : Hook}
    (hh : HookOf env sc s.hooks p node h) (hnh : ∀ n h, ¬ sc.hooks n h) (hf : FiredOk s p h) : FiredOk s' p h := by
  induction hs with
  | refl => exact hf
  | tail hr h' ih =>
    have e := Reach.hooks_eq hr hnh
    exact h'.fired (by rw [e]; exact hh) hnh ih

/-- Nothing is written unless a callback is registered for it. -/
theorem Step.no_hits {s s' : St} (hs : Step env sc s s') {h : Hook}
    (hh : ∀ name, dictGet s.hooks name ≠ some h) : hits h s'.ops = hits h s.ops := by
  cases hs with
  | emit k operands tys hk ho => show hits h (s.ops ++ _) = _; rw [hits_append, hits_plain h hk, List.append_nil]
  | bind r i name b hname hown hfr hho hb => rfl
  | bindHook r i name x h' hname hown hfr hho hb =>
    show hits h (s.ops ++ _) = _
    rw [hits_append, hits_hookOp, if_neg, List.append_nil]
    intro e; subst e; exact hh name hho
  | force r i n l tys ops x hu hl hfo => show hits h (s.ops ++ _) = _; rw [hits_append, hits_forced h hfo, List.append_nil]
  | unpack r x tys hx hf hl htys => show hits h (s.ops ++ _) = _; rw [hits_append, hits_plain h rfl, List.append_nil]
  | multi r _ => rfl
  | sym name x hf hx => rfl
  | hook name h' hc _ => rfl

end Verif.Fx
