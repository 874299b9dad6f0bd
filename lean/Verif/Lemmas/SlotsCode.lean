import Verif.Lemmas.SlotsSim
import Verif.Spec.Slots

namespace Verif.Slots

variable {D : Type}

/-! ## Writes -/

theorem get_set {h : Heap D} {m l : Nat} {o : Obj D} (hm : m < h.length) : (h.set m o)[l]? = if l = m then some o else h[l]? := by
  by_cases e : l = m
  · subst e; simp [hm]
  · rw [if_neg e, List.getElem?_set_ne (Ne.symm e)]

theorem HeapOk.set {h : Heap D} (ok : HeapOk h) {m : Nat} {o : Obj D} (hm : m < h.length) (ho : ∀ k ∈ o.kids, Valid h k) :
    HeapOk (h.set m o) := by
  intro l o1 e k hk
  rw [get_set hm] at e
  have : (h.set m o).length = h.length := by simp
  by_cases el : l = m
  · rw [if_pos el] at e
    cases e
    exact (ho k hk).mono (by omega)
  · rw [if_neg el] at e
    exact (ok l o1 e k hk).mono (by omega)

theorem Rel.set {P : Nat → Prop} {H0 : Heap D} {φ : Nat → Nat} {h h' : Heap D} (R : Rel P H0 φ h h') {l : Nat} (hl : l < h'.length)
    (hp : ¬ P (φ l)) (d : D) (ks : List (Val D)) (hk : ∀ k ∈ ks, Valid h' k) :
    Rel P H0 φ (h.set (φ l) ⟨d, ks.map (Val.map φ)⟩) (h'.set l ⟨d, ks⟩) where
  hom := fun l2 o e => by
    rw [get_set hl] at e
    rw [get_set (R.lt hl)]
    by_cases e2 : l2 = l
    · rw [if_pos e2] at e
      cases e
      rw [e2, if_pos rfl]
    · rw [if_neg e2] at e
      have : φ l2 ≠ φ l := fun c => by
        rcases R.inj l2 l (lt_of_get e) hl c with h1 | h1
        · exact e2 h1
        · exact hp (c ▸ h1)
      rw [if_neg this]
      exact R.hom l2 o e
  inj := fun a b ha hb e => R.inj a b (by simpa using ha) (by simpa using hb) e
  ok := R.ok.set (R.lt hl) fun k hm => by
    obtain ⟨k', hm', rfl⟩ := List.mem_map.1 hm
    exact (hk k' hm').map R
  ok' := R.ok'.set hl hk
  frozen := fun a p => ⟨(R.frozen a p).1, by
    rw [get_set (R.lt hl), if_neg (fun e : a = φ l => hp (e ▸ p))]
    exact (R.frozen a p).2⟩
  len := by have := R.len; simpa using this

theorem taint_set {P : Nat → Prop} {h : Heap D} {m : Nat} {o o1 : Obj D} (ho : h[m]? = some o)
    (hk : ∀ k ∈ o1.kids, k ∈ o.kids ∨ ¬ Taint P h k) {v : Val D} (t : Taint P (h.set m o1) v) : Taint P h v := by
  obtain ⟨l, r, p⟩ := t
  induction r with
  | here l => exact ⟨l, .here l, p⟩
  | step l o2 k l' e hm _ ih =>
    have ih := ih p
    rw [get_set (lt_of_get ho)] at e
    by_cases el : l = m
    · rw [if_pos el] at e
      cases e
      rcases hk k hm with h1 | h1
      · exact el ▸ ih.kid ho h1
      · exact absurd ih h1
    · rw [if_neg el] at e
      exact ih.kid e hm

/-- The value of `a` is not an object of a slot. -/
def Free (trivial : Var → Bool) (safe : Var → Prop) (a : Var) : Prop := safe a → trivial a = true

theorem Free.untainted {P : Nat → Prop} {h : Heap D} {trivial : Var → Bool} {safe : Var → Prop} {env : Env D} {a : Var} {v : Val D}
    (hf : Free trivial safe a) (S : EnvSafe P h trivial safe env) (e : env a = some v) : ¬ Taint P h v := fun t => by
  obtain ⟨s1, s2⟩ := S a v e t
  rw [hf s1] at s2
  cases s2

theorem sim_update {P : Nat → Prop} {H0 : Heap D} {φ : Nat → Nat} {h h' : Heap D} {env env' : Env D} {trivial : Var → Bool}
    {safe : Var → Prop} (R : Rel P H0 φ h h') (E : EnvRel φ h' env env') (S : EnvSafe P h trivial safe env) {a : Var}
    (ha : Free trivial safe a) (f f' : Obj D → Obj D)
    (hf : ∀ o, f ⟨o.data, o.kids.map (Val.map φ)⟩ = ⟨(f' o).data, (f' o).kids.map (Val.map φ)⟩)
    (hv : ∀ o, (∀ k ∈ o.kids, Valid h' k) → ∀ k ∈ (f' o).kids, Valid h' k)
    (hk : ∀ o, ∀ k ∈ (f o).kids, k ∈ o.kids ∨ ¬ Taint P h k) :
    (Heap.update h (env a) f = none ∧ Heap.update h' (env' a) f' = none) ∨
      ∃ h1 h1', Heap.update h (env a) f = some h1 ∧ Heap.update h' (env' a) f' = some h1' ∧ Rel P H0 φ h1 h1' ∧
        Step P φ h h' φ h1 h1' := by
  obtain ⟨e1, e2⟩ := E a
  cases hx : env' a with
  | none => rw [hx] at e1; left; rw [e1]; exact ⟨rfl, rfl⟩
  | some v =>
    rw [hx, Option.map_some] at e1
    cases v with
    | imm d => left; rw [e1]; exact ⟨rfl, rfl⟩
    | ref l =>
      right
      have hl := valid_ref.1 (e2 _ hx)
      have e := List.getElem?_eq_getElem hl
      have e' := R.hom l _ e
      generalize h'[l] = o at e e'
      have hp : ¬ P (φ l) := fun p => ha.untainted S e1 ⟨φ l, .here _, p⟩
      refine ⟨h.set (φ l) (f ⟨o.data, o.kids.map (Val.map φ)⟩), h'.set l (f' o), ?_, ?_, ?_, ?_⟩
      · rw [e1]; simp only [Val.map, Heap.update, e']
      · simp only [Heap.update, e]
      · rw [hf]
        exact R.set hl hp _ _ (hv o (R.ok' l o e))
      · exact ⟨fun _ _ => rfl, by simp, by simp, fun v _ t => taint_set e' (hk _) t⟩

/-! ## Blocks -/

/-- What is the same for a whole run. -/
structure Ctx (D : Type) where
  P : Nat → Prop
  H0 : Heap D
  trivial : Var → Bool
  safe : Var → Prop
  slotSafe : Slot → Prop
  init : List (SOp D)
  inlined : List (Slot × Var)
  env0 : Env D

structure Ctx.Good (c : Ctx D) : Prop where
  replays : ∀ s y, c.inlined.lookup s = some y →
    Replays c.P c.trivial (fun x => decide (x ∈ needed y c.init)) c.H0 c.init Env.empty c.env0
  safe : ∀ s y, c.inlined.lookup s = some y → c.slotSafe s

def Flat.Sound (c : Ctx D) : Flat D → Prop
  | .simple o => o.Sound c.trivial c.safe
  | .get s r => c.slotSafe s → c.safe r
  | .set s a => ¬ c.slotSafe s ∧ Free c.trivial c.safe a
  | .mutate _ a _ => Free c.trivial c.safe a
  | .append a x => Free c.trivial c.safe a ∧ Free c.trivial c.safe x
  | .emit _ => True
  | .cloned _ _ _ => False

def Code.Sound (c : Ctx D) : Code D → Prop
  | .ret as => ∀ a ∈ as, Free c.trivial c.safe a
  | .op o k => o.Sound c ∧ k.Sound c
  | .iff _ _ t e _ k => t.Sound c ∧ e.Sound c ∧ k.Sound c

/-- The state of the module, before and after inlining. -/
structure SRel (c : Ctx D) (φ : Nat → Nat) (st st' : State D) : Prop where
  rel : Rel c.P c.H0 φ st.heap st'.heap
  kept : ∀ s, c.inlined.lookup s = none → st.slots s = (st'.slots s).map (Val.map φ) ∧ ∀ v, st'.slots s = some v → Valid st'.heap v
  gone : ∀ s y, c.inlined.lookup s = some y → st.slots s = c.env0 y
  taint : ∀ s v, c.inlined.lookup s = none → st.slots s = some v → Taint c.P st.heap v → c.slotSafe s
  trace : st.trace = st'.trace

theorem SRel.validSlot {c : Ctx D} {φ : Nat → Nat} {st st' : State D} (R : SRel c φ st st') {s : Slot} {v : Val D}
    (hs : c.inlined.lookup s = none) (e : st.slots s = some v) : Valid st.heap v := by
  obtain ⟨e1, e2⟩ := R.kept s hs
  rw [e1] at e
  cases hx : st'.slots s with
  | none => rw [hx] at e; cases e
  | some v' =>
    rw [hx] at e
    cases e
    exact (e2 v' hx).map R.rel

theorem SRel.heap {c : Ctx D} {φ φ1 : Nat → Nat} {st st' : State D} (R : SRel c φ st st') {h h' : Heap D}
    (r : Rel c.P c.H0 φ1 h h') (a : Step c.P φ st.heap st'.heap φ1 h h') :
    SRel c φ1 { st with heap := h } { st' with heap := h' } where
  rel := r
  kept := fun s hs => by
    obtain ⟨e1, e2⟩ := R.kept s hs
    refine ⟨?_, fun v hv => (e2 v hv).mono a.len'⟩
    show st.slots s = (st'.slots s).map (Val.map φ1)
    rw [e1]
    cases hx : st'.slots s with
    | none => rfl
    | some v => simp only [Option.map_some]; rw [a.map (e2 v hx)]
  gone := R.gone
  taint := fun s v hs e t => R.taint s v hs e (a.taint v (R.validSlot hs e) t)
  trace := R.trace

/-- Values and states go on being related. -/
def Ok (c : Ctx D) (φ : Nat → Nat) (st st' : State D) (r r' : Option (Env D × State D)) : Prop :=
  (r = none ∧ r' = none) ∨ ∃ φ1 env1 env1' st1 st1', r = some (env1, st1) ∧ r' = some (env1', st1') ∧ SRel c φ1 st1 st1' ∧
    EnvRel φ1 st1'.heap env1 env1' ∧ EnvSafe c.P st1.heap c.trivial c.safe env1 ∧ Step c.P φ st.heap st'.heap φ1 st1.heap st1'.heap

theorem bindIn_ok {c : Ctx D} {φ φ1 : Nat → Nat} {st st' : State D} {h h' : Heap D} {env env' : Env D} (R : SRel c φ st st')
    (E : EnvRel φ st'.heap env env') (S : EnvSafe c.P st.heap c.trivial c.safe env) (r : Rel c.P c.H0 φ1 h h')
    (a : Step c.P φ st.heap st'.heap φ1 h h') (x : Var) (v v' : Option (Val D)) (hv : v = v'.map (Val.map φ1))
    (hv' : ∀ w, v' = some w → Valid h' w) (ht : ∀ w, v = some w → Taint c.P h w → c.safe x) :
    Ok c φ st st' (bindIn c.trivial env { st with heap := h } x v) (bindIn c.trivial env' { st' with heap := h' } x v') := by
  cases v' with
  | none => subst hv; exact .inl ⟨rfl, rfl⟩
  | some v' =>
    rw [Option.map_some] at hv
    subst hv
    have E1 := E.step a
    have S1 := S.step E R.rel a
    rcases bind_rel E1 c.trivial x v' (hv' v' rfl) with ⟨b1, b2⟩ | ⟨env1, env1', b1, b2, b3, -, -⟩
    · exact .inl ⟨by simp [bindIn, b1], by simp [bindIn, b2]⟩
    · exact .inr ⟨φ1, env1, env1', _, _, by simp only [bindIn, b1], by simp only [bindIn, b2], R.heap r a, b3,
        bind_safe S1 b1 (ht _ rfl), a⟩

theorem sim_flat {c : Ctx D} (g : c.Good) {φ : Nat → Nat} {st st' : State D} {env env' : Env D} (R : SRel c φ st st')
    (E : EnvRel φ st'.heap env env') (S : EnvSafe c.P st.heap c.trivial c.safe env) (o : Flat D) (ho : o.Sound c) :
    Ok c φ st st' (o.run c.trivial env st) ((o.inline c.init c.inlined).run c.trivial env' st') := by
  cases o with
  | simple o =>
    show Ok c φ st st' (Flat.run c.trivial env st (.simple o)) (Flat.run c.trivial env' st' (.simple o))
    unfold Flat.run
    rcases sim_eval R.rel E S o ho with ⟨h1, h2⟩ | ⟨φ1, v', h1, h1', e1, e2, r, a, hv, ht⟩
    · exact .inl ⟨by simp [h1], by simp [h2]⟩
    · simp only [e1, e2]
      exact bindIn_ok R E S r a o.res _ (some v') rfl (fun w hw => by cases hw; exact hv) (fun w hw => by cases hw; exact ht)
  | get s r =>
    cases hl : c.inlined.lookup s with
    | none =>
      have : (Flat.get s r : Flat D).inline c.init c.inlined = .get s r := by simp only [Flat.inline, hl]
      rw [this]
      obtain ⟨e1, e2⟩ := R.kept s hl
      exact bindIn_ok R E S R.rel (Step.refl ..) r _ _ e1 e2 (fun w hw t => ho (R.taint s w hl hw t))
    | some y =>
      have : (Flat.get s r : Flat D).inline c.init c.inlined = .cloned (slice y c.init) y r := by simp only [Flat.inline, hl]
      rw [this]
      obtain ⟨φ1, h1', e1', r1, r2, r3, r4⟩ := g.replays s y hl φ st.heap st'.heap Env.empty R.rel (fun x _ => ⟨rfl, fun v hv => by cases hv⟩)
      have hy : y ∈ needed y c.init := by
        unfold needed
        generalize c.init = ops
        induction ops with
        | nil => simp
        | cons o os ih => simp only [List.foldr_cons]; split <;> simp [ih]
      obtain ⟨q1, q2⟩ := r4 y (by simpa using hy)
      have hc : Flat.run c.trivial env' st' (.cloned (slice y c.init) y r) =
          bindIn c.trivial env' { st' with heap := h1' } r (e1' y) := by
        have r1' : runSimple c.trivial (slice y c.init) Env.empty st'.heap = some (e1', h1') := r1
        simp only [Flat.run, r1']
      rw [hc]
      exact bindIn_ok R E S r2 r3 r _ _ ((R.gone s y hl).trans q1) q2 (fun _ _ _ => ho (g.safe s y hl))
  | set s a =>
    obtain ⟨h1, h2⟩ := ho
    show Ok c φ st st' (Flat.run c.trivial env st (.set s a)) (Flat.run c.trivial env' st' (.set s a))
    unfold Flat.run
    obtain ⟨e1, e2⟩ := E a
    cases hx : env' a with
    | none => rw [hx] at e1; exact .inl ⟨by simp [e1], by simp [hx]⟩
    | some v =>
      rw [hx, Option.map_some] at e1
      simp only [e1, hx]
      have hs : ∀ y, c.inlined.lookup s ≠ some y := fun y hy => h1 (g.safe s y hy)
      refine .inr ⟨φ, env, env', _, _, rfl, rfl, ⟨R.rel, ?_, ?_, ?_, R.trace⟩, E, S, Step.refl ..⟩
      · intro s' hs'
        by_cases e : s' = s
        · simp only [if_pos e, Option.map_some]
          exact ⟨trivial, fun w hw => by cases hw; exact e2 _ hx⟩
        · simp only [if_neg e]
          exact R.kept s' hs'
      · intro s' y hy
        have : s' ≠ s := fun e => hs y (e ▸ hy)
        simp only [if_neg this]
        exact R.gone s' y hy
      · intro s' w hs' hw t
        by_cases e : s' = s
        · simp only [if_pos e] at hw
          cases hw
          exact absurd t (h2.untainted S e1)
        · simp only [if_neg e] at hw
          exact R.taint s' w hs' hw t
  | mutate f a as =>
    show Ok c φ st st' (Flat.run c.trivial env st (.mutate f a as)) (Flat.run c.trivial env' st' (.mutate f a as))
    unfold Flat.run
    rcases lookAll_rel E as with ⟨h1, h2⟩ | ⟨vs, h1, h2, h3⟩
    · exact .inl ⟨by simp [h1], by simp [h2]⟩
    · have hs := seen_rel R.rel h3
      simp only [h1, h2, hs]
      rcases sim_update R.rel E S ho (fun o => { o with data := f (vs.map (seen st'.heap)) })
        (fun o => { o with data := f (vs.map (seen st'.heap)) }) (fun _ => rfl) (fun o h => h) (fun o k hk => .inl hk) with
        ⟨u1, u2⟩ | ⟨g1, g1', u1, u2, u3, u4⟩
      · exact .inl ⟨by simp [u1], by simp [u2]⟩
      · exact .inr ⟨φ, env, env', _, _, by simp only [u1], by simp only [u2], R.heap u3 u4, E.step u4, S.step E R.rel u4, u4⟩
  | append a x =>
    obtain ⟨ha, hx⟩ := ho
    show Ok c φ st st' (Flat.run c.trivial env st (.append a x)) (Flat.run c.trivial env' st' (.append a x))
    unfold Flat.run
    obtain ⟨e1, e2⟩ := E x
    cases hv : env' x with
    | none => rw [hv] at e1; exact .inl ⟨by simp [e1], by simp [hv]⟩
    | some v =>
      rw [hv, Option.map_some] at e1
      simp only [e1, hv]
      rcases sim_update R.rel E S ha (fun o => { o with kids := o.kids ++ [v.map φ] })
        (fun o => { o with kids := o.kids ++ [v] }) (fun o => by simp) (fun o h k hk => by
          rcases List.mem_append.1 hk with hk | hk
          · exact h k hk
          · rw [List.mem_singleton.1 hk]; exact e2 v hv) (fun o k hk => by
          rcases List.mem_append.1 hk with hk | hk
          · exact .inl hk
          · rw [List.mem_singleton.1 hk]; exact .inr (hx.untainted S e1)) with
        ⟨u1, u2⟩ | ⟨g1, g1', u1, u2, u3, u4⟩
      · exact .inl ⟨by simp [u1], by simp [u2]⟩
      · exact .inr ⟨φ, env, env', _, _, by simp only [u1], by simp only [u2], R.heap u3 u4, E.step u4, S.step E R.rel u4, u4⟩
  | emit as =>
    show Ok c φ st st' (Flat.run c.trivial env st (.emit as)) (Flat.run c.trivial env' st' (.emit as))
    unfold Flat.run
    rcases lookAll_rel E as with ⟨h1, h2⟩ | ⟨vs, h1, h2, h3⟩
    · exact .inl ⟨by simp [h1], by simp [h2]⟩
    · have hs := seen_rel R.rel h3
      simp only [h1, h2, hs]
      exact .inr ⟨φ, env, env', _, _, rfl, rfl, ⟨R.rel, R.kept, R.gone, R.taint, by simp [R.trace]⟩, E, S, Step.refl ..⟩
  | cloned ops y r => exact ho.elim

theorem bindAll_rel {P : Nat → Prop} {φ : Nat → Nat} {h h' : Heap D} {trivial : Var → Bool} {safe : Var → Prop} :
    ∀ (xs : List Var) (vs : List (Val D)) (env env' : Env D), EnvRel φ h' env env' → EnvSafe P h trivial safe env →
      (∀ v ∈ vs, Valid h' v ∧ ¬ Taint P h (v.map φ)) →
      (bindAll trivial env xs (vs.map (Val.map φ)) = none ∧ bindAll trivial env' xs vs = none) ∨
        ∃ env1 env1', bindAll trivial env xs (vs.map (Val.map φ)) = some env1 ∧ bindAll trivial env' xs vs = some env1' ∧
          EnvRel φ h' env1 env1' ∧ EnvSafe P h trivial safe env1 := by
  intro xs
  induction xs with
  | nil =>
    intro vs env env' E S hv
    cases vs with
    | nil => exact .inr ⟨env, env', rfl, rfl, E, S⟩
    | cons v vs => exact .inl ⟨rfl, rfl⟩
  | cons x xs ih =>
    intro vs env env' E S hv
    cases vs with
    | nil => exact .inl ⟨rfl, rfl⟩
    | cons v vs =>
      obtain ⟨v1, v2⟩ := hv v (List.mem_cons_self ..)
      rw [List.map_cons]
      unfold bindAll
      rcases bind_rel E trivial x v v1 with ⟨b1, b2⟩ | ⟨env1, env1', b1, b2, b3, -, -⟩
      · exact .inl ⟨by simp [b1], by simp [b2]⟩
      · simp only [b1, b2]
        exact ih vs env1 env1' b3 (bind_safe S b1 fun t => absurd t v2) fun w hw => hv w (List.mem_cons_of_mem _ hw)

/-- Results of a block. -/
def OkC (c : Ctx D) (φ : Nat → Nat) (st st' : State D) (r r' : Option (List (Val D) × State D)) : Prop :=
  (r = none ∧ r' = none) ∨ ∃ φ1 vs st1 st1', r = some (vs.map (Val.map φ1), st1) ∧ r' = some (vs, st1') ∧ SRel c φ1 st1 st1' ∧
    (∀ v ∈ vs, Valid st1'.heap v ∧ ¬ Taint c.P st1.heap (v.map φ1)) ∧ Step c.P φ st.heap st'.heap φ1 st1.heap st1'.heap

theorem OkC.after {c : Ctx D} {φ φ1 : Nat → Nat} {st st' st1 st1' : State D} {r r' : Option (List (Val D) × State D)}
    (a : Step c.P φ st.heap st'.heap φ1 st1.heap st1'.heap) (h : OkC c φ1 st1 st1' r r') : OkC c φ st st' r r' := by
  rcases h with h | ⟨φ2, vs, s, s', h1, h2, h3, h4, h5⟩
  · exact .inl h
  · exact .inr ⟨φ2, vs, s, s', h1, h2, h3, h4, a.trans h5⟩

theorem sim_code {c : Ctx D} (g : c.Good) (k : Code D) : ∀ {φ : Nat → Nat} {st st' : State D} {env env' : Env D},
    SRel c φ st st' → EnvRel φ st'.heap env env' → EnvSafe c.P st.heap c.trivial c.safe env → k.Sound c →
    OkC c φ st st' (k.run c.trivial env st) ((k.inline c.init c.inlined).run c.trivial env' st') := by
  induction k with
  | ret as =>
    intro φ st st' env env' R E S hk
    unfold Code.inline Code.run
    rcases lookAll_rel E as with ⟨h1, h2⟩ | ⟨vs, h1, h2, h3⟩
    · exact .inl ⟨by simp [h1], by simp [h2]⟩
    · refine .inr ⟨φ, vs, st, st', by simp [h2], by simp [h1], R, fun v hv => ⟨h3 v hv, ?_⟩, Step.refl ..⟩
      obtain ⟨a, ha, e⟩ := lookAll_mem h2 _ (List.mem_map.2 ⟨v, hv, rfl⟩)
      exact (hk a ha).untainted S e
  | op o k ih =>
    intro φ st st' env env' R E S hk
    unfold Code.inline Code.run
    rcases sim_flat g R E S o hk.1 with ⟨h1, h2⟩ | ⟨φ1, env1, env1', st1, st1', h1, h2, R1, E1, S1, a⟩
    · exact .inl ⟨by simp [h1], by simp [h2]⟩
    · simp only [h1, h2]
      exact (ih R1 E1 S1 hk.2).after a
  | iff test x t e res k iht ihe ihk =>
    intro φ st st' env env' R E S hk
    obtain ⟨k1, k2, k3⟩ := hk
    unfold Code.inline Code.run
    have hb : branch test (env x) = branch test (env' x) := by
      rw [(E x).1]
      cases env' x with
      | none => rfl
      | some v => cases v <;> rfl
    rw [hb]
    cases hb' : branch test (env' x) with
    | none => exact .inl ⟨rfl, rfl⟩
    | some b =>
      have key : OkC c φ st st' (if b then t.run c.trivial env st else e.run c.trivial env st)
          (if b then (t.inline c.init c.inlined).run c.trivial env' st' else (e.inline c.init c.inlined).run c.trivial env' st') := by
        cases b with
        | true => exact iht R E S k1
        | false => exact ihe R E S k2
      dsimp only
      rcases key with ⟨h1, h2⟩ | ⟨φ1, vs, st1, st1', h1, h2, R1, hv, a⟩
      · exact .inl ⟨by rw [h1], by rw [h2]⟩
      · rw [h1, h2]
        dsimp only
        rcases bindAll_rel res vs env env' (E.step a) (S.step E R.rel a) hv with ⟨b1, b2⟩ | ⟨env1, env1', b1, b2, b3, b4⟩
        · exact .inl ⟨by rw [b1], by rw [b2]⟩
        · rw [b1, b2]
          exact (ihk R1 b3 b4 k3).after a

end Verif.Slots
