import Verif.Lemmas.Slots

namespace Verif.Slots

variable {D : Type}

/-- What the analysis says about an operation: results that may be the operand are safe if it is. -/
def SOp.Sound (trivial : Var → Bool) (safe : Var → Prop) : SOp D → Prop
  | .fresh _ _ _ => True
  | .value _ _ _ => True
  | .same a r => safe a → trivial a = false → safe r
  | .item _ a _ r => safe a → trivial a = false → safe r
  | .list _ as r => ∀ a ∈ as, safe a → trivial a = false → safe r

theorem sim_eval {P : Nat → Prop} {H0 : Heap D} {φ : Nat → Nat} {h h' : Heap D} {env env' : Env D} {trivial : Var → Bool}
    {safe : Var → Prop} (R : Rel P H0 φ h h') (E : EnvRel φ h' env env') (S : EnvSafe P h trivial safe env) (o : SOp D)
    (ho : o.Sound trivial safe) :
    (o.eval env h = none ∧ o.eval env' h' = none) ∨
      ∃ φ1 v' h1 h1', o.eval env h = some (v'.map φ1, h1) ∧ o.eval env' h' = some (v', h1') ∧ Rel P H0 φ1 h1 h1' ∧
        Step P φ h h' φ1 h1 h1' ∧ Valid h1' v' ∧ (Taint P h1 (v'.map φ1) → safe o.res) := by
  have notP : ¬ P h.length := fun p => by
    have := (R.frozen _ p).1
    have := R.len
    omega
  cases o with
  | fresh f as r =>
    rcases lookAll_rel E as with ⟨h1, h2⟩ | ⟨vs, h1, h2, h3⟩
    · left; simp [SOp.eval, h1, h2]
    · right
      have hs := seen_rel R h3
      refine ⟨upd φ h'.length h.length, .ref h'.length, h ++ [⟨f (vs.map (seen h')), []⟩], h' ++ [⟨f (vs.map (seen h')), []⟩], ?_, ?_,
        R.alloc _ [] (by simp), step_alloc P φ R.ok _ _, valid_ref.2 (by simp), ?_⟩
      · simp only [SOp.eval, h2, hs]
        simp [Val.map, upd]
      · simp [SOp.eval, h1]
      · rintro ⟨l, r, p⟩
        exfalso
        simp only [Val.map, upd, if_true] at r
        cases r with
        | here => exact notP p
        | step _ o k _ e hk _ =>
          rw [get_append_self] at e
          cases e
          cases hk
  | value f as r =>
    rcases lookAll_rel E as with ⟨h1, h2⟩ | ⟨vs, h1, h2, h3⟩
    · left; simp [SOp.eval, h1, h2]
    · right
      have hs := seen_rel R h3
      refine ⟨φ, .imm (f (vs.map (seen h'))), h, h', ?_, ?_, R, Step.refl .., valid_imm, fun t => absurd t not_taint_imm⟩
      · simp [SOp.eval, h2, hs, Val.map]
      · simp [SOp.eval, h1]
  | same a r =>
    obtain ⟨e1, e2⟩ := E a
    cases ha : env' a with
    | none =>
      rw [ha] at e1
      left; simp [SOp.eval, e1, ha]
    | some v =>
      rw [ha, Option.map_some] at e1
      right
      refine ⟨φ, v, h, h', by simp [SOp.eval, e1], by simp [SOp.eval, ha], R, Step.refl .., e2 v ha, fun t => ?_⟩
      obtain ⟨s1, s2⟩ := S a _ e1 t
      exact ho s1 s2
  | item i a as r =>
    obtain ⟨e1, e2⟩ := E a
    rcases lookAll_rel E as with ⟨h1, h2⟩ | ⟨vs, h1, h2, h3⟩
    · left
      constructor
      · cases hv : env a with
        | none => simp [SOp.eval, hv]
        | some v => cases v <;> simp [SOp.eval, hv, h1]
      · cases hv : env' a with
        | none => simp [SOp.eval, hv]
        | some v => cases v <;> simp [SOp.eval, hv, h2]
    · have hs := seen_rel R h3
      cases ha : env' a with
      | none =>
        rw [ha] at e1
        left; simp [SOp.eval, e1, ha]
      | some v =>
        rw [ha, Option.map_some] at e1
        cases v with
        | imm d => left; simp [SOp.eval, e1, ha, Val.map]
        | ref l =>
          have hl := valid_ref.1 (e2 _ ha)
          have e := List.getElem?_eq_getElem hl
          have e' := R.hom l _ e
          generalize ho' : h'[l] = o at e e'
          cases hk : o.kids[i (vs.map (seen h'))]? with
          | none => left; simp [SOp.eval, e1, ha, Val.map, h1, h2, e, e', hs, hk]
          | some k =>
            right
            refine ⟨φ, k, h, h', by simp [SOp.eval, e1, Val.map, h2, e', hs, hk], by simp [SOp.eval, ha, h1, e, hk], R, Step.refl ..,
              R.ok' l o e k (List.mem_of_getElem? hk), fun t => ?_⟩
            obtain ⟨s1, s2⟩ := S a _ e1 (t.kid e' (List.mem_map.2 ⟨k, List.mem_of_getElem? hk, rfl⟩))
            exact ho s1 s2
  | list d as r =>
    rcases lookAll_rel E as with ⟨h1, h2⟩ | ⟨vs, h1, h2, h3⟩
    · left; simp [SOp.eval, h1, h2]
    · right
      refine ⟨upd φ h'.length h.length, .ref h'.length, h ++ [⟨d, vs.map (Val.map φ)⟩], h' ++ [⟨d, vs⟩], ?_, ?_,
        R.alloc d vs h3, step_alloc P φ R.ok _ _, valid_ref.2 (by simp), ?_⟩
      · simp [SOp.eval, h2, Val.map, upd]
      · simp [SOp.eval, h1]
      · rintro ⟨l, r, p⟩
        simp only [Val.map, upd, if_true] at r
        cases r with
        | here => exact absurd p notP
        | step _ o k _ e hk r =>
          rw [get_append_self] at e
          cases e
          obtain ⟨a, ha, e⟩ := lookAll_mem h2 k hk
          have hv : Valid h k := E.valid R e
          obtain ⟨s1, s2⟩ := S a k e ⟨l, (reach_append R.ok _ hv).1 r, p⟩
          exact ho a ha s1 s2

/-! ## The initializer -/

/-- `P` are the objects made for the values in `N`. -/
structure Init (P : Nat → Prop) (N : Var → Prop) (trivial : Var → Bool) (safe : Var → Prop) (env : Env D) (h : Heap D) : Prop where
  safe : EnvSafe P h trivial safe env
  owned : ∀ y, N y → ∀ v, env y = some v → ∀ l, Reach h v l → P l
  lt : ∀ l, P l → l < h.length
  ok : HeapOk h
  valid : ∀ x v, env x = some v → Valid h v

/-- The same operations run later. -/
def Replays (P : Nat → Prop) (trivial : Var → Bool) (M : Var → Bool) (H0 : Heap D) (ops : List (SOp D)) (env env0 : Env D) : Prop :=
  ∀ φ h h' e', Rel P H0 φ h h' → (∀ x, M x = true → env x = (e' x).map (Val.map φ) ∧ ∀ v, e' x = some v → Valid h' v) →
    ∃ φ1 h1' e1', runSimple trivial (ops.filter fun o => M o.res) e' h' = some (e1', h1') ∧ Rel P H0 φ1 h h1' ∧
      Step P φ h h' φ1 h h1' ∧ ∀ x, M x = true → env0 x = (e1' x).map (Val.map φ1) ∧ ∀ v, e1' x = some v → Valid h1' v

theorem lookAll_some {env e' : Env D} {φ : Nat → Nat} {h' : Heap D} {M : Var → Bool}
    (he : ∀ x, M x = true → env x = (e' x).map (Val.map φ) ∧ ∀ v, e' x = some v → Valid h' v) :
    ∀ (as : List Var) (vs : List (Val D)), (∀ a ∈ as, M a = true) → lookAll env as = some vs →
      ∃ vs', lookAll e' as = some vs' ∧ vs = vs'.map (Val.map φ) ∧ ∀ v ∈ vs', Valid h' v := by
  intro as
  induction as with
  | nil => intro vs _ h; cases h; exact ⟨[], rfl, rfl, by simp⟩
  | cons a as ih =>
    intro vs ha h
    obtain ⟨e1, e2⟩ := he a (ha a (List.mem_cons_self ..))
    unfold lookAll at h
    cases hx : env a with
    | none => simp [hx] at h
    | some w =>
      cases hs : lookAll env as with
      | none => simp [hx, hs] at h
      | some ws =>
        simp only [hx, hs, Option.some.injEq] at h
        subst h
        obtain ⟨vs', g1, g2, g3⟩ := ih ws (fun b hb => ha b (List.mem_cons_of_mem _ hb)) hs
        rw [hx] at e1
        cases ha' : e' a with
        | none => rw [ha'] at e1; cases e1
        | some w' =>
          rw [ha', Option.map_some, Option.some.injEq] at e1
          refine ⟨w' :: vs', by simp [lookAll, ha', g1], by rw [List.map_cons, ← e1, ← g2], ?_⟩
          intro v hv
          rcases List.mem_cons.1 hv with rfl | hv
          · exact e2 _ ha'
          · exact g3 v hv

theorem bind_eq {trivial : Var → Bool} {env env1 : Env D} {x : Var} {v : Val D} (h : bind trivial env x v = some env1) :
    env1 = (fun y => if y = x then some v else env y) ∧ ∀ v' : Val D, (∀ l, v' = .ref l → ∃ l', v = .ref l') →
      ∀ e', bind trivial e' x v' = some fun y => if y = x then some v' else e' y := by
  unfold bind at h
  cases ht : trivial x with
  | false => simp [ht] at h; exact ⟨h.symm, fun v' _ e' => by simp [bind, ht]⟩
  | true =>
    cases v with
    | ref l => simp [ht] at h
    | imm d =>
      simp [ht] at h
      refine ⟨h.symm, fun v' hv e' => ?_⟩
      cases v' with
      | imm d => simp [bind, ht]
      | ref l => obtain ⟨l', hl⟩ := hv l rfl; cases hl

/-- The objects in `P` after an operation. -/
def grow (P : Nat → Prop) (N : Var → Prop) (x : Var) (h h1 : Heap D) : Nat → Prop :=
  fun l => P l ∨ (N x ∧ h.length ≤ l ∧ l < h1.length)

theorem init_core {P : Nat → Prop} {N : Var → Prop} {trivial : Var → Bool} {safe : Var → Prop} {env env1 : Env D} {h h1 : Heap D}
    (I : Init P N trivial safe env h) {x : Var} {v : Val D} (hb : bind trivial env x v = some env1)
    (hh : h1 = h ∨ ∃ o, h1 = h ++ [o]) (hok : HeapOk h1) (hv : Valid h1 v)
    (h1' : Taint (grow P N x h h1) h1 v → safe x) (h2' : N x → ∀ l, Reach h1 v l → grow P N x h h1 l) :
    Init (grow P N x h h1) N trivial safe env1 h1 ∧ (∀ l < h.length, h1[l]? = h[l]?) ∧ h.length ≤ h1.length ∧
      ∀ l < h.length, grow P N x h h1 l ↔ P l := by
  have hp : ∀ l < h.length, grow P N x h h1 l ↔ P l := fun l hl => by
    unfold grow
    constructor
    · rintro (p | ⟨-, a, -⟩)
      · exact p
      · omega
    · exact .inl
  have hpre : ∀ l < h.length, h1[l]? = h[l]? := fun l hl => by
    rcases hh with rfl | ⟨o, rfl⟩
    · rfl
    · exact get_append hl
  have hlen : h.length ≤ h1.length := by
    rcases hh with rfl | ⟨o, rfl⟩ <;> simp
  have hreach : ∀ w l, Valid h w → (Reach h1 w l ↔ Reach h w l) := fun w l hw => by
    rcases hh with rfl | ⟨o, rfl⟩
    · exact Iff.rfl
    · exact reach_append I.ok o hw
  obtain ⟨rfl, -⟩ := bind_eq hb
  refine ⟨⟨?_, ?_, ?_, hok, ?_⟩, hpre, hlen, hp⟩
  · refine bind_safe (env := env) (x := x) (v := v) ?_ hb h1'
    intro y w hy ⟨l, r, p⟩
    have hw := I.valid y w hy
    have r := (hreach w l hw).1 r
    exact I.safe y w hy ⟨l, r, (hp l (r.valid I.ok hw)).1 p⟩
  · intro y hy w hw l r
    by_cases e : y = x
    · subst e
      simp only [if_pos] at hw
      cases hw
      exact h2' hy l r
    · simp only [if_neg e] at hw
      exact .inl (I.owned y hy w hw l ((hreach w l (I.valid y w hw)).1 r))
  · rintro l (p | ⟨-, -, p⟩)
    · exact Nat.lt_of_lt_of_le (I.lt l p) hlen
    · exact p
  · intro y w hw
    by_cases e : y = x
    · subst e
      simp only [if_pos] at hw
      cases hw
      exact hv
    · simp only [if_neg e] at hw
      exact (I.valid y w hw).mono hlen

theorem grow_same {P : Nat → Prop} {N : Var → Prop} {x : Var} {h : Heap D} {l : Nat} : grow P N x h h l ↔ P l := by
  unfold grow
  constructor
  · rintro (p | ⟨-, a, b⟩)
    · exact p
    · omega
  · exact .inl

theorem init_step {P : Nat → Prop} {N : Var → Prop} {trivial : Var → Bool} {safe : Var → Prop} {env env1 : Env D} {h h1 : Heap D}
    (I : Init P N trivial safe env h) (o : SOp D) (hs : o.Sound trivial safe) (hN : N o.res → ∀ a ∈ o.args, N a)
    (hsafe : N o.res → safe o.res) {v : Val D} (he : o.eval env h = some (v, h1)) (hb : bind trivial env o.res v = some env1) :
    Init (grow P N o.res h h1) N trivial safe env1 h1 ∧ (∀ l < h.length, h1[l]? = h[l]?) ∧ h.length ≤ h1.length ∧
      ∀ l < h.length, grow P N o.res h h1 l ↔ P l := by
  cases o with
  | fresh f as r =>
    unfold SOp.eval at he
    cases hl : lookAll env as with
    | none => simp [hl] at he
    | some vs =>
      simp only [hl, Option.some.injEq, Prod.mk.injEq] at he
      obtain ⟨rfl, rfl⟩ := he
      have hr : ∀ l, Reach (h ++ [⟨f (vs.map (seen h)), []⟩]) (.ref h.length) l → l = h.length := by
        intro l r
        cases r with
        | here => rfl
        | step _ o k _ e hk _ => rw [get_append_self] at e; cases e; cases hk
      refine init_core I hb (.inr ⟨_, rfl⟩) (I.ok.append (by simp)) (valid_ref.2 (by simp)) ?_ ?_
      · rintro ⟨l, r, p⟩
        obtain rfl := hr l r
        rcases p with p | ⟨p, -, -⟩
        · exact absurd (I.lt _ p) (by omega)
        · exact hsafe p
      · intro n l r
        obtain rfl := hr l r
        exact .inr ⟨n, by simp⟩
  | value f as r =>
    unfold SOp.eval at he
    cases hl : lookAll env as with
    | none => simp [hl] at he
    | some vs =>
      simp only [hl, Option.some.injEq, Prod.mk.injEq] at he
      obtain ⟨rfl, rfl⟩ := he
      exact init_core I hb (.inl rfl) I.ok valid_imm (fun t => absurd t not_taint_imm) (fun _ l r => by cases r)
  | same a r =>
    unfold SOp.eval at he
    cases ha : env a with
    | none => simp [ha] at he
    | some w =>
      simp only [ha, Option.some.injEq, Prod.mk.injEq] at he
      obtain ⟨rfl, rfl⟩ := he
      refine init_core I hb (.inl rfl) I.ok (I.valid a _ ha) ?_ ?_
      · rintro ⟨l, r, p⟩
        obtain ⟨s1, s2⟩ := I.safe a _ ha ⟨l, r, grow_same.1 p⟩
        exact hs s1 s2
      · intro n l r
        exact .inl (I.owned a (hN n a (by simp [SOp.args])) _ ha l r)
  | item i a as r =>
    unfold SOp.eval at he
    cases ha : env a with
    | none => simp [ha] at he
    | some w =>
      cases hl : lookAll env as with
      | none => cases w <;> simp [ha, hl] at he
      | some vs =>
        cases w with
        | imm d => simp [ha, hl] at he
        | ref l0 =>
          simp only [ha, hl] at he
          cases ho : h[l0]? with
          | none => simp [ho] at he
          | some o =>
            simp only [ho] at he
            cases hk : o.kids[i (vs.map (seen h))]? with
            | none => simp [hk] at he
            | some k =>
              simp only [hk, Option.some.injEq, Prod.mk.injEq] at he
              obtain ⟨rfl, rfl⟩ := he
              have hm := List.mem_of_getElem? hk
              refine init_core I hb (.inl rfl) I.ok (I.ok _ _ ho _ hm) ?_ ?_
              · rintro ⟨l, r, p⟩
                obtain ⟨s1, s2⟩ := I.safe a _ ha ⟨l, .step l0 o _ l ho hm r, grow_same.1 p⟩
                exact hs s1 s2
              · intro n l r
                exact .inl (I.owned a (hN n a (by simp [SOp.args])) _ ha l (.step l0 o _ l ho hm r))
  | list d as r =>
    unfold SOp.eval at he
    cases hl : lookAll env as with
    | none => simp [hl] at he
    | some vs =>
      simp only [hl, Option.some.injEq, Prod.mk.injEq] at he
      obtain ⟨rfl, rfl⟩ := he
      have hv : ∀ k ∈ vs, Valid h k := fun k hk => by
        obtain ⟨a, -, e⟩ := lookAll_mem hl k hk
        exact I.valid a k e
      have hr : ∀ l, Reach (h ++ [⟨d, vs⟩]) (.ref h.length) l → l = h.length ∨ ∃ k ∈ vs, Reach h k l := by
        intro l r
        cases r with
        | here => exact .inl rfl
        | step _ o k _ e hk r =>
          rw [get_append_self] at e
          cases e
          exact .inr ⟨k, hk, (reach_append I.ok _ (hv k hk)).1 r⟩
      refine init_core I hb (.inr ⟨_, rfl⟩) (I.ok.append hv) (valid_ref.2 (by simp)) ?_ ?_
      · rintro ⟨l, r, p⟩
        rcases hr l r with rfl | ⟨k, hk, r⟩
        · rcases p with p | ⟨p, -, -⟩
          · exact absurd (I.lt _ p) (by omega)
          · exact hsafe p
        · obtain ⟨a, ha, e⟩ := lookAll_mem hl k hk
          rcases p with p | ⟨p, -, -⟩
          · obtain ⟨s1, s2⟩ := I.safe a k e ⟨l, r, p⟩
            exact hs a ha s1 s2
          · exact hsafe p
      · intro n l r
        rcases hr l r with rfl | ⟨k, hk, r⟩
        · exact .inr ⟨n, by simp⟩
        · obtain ⟨a, ha, e⟩ := lookAll_mem hl k hk
          exact .inl (I.owned a (hN n a ha) k e l r)

/-- An operation run again, on objects that are as they were. -/
theorem replay_step {P P1 : Nat → Prop} {N : Var → Prop} {trivial : Var → Bool} {safe : Var → Prop} {env : Env D} {h h1 H0 : Heap D}
    (I : Init P1 N trivial safe env h) (o : SOp D) {v : Val D} (he : o.eval env h = some (v, h1))
    (hP : ∀ l < h1.length, grow P1 N o.res h h1 l → P l) (hpre : ∀ l < h1.length, H0[l]? = h1[l]?)
    (hpre1 : ∀ l < h.length, h1[l]? = h[l]?) (hlen : h.length ≤ h1.length)
    {M : Var → Bool} (hMN : ∀ x, M x = true → N x) (hM : M o.res = true) (hargs : ∀ a ∈ o.args, M a = true)
    {φ : Nat → Nat} {g g' : Heap D} {e' : Env D} (R : Rel P H0 φ g g')
    (hrel : ∀ x, M x = true → env x = (e' x).map (Val.map φ) ∧ ∀ v, e' x = some v → Valid g' v) :
    ∃ φ1 g1' v', o.eval e' g' = some (v', g1') ∧ Rel P H0 φ1 g g1' ∧ Step P φ g g' φ1 g g1' ∧ v = v'.map φ1 ∧ Valid g1' v' := by
  have hold : ∀ x w, M x = true → env x = some w → ∀ l, Reach h w l → g[l]? = h[l]? := fun x w hx hw l r => by
    have hl := r.valid I.ok (I.valid x w hw)
    have p := hP l (by omega) (.inl (I.owned x (hMN x hx) w hw l r))
    rw [(R.frozen l p).2, hpre l (by omega), hpre1 l hl]
  have hseen : ∀ (as : List Var) (vs vs' : List (Val D)), (∀ a ∈ as, M a = true) → lookAll env as = some vs → vs = vs'.map (Val.map φ) →
      (∀ w ∈ vs', Valid g' w) → vs'.map (seen g') = vs.map (seen h) := by
    intro as vs vs' ha hl e hv
    rw [← seen_rel R hv, ← e]
    refine List.map_congr_left fun w hw => funext fun n => obs_agree n w fun l r => ?_
    obtain ⟨x, hx, ex⟩ := lookAll_mem hl w hw
    exact hold x w (ha x hx) ex l r
  cases o with
  | fresh f as r =>
    unfold SOp.eval at he
    cases hl : lookAll env as with
    | none => simp [hl] at he
    | some vs =>
      simp only [hl, Option.some.injEq, Prod.mk.injEq] at he
      obtain ⟨rfl, rfl⟩ := he
      obtain ⟨vs', g1, g2, g3⟩ := lookAll_some hrel as vs hargs hl
      have hs := hseen as vs vs' hargs hl g2 g3
      have p : P h.length := hP _ (by simp) (.inr ⟨hMN _ hM, by simp⟩)
      have ho : g[h.length]? = some ⟨f (vs.map (seen h)), []⟩ := by
        rw [(R.frozen _ p).2, hpre _ (by simp), get_append_self]
      refine ⟨upd φ g'.length h.length, g' ++ [⟨f (vs.map (seen h)), []⟩], .ref g'.length, by simp [SOp.eval, g1, hs],
        R.clone _ [] (by simp) _ p ho, step_clone .., by simp [Val.map, upd], valid_ref.2 (by simp)⟩
  | value f as r =>
    unfold SOp.eval at he
    cases hl : lookAll env as with
    | none => simp [hl] at he
    | some vs =>
      simp only [hl, Option.some.injEq, Prod.mk.injEq] at he
      obtain ⟨rfl, rfl⟩ := he
      obtain ⟨vs', g1, g2, g3⟩ := lookAll_some hrel as vs hargs hl
      have hs := hseen as vs vs' hargs hl g2 g3
      exact ⟨φ, g', .imm (f (vs.map (seen h))), by simp [SOp.eval, g1, hs], R, Step.refl .., rfl, valid_imm⟩
  | same a r =>
    unfold SOp.eval at he
    cases ha : env a with
    | none => simp [ha] at he
    | some w =>
      simp only [ha, Option.some.injEq, Prod.mk.injEq] at he
      obtain ⟨rfl, rfl⟩ := he
      obtain ⟨e1, e2⟩ := hrel a (hargs a (by simp [SOp.args]))
      rw [ha] at e1
      cases ha' : e' a with
      | none => rw [ha'] at e1; cases e1
      | some w' =>
        rw [ha', Option.map_some, Option.some.injEq] at e1
        exact ⟨φ, g', w', by simp [SOp.eval, ha'], R, Step.refl .., e1, e2 w' ha'⟩
  | item i a as r =>
    unfold SOp.eval at he
    obtain ⟨e1, e2⟩ := hrel a (hargs a (by simp [SOp.args]))
    have hargs' : ∀ b ∈ as, M b = true := fun b hb => hargs b (by simp [SOp.args, hb])
    cases ha : env a with
    | none => simp [ha] at he
    | some w =>
      cases hl : lookAll env as with
      | none => cases w <;> simp [ha, hl] at he
      | some vs =>
        cases w with
        | imm d => simp [ha, hl] at he
        | ref l0 =>
          simp only [ha, hl] at he
          cases ho : h[l0]? with
          | none => simp [ho] at he
          | some o =>
            simp only [ho] at he
            cases hk : o.kids[i (vs.map (seen h))]? with
            | none => simp [hk] at he
            | some k =>
              simp only [hk, Option.some.injEq, Prod.mk.injEq] at he
              obtain ⟨rfl, rfl⟩ := he
              obtain ⟨vs', g1, g2, g3⟩ := lookAll_some hrel as vs hargs' hl
              have hs := hseen as vs vs' hargs' hl g2 g3
              have hg := hold a _ (hargs a (by simp [SOp.args])) ha l0 (.here l0)
              rw [ha] at e1
              cases ha' : e' a with
              | none => rw [ha'] at e1; cases e1
              | some w' =>
                rw [ha', Option.map_some, Option.some.injEq] at e1
                cases w' with
                | imm d => cases e1
                | ref l' =>
                  have e1 : l0 = φ l' := by simpa [Val.map] using e1
                  have hl' := valid_ref.1 (e2 _ ha')
                  have e := List.getElem?_eq_getElem hl'
                  have hom := R.hom l' _ e
                  rw [← e1, hg, ho, Option.some.injEq] at hom
                  have hk' := hk
                  rw [hom] at hk'
                  simp only [List.getElem?_map, Option.map_eq_some_iff] at hk'
                  obtain ⟨k', hk1, hk2⟩ := hk'
                  refine ⟨φ, g', k', by simp only [SOp.eval, ha', g1, e, hs, hk1], R, Step.refl .., hk2.symm, ?_⟩
                  exact R.ok' l' _ e k' (List.mem_of_getElem? hk1)
  | list d as r =>
    unfold SOp.eval at he
    cases hl : lookAll env as with
    | none => simp [hl] at he
    | some vs =>
      simp only [hl, Option.some.injEq, Prod.mk.injEq] at he
      obtain ⟨rfl, rfl⟩ := he
      obtain ⟨vs', g1, g2, g3⟩ := lookAll_some hrel as vs hargs hl
      have p : P h.length := hP _ (by simp) (.inr ⟨hMN _ hM, by simp⟩)
      have ho : g[h.length]? = some ⟨d, vs'.map (Val.map φ)⟩ := by
        rw [(R.frozen _ p).2, hpre _ (by simp), get_append_self, g2]
      exact ⟨upd φ g'.length h.length, g' ++ [⟨d, vs'⟩], .ref g'.length, by simp [SOp.eval, g1],
        R.clone d vs' g3 _ p ho, step_clone .., by simp [Val.map, upd], valid_ref.2 (by simp)⟩

theorem init_run {N : Var → Prop} {trivial : Var → Bool} {safe : Var → Prop} : ∀ (ops : List (SOp D)) (env : Env D) (h : Heap D) (P0 : Nat → Prop),
    Init P0 N trivial safe env h → (∀ o ∈ ops, o.Sound trivial safe) → (∀ o ∈ ops, N o.res → ∀ a ∈ o.args, N a) →
    (∀ o ∈ ops, N o.res → safe o.res) → ∀ env0 H0, runSimple trivial ops env h = some (env0, H0) →
    ∃ P : Nat → Prop, (∀ l < h.length, P l ↔ P0 l) ∧ Init P N trivial safe env0 H0 ∧ (∀ l < h.length, H0[l]? = h[l]?) ∧
      h.length ≤ H0.length ∧
      ∀ M : Var → Bool, (∀ x, M x = true → N x) → (∀ o ∈ ops, M o.res = true → ∀ a ∈ o.args, M a = true) →
        Replays P trivial M H0 ops env env0 := by
  intro ops
  induction ops with
  | nil =>
    intro env h P0 I _ _ _ env0 H0 hr
    cases hr
    exact ⟨P0, fun _ _ => Iff.rfl, I, fun _ _ => rfl, Nat.le_refl _, fun M _ _ φ g g' e' R hrel =>
      ⟨φ, g', e', rfl, R, Step.refl .., hrel⟩⟩
  | cons o os ih =>
    intro env h P0 I hs hN hsafe env0 H0 hr
    unfold runSimple at hr
    cases he : o.eval env h with
    | none => simp [he] at hr
    | some r =>
      obtain ⟨v, h1⟩ := r
      simp only [he] at hr
      cases hb : bind trivial env o.res v with
      | none => simp [hb] at hr
      | some env1 =>
        simp only [hb] at hr
        have hm := List.mem_cons_self (a := o) (l := os)
        obtain ⟨I1, a1, a2, a3⟩ := init_step I o (hs o hm) (hN o hm) (hsafe o hm) he hb
        obtain ⟨P, b1, b2, b3, b4, b5⟩ := ih env1 h1 _ I1 (fun o' h' => hs o' (List.mem_cons_of_mem _ h'))
          (fun o' h' => hN o' (List.mem_cons_of_mem _ h')) (fun o' h' => hsafe o' (List.mem_cons_of_mem _ h')) env0 H0 hr
        refine ⟨P, fun l hl => (b1 l (by omega)).trans (a3 l hl), b2, fun l hl => (b3 l (by omega)).trans (a1 l hl), by omega, ?_⟩
        intro M hMN hMa φ g g' e' R hrel
        have hrest := b5 M hMN (fun o' h' => hMa o' (List.mem_cons_of_mem _ h'))
        by_cases hM : M o.res = true
        · obtain ⟨φ1, g1', v', c1, c2, c3, c4, c5⟩ := replay_step I o he (fun l hl p => (b1 l hl).2 p) b3 a1 a2 hMN hM (hMa o hm hM) R hrel
          obtain ⟨rfl, hb'⟩ := bind_eq hb
          have hb' := hb' v' (fun l e => by rw [c4, e]; exact ⟨_, rfl⟩) e'
          obtain ⟨φ2, g2', e2', d1, d2, d3, d4⟩ := hrest φ1 g g1' (fun y => if y = o.res then some v' else e' y) c2 (by
            intro x hx
            by_cases e : x = o.res
            · simp only [if_pos e, Option.map_some]
              exact ⟨by rw [c4], fun w hw => by cases hw; exact c5⟩
            · simp only [if_neg e]
              obtain ⟨e1, e2⟩ := hrel x hx
              refine ⟨?_, fun w hw => (e2 w hw).mono c3.len'⟩
              rw [e1]
              cases hx' : e' x with
              | none => rfl
              | some w => simp only [Option.map_some]; rw [c3.map (e2 w hx')])
          refine ⟨φ2, g2', e2', ?_, d2, c3.trans d3, d4⟩
          rw [List.filter_cons_of_pos (by simpa using hM)]
          simp only [runSimple, c1, hb']
          exact d1
        · obtain ⟨rfl, -⟩ := bind_eq hb
          obtain ⟨φ2, g2', e2', d1, d2, d3, d4⟩ := hrest φ g g' e' R (by
            intro x hx
            have : x ≠ o.res := fun e => hM (e ▸ hx)
            simp only [if_neg this]
            exact hrel x hx)
          refine ⟨φ2, g2', e2', ?_, d2, d3, d4⟩
          rw [List.filter_cons_of_neg (by simpa using hM)]
          exact d1

end Verif.Slots
