import Verif.Spec.Scf
import Mathlib.Tactic.Common

namespace Verif.Scf

variable {D : Type}

def Agree (xs : List Var) (env env' : Env D) : Prop := ∀ x ∈ xs, env x = env' x

theorem Agree.mono {xs ys : List Var} {env env' : Env D} (h : Agree ys env env') (hs : ∀ x ∈ xs, x ∈ ys) : Agree xs env env' :=
  fun x hx => h x (hs x hx)

theorem get_agree {a : Arg D} {env env' : Env D} (h : Agree a.uses env env') : a.get env = a.get env' := by
  cases a with
  | lit v => rfl
  | var x => exact h x (by simp [Arg.uses])

theorem getAll_agree {env env' : Env D} : ∀ (as : List (Arg D)), Agree (as.flatMap Arg.uses) env env' → getAll env as = getAll env' as := by
  intro as
  induction as with
  | nil => intro _; rfl
  | cons a as ih =>
    intro h
    unfold getAll
    rw [get_agree (a := a) (h.mono (by intro x hx; simp [hx])), ih (h.mono (by intro x hx; simp only [List.flatMap_cons, List.mem_append]; exact .inr hx))]

theorem getAll_length {env : Env D} : ∀ (as : List (Arg D)) (vs : List (Val D)), getAll env as = some vs → vs.length = as.length := by
  intro as
  induction as with
  | nil => intro vs h; cases h; rfl
  | cons a as ih =>
    intro vs h
    unfold getAll at h
    cases ha : a.get env with
    | none => simp [ha] at h
    | some v =>
      cases hs : getAll env as with
      | none => simp [ha, hs] at h
      | some ws =>
        simp only [ha, hs, Option.some.injEq] at h
        subst h
        simp [ih ws hs]

theorem bindAll_agree {xs : List Var} : ∀ (ps : List Var) (vs : List (Val D)) (env env' : Env D),
    (∀ x ∈ xs, x ∈ ps ∨ env x = env' x) →
    (bindAll env ps vs = none ∧ bindAll env' ps vs = none) ∨
      ∃ e e', bindAll env ps vs = some e ∧ bindAll env' ps vs = some e' ∧ Agree xs e e' := by
  intro ps
  induction ps with
  | nil =>
    intro vs env env' h
    cases vs with
    | nil => exact .inr ⟨env, env', rfl, rfl, fun x hx => by simpa using h x hx⟩
    | cons v vs => exact .inl ⟨rfl, rfl⟩
  | cons p ps ih =>
    intro vs env env' h
    cases vs with
    | nil => exact .inl ⟨rfl, rfl⟩
    | cons v vs =>
      unfold bindAll
      refine ih vs _ _ fun x hx => ?_
      by_cases e : x = p
      · right; simp [e]
      · rcases h x hx with h | h
        · rcases List.mem_cons.1 h with h | h
          · exact absurd h e
          · exact .inl h
        · right; simp [e, h]

theorem enter_agree {xs : List Var} {run run' : Env D → Option (List (Val D))} {env env' : Env D} {ps : List Var}
    (h : ∀ x ∈ xs, x ∈ ps ∨ env x = env' x) (hr : ∀ e e', Agree xs e e' → run e = run' e') (vs : List (Val D)) :
    enter run env ps vs = enter run' env' ps vs := by
  unfold enter
  rcases bindAll_agree ps vs env env' h with ⟨h1, h2⟩ | ⟨e, e', h1, h2, h3⟩
  · rw [h1, h2]
  · rw [h1, h2]; exact hr e e' h3

theorem leave_agree {xs : List Var} {run run' : Env D → Option (List (Val D))} {env env' : Env D} {ps : List Var}
    (h : Agree xs env env') (hr : ∀ e e', Agree xs e e' → run e = run' e') (vs : Option (List (Val D))) :
    leave vs run env ps = leave vs run' env' ps := by
  cases vs with
  | none => rfl
  | some vs => exact enter_agree (fun x hx => .inr (h x hx)) hr vs

/-- What the terminator of a for-like loop's body loses. -/
def wrap (inFor : Bool) (r : Option (List (Val D))) : Option (List (Val D)) := if inFor then r.map (.bool true :: ·) else r

theorem enter_wrap (b : Bool) (run : Env D → Option (List (Val D))) (env : Env D) (ps : List Var) (vs : List (Val D)) :
    enter (fun e => wrap b (run e)) env ps vs = wrap b (enter run env ps vs) := by
  unfold enter
  cases bindAll env ps vs with
  | none => cases b <;> rfl
  | some e => rfl

theorem leave_wrap (b : Bool) (run : Env D → Option (List (Val D))) (env : Env D) (ps : List Var) (vs : Option (List (Val D))) :
    leave vs (fun e => wrap b (run e)) env ps = wrap b (leave vs run env ps) := by
  cases vs with
  | none => cases b <;> rfl
  | some vs => exact enter_wrap ..

theorem for_iterate {body body' : Int → List (Val D) → Option (List (Val D))} (n : Int)
    (h : ∀ i vs, body i vs = (body' i vs).map (.bool true :: ·)) : ∀ (fuel : Nat) (i : Int) (vs : List (Val D)),
    iterate body n fuel i true vs = forLoop body' n 1 fuel i vs := by
  intro fuel
  induction fuel with
  | zero =>
    intro i vs
    unfold iterate forLoop
    by_cases hi : i < n <;> simp [hi]
  | succ fuel ih =>
    intro i vs
    unfold iterate forLoop
    by_cases hi : i < n
    · simp only [hi, decide_true, Bool.and_self, if_true, h]
      cases body' i vs with
      | none => rfl
      | some ws => exact ih (i + 1) ws
    · simp [hi]

theorem while_iterate {body : Int → List (Val D) → Option (List (Val D))} {before after : List (Val D) → Option (List (Val D))} (n : Int)
    (m : Nat) (hb : ∀ vs : List (Val D), vs.length = m + 1 → before vs = some vs) (h : ∀ i vs, body i vs = after vs)
    (hl : ∀ i vs ws, body i vs = some ws → ws.length = m + 1) : ∀ (fuel : Nat) (i : Int) (c : Bool) (vs : List (Val D)),
    vs.length = m → i + fuel < n → iterate body n fuel i c vs = whileLoop before after fuel (.bool c :: vs) := by
  intro fuel
  induction fuel with
  | zero =>
    intro i c vs hv hi
    unfold iterate whileLoop
    rw [hb _ (by simp [hv])]
    have : i < n := by simpa using hi
    cases c <;> simp [this]
  | succ fuel ih =>
    intro i c vs hv hi
    have hi' : i < n := by omega
    unfold iterate whileLoop
    rw [hb _ (by simp [hv])]
    cases c with
    | false => simp
    | true =>
      simp only [hi', decide_true, Bool.and_self, if_true, h]
      cases ha : after vs with
      | none => rfl
      | some ws =>
        have hw := hl i vs ws (by rw [h, ha])
        cases ws with
        | nil => simp at hw
        | cons w ws =>
          simp only [List.length_cons, Nat.add_right_cancel_iff] at hw
          cases w with
          | bool c => exact ih (i + 1) c ws hw (by omega)
          | int z =>
            dsimp only
            unfold whileLoop
            rw [hb _ (by simp [hw])]
          | other d =>
            dsimp only
            unfold whileLoop
            rw [hb _ (by simp [hw])]

theorem ends_length {P : Arg D → Prop} {n fuel : Nat} (b : Blk D) : b.EndsLoop P n → ∀ env vs, b.run fuel env = some vs → vs.length = n + 1 := by
  have hleave : ∀ (k : Blk D) (o : Option (List (Val D))) (env : Env D) (res : List Var) (vs : List (Val D)),
      (∀ e ws, k.run fuel e = some ws → ws.length = n + 1) → leave o (fun e => k.run fuel e) env res = some vs → vs.length = n + 1 := by
    intro k o env res vs hk h
    cases o with
    | none => cases h
    | some ws =>
      simp only [leave, enter] at h
      cases hb : bindAll env res ws with
      | none => simp [hb] at h
      | some e => rw [hb] at h; exact hk e vs h
  induction b with
  | done outs => intro h; exact h.elim
  | cond c outs =>
    intro h env vs hr
    rw [getAll_length _ _ hr, List.length_cons, h.2]
  | op f args res k ih =>
    intro h env vs hr
    unfold Blk.run at hr
    cases ha : getAll env args with
    | none => simp [ha] at hr
    | some ws => rw [ha] at hr; exact hleave k _ _ _ _ (ih h) hr
  | iff c t e res k _ _ ih =>
    intro h env vs hr
    unfold Blk.run at hr
    cases hc : c.get env with
    | none => simp [hc] at hr
    | some v =>
      rw [hc] at hr
      cases v with
      | int z => simp at hr
      | other d => simp at hr
      | bool x => cases x <;> exact hleave k _ _ _ _ (ih h) hr
  | loop trip init inits iv params body res k _ ih =>
    intro h env vs hr
    unfold Blk.run at hr
    split at hr
    · exact hleave k _ _ _ _ (ih h) hr
    · cases hr

theorem lookup_params {env : Env D} : ∀ (ps : List Var) (vs : List (Val D)), ps.Nodup → vs.length = ps.length →
    ∃ e, bindAll env ps vs = some e ∧ getAll e (ps.map .var) = some vs ∧ ∀ x, x ∉ ps → e x = env x := by
  have gen : ∀ (ps : List Var) (vs : List (Val D)) (env : Env D), ps.Nodup → vs.length = ps.length →
    ∃ e, bindAll env ps vs = some e ∧ getAll e (ps.map .var) = some vs ∧ ∀ x, x ∉ ps → e x = env x := by
    intro ps
    induction ps with
    | nil =>
      intro vs env _ h
      have : vs = [] := List.length_eq_zero_iff.1 h
      subst this
      exact ⟨env, rfl, rfl, fun _ _ => rfl⟩
    | cons p ps ih =>
      intro vs env hn h
      rw [List.nodup_cons] at hn
      cases vs with
      | nil => simp at h
      | cons v vs =>
        obtain ⟨e, h1, h2, h3⟩ := ih vs (fun y => if y = p then some v else env y) hn.2 (by simpa using h)
        refine ⟨e, h1, ?_, fun x hx => ?_⟩
        · have hp := h3 p hn.1
          simp only [if_pos] at hp
          simp [getAll, Arg.get, hp, h2]
        · rw [List.mem_cons, not_or] at hx
          rw [h3 x hx.2]
          simp [hx.1]
  exact fun ps vs => gen ps vs env

theorem convert_run (T : Nat) (fresh : Var) (N : Nat) (hN : N < T) (b : Blk D) : b.Plain T fresh → ∀ (inFor : Bool) (n : Nat),
    (inFor = true → b.EndsLoop (fun c => c = .lit (.bool true)) n) → ∀ env env', Agree b.uses env env' →
    b.run N env = wrap inFor ((convert fresh inFor b).run N env') := by
  induction b with
  | done outs =>
    intro _ inFor n he env env' ha
    cases inFor with
    | true => exact (he rfl).elim
    | false => exact getAll_agree outs ha
  | cond c outs =>
    intro _ inFor n he env env' ha
    cases inFor with
    | true =>
      obtain ⟨rfl, -⟩ := he rfl
      have h1 : getAll env outs = getAll env' outs := getAll_agree outs (ha.mono (by intro x hx; simp only [Blk.uses, List.mem_append]; exact .inr hx))
      simp only [Blk.run, convert, if_true, Scf.run, wrap, getAll, Arg.get, h1]
      cases getAll env' outs <;> rfl
    | false =>
      simp only [Blk.run, convert, Bool.false_eq_true, if_false, Scf.run, wrap]
      exact getAll_agree (c :: outs) (by simpa [Blk.uses] using ha)
  | op f args res k ih =>
    intro hp inFor n he env env' ha
    have h1 : getAll env args = getAll env' args := getAll_agree args (ha.mono (by intro x hx; simp only [Blk.uses, List.mem_append]; exact .inl hx))
    have hk : Agree k.uses env env' := ha.mono (by intro x hx; simp [Blk.uses, hx])
    unfold Blk.run convert Scf.run
    rw [h1]
    cases getAll env' args with
    | none => cases inFor <;> rfl
    | some vs =>
      dsimp only
      rw [← leave_wrap]
      exact leave_agree hk (fun e e' h => ih hp inFor n he e e' h) (f vs)
  | iff c t e res k iht ihe ihk =>
    intro hp inFor n he env env' ha
    obtain ⟨p1, p2, p3⟩ := hp
    have h1 : c.get env = c.get env' := get_agree (ha.mono (by intro x hx; simp [Blk.uses, hx]))
    have ht := iht p1 false 0 (by simp) env env' (ha.mono (by intro x hx; simp [Blk.uses, hx]))
    have he' := ihe p2 false 0 (by simp) env env' (ha.mono (by intro x hx; simp [Blk.uses, hx]))
    have hk : Agree k.uses env env' := ha.mono (by intro x hx; simp [Blk.uses, hx])
    simp only [wrap, Bool.false_eq_true, if_false] at ht he'
    unfold Blk.run convert Scf.run
    rw [h1, ht, he']
    cases c.get env' with
    | none => cases inFor <;> rfl
    | some v =>
      cases v with
      | int z => cases inFor <;> rfl
      | other d => cases inFor <;> rfl
      | bool x =>
        cases x <;> dsimp only <;> rw [← leave_wrap] <;> exact leave_agree hk (fun e e' h => ihk p3 inFor n he e e' h) _
  | loop trip init inits iv params body res k ihb ihk =>
    intro hp inFor n he env env' ha
    obtain ⟨p1, p2, p3, p4, p5⟩ := hp
    have h1 : trip.get env = trip.get env' := get_agree (ha.mono (by intro x hx; simp [Blk.uses, hx]))
    have h2 : init.get env = init.get env' := get_agree (ha.mono (by intro x hx; simp [Blk.uses, hx]))
    have h3 : getAll env inits = getAll env' inits := getAll_agree inits (ha.mono (by
      intro x hx; simp only [Blk.uses, List.mem_append]; exact .inl (.inl (.inr hx))))
    have hb : Agree body.uses env env' := ha.mono (by intro x hx; simp [Blk.uses, hx])
    have hk : Agree k.uses env env' := ha.mono (by intro x hx; simp [Blk.uses, hx])
    unfold Blk.run convert
    rw [h1, h2, h3]
    cases hf : isForLike init with
    | true =>
      have e2 : init.get env' = some (.bool true) := by
        unfold isForLike at hf
        split at hf
        · rfl
        · cases hf
      rw [e2]
      simp only [if_true]
      unfold Scf.run
      rw [show ∀ v : Val D, (Arg.lit v).get env' = some v from fun _ => rfl, show ∀ v : Val D, (Arg.lit v).get env' = some v from fun _ => rfl]
      have key : ∀ i vs, enter (fun e => body.run N e) env (iv :: params) (.int i :: vs) =
          (enter (fun e => (convert fresh true body).run N e) env' (iv :: params) (.int i :: vs)).map (.bool true :: ·) := by
        intro i vs
        rw [show ∀ r : Option (List (Val D)), r.map (.bool true :: ·) = wrap true r from fun _ => rfl, ← enter_wrap]
        exact enter_agree (fun x hx => .inr (hb x hx)) (fun e e' h => ihb p2 true _ (fun _ => p4 hf) e e' h) _
      cases ht : trip.get env' with
      | none => cases inFor <;> rfl
      | some t =>
        cases t with
        | bool _ => cases inFor <;> rfl
        | other _ => cases inFor <;> rfl
        | int t =>
          cases getAll env' inits with
          | none => cases inFor <;> rfl
          | some vs =>
            dsimp only
            rw [← leave_wrap, for_iterate t key]
            exact leave_agree hk (fun e e' h => ihk p3 inFor n he e e' h) _
    | false =>
      obtain ⟨q1, q2, q3, q4, t, rfl, q6⟩ := p5 hf
      simp only [Bool.false_eq_true, if_false]
      unfold Scf.run
      have key : ∀ i vs, enter (fun e => body.run N e) env (iv :: params) (.int i :: vs) =
          enter (fun e => (convert fresh false body).run N e) env' params vs := by
        intro i vs
        have : enter (fun e => body.run N e) env (iv :: params) (.int i :: vs) =
            enter (fun e => body.run N e) (fun y => if y = iv then some (.int i) else env y) params vs := rfl
        rw [this]
        refine enter_agree (xs := body.uses) (fun x hx => .inr ?_) (fun e e' h => ?_) _
        · have : x ≠ iv := fun e => q4 (e ▸ hx)
          simp only [if_neg this]
          exact hb x hx
        · exact ihb p2 false 0 (by simp) e e' h
      have hbefore : ∀ vs : List (Val D), vs.length = params.length + 1 →
          enter (fun e => getAll e (.var fresh :: params.map .var)) env' (fresh :: params) vs = some vs := by
        intro vs hv
        obtain ⟨e, b1, b2, -⟩ := lookup_params (env := env') (fresh :: params) vs (List.nodup_cons.2 ⟨q3, q2⟩) (by simpa using hv)
        unfold enter
        rw [b1]
        exact b2
      have hlen : ∀ i vs ws, enter (fun e => body.run N e) env (iv :: params) (.int i :: vs) = some ws → ws.length = params.length + 1 := by
        intro i vs ws h
        unfold enter at h
        cases hb : bindAll env (iv :: params) (.int i :: vs) with
        | none => simp [hb] at h
        | some e => rw [hb] at h; exact ends_length body q1 e ws h
      have hg : (Arg.lit (.int t) : Arg D).get env' = some (.int t) := rfl
      rw [hg]
      have hcons : getAll env' (init :: inits) = match init.get env', getAll env' inits with
        | some v, some vs => some (v :: vs)
        | _, _ => none := rfl
      rw [hcons]
      cases hi : init.get env' with
      | none => cases inFor <;> rfl
      | some c =>
        cases hs : getAll env' inits with
        | none => cases c <;> cases inFor <;> rfl
        | some vs =>
          have hv : vs.length = params.length := by rw [getAll_length _ _ hs, p1]
          have hw : ∀ vs : List (Val D), vs.length = params.length + 1 → (∀ c ws, vs ≠ .bool c :: ws) →
              whileLoop (fun vs => enter (fun e => getAll e (.var fresh :: params.map .var)) env' (fresh :: params) vs)
                (fun vs => enter (fun e => (convert fresh false body).run N e) env' params vs) N vs = none := by
            intro vs hv hn
            unfold whileLoop
            rw [hbefore vs hv]
            cases vs with
            | nil => rfl
            | cons v vs =>
              cases v with
              | bool c => exact absurd rfl (hn c vs)
              | int _ => rfl
              | other _ => rfl
          cases c with
          | int z =>
            dsimp only
            rw [hw _ (by simp [hv]) (by simp)]
            cases inFor <;> rfl
          | other d =>
            dsimp only
            rw [hw _ (by simp [hv]) (by simp)]
            cases inFor <;> rfl
          | bool c =>
            dsimp only
            rw [← leave_wrap, while_iterate t params.length hbefore key hlen N 0 c vs hv (by omega)]
            exact leave_agree hk (fun e e' h => ihk p3 inFor n he e e' h) _

end Verif.Scf
