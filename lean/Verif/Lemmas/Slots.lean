import Verif.Model.Slots
import Mathlib.Tactic.Common

namespace Verif.Slots

variable {D : Type}

def Val.map (φ : Nat → Nat) : Val D → Val D
  | .imm d => .imm d
  | .ref l => .ref (φ l)

def Valid (h : Heap D) (v : Val D) : Prop := ∀ l, v = .ref l → l < h.length

def HeapOk (h : Heap D) : Prop := ∀ (l : Nat) (o : Obj D), h[l]? = some o → ∀ k ∈ o.kids, Valid h k

inductive Reach (h : Heap D) : Val D → Nat → Prop
  | here (l : Nat) : Reach h (.ref l) l
  | step (l : Nat) (o : Obj D) (k : Val D) (l' : Nat) : h[l]? = some o → k ∈ o.kids → Reach h k l' → Reach h (.ref l) l'

def Taint (P : Nat → Prop) (h : Heap D) (v : Val D) : Prop := ∃ l, Reach h v l ∧ P l

theorem Taint.isRef {P : Nat → Prop} {h : Heap D} {v : Val D} (t : Taint P h v) : ∃ l, v = .ref l := by
  obtain ⟨l, r, -⟩ := t
  cases r with
  | here => exact ⟨_, rfl⟩
  | step => exact ⟨_, rfl⟩

theorem not_taint_imm {P : Nat → Prop} {h : Heap D} {d : D} : ¬ Taint P h (.imm d) := fun t => by
  obtain ⟨l, h⟩ := t.isRef; cases h

theorem Taint.kid {P : Nat → Prop} {h : Heap D} {l : Nat} {o : Obj D} {k : Val D} (ho : h[l]? = some o) (hk : k ∈ o.kids)
    (t : Taint P h k) : Taint P h (.ref l) := by
  obtain ⟨l', r, p⟩ := t
  exact ⟨l', .step l o k l' ho hk r, p⟩

theorem valid_imm {h : Heap D} {d : D} : Valid h (.imm d) := fun l e => by cases e

theorem valid_ref {h : Heap D} {l : Nat} : Valid h (.ref l) ↔ l < h.length :=
  ⟨fun v => v l rfl, fun hl l' e => by cases e; exact hl⟩

theorem Valid.mono {h h1 : Heap D} (hl : h.length ≤ h1.length) {v : Val D} (hv : Valid h v) : Valid h1 v :=
  fun l e => Nat.lt_of_lt_of_le (hv l e) hl

theorem get_append {h : Heap D} {o : Obj D} {l : Nat} (hl : l < h.length) : (h ++ [o])[l]? = h[l]? :=
  List.getElem?_append_left hl

theorem get_append_self {h : Heap D} {o : Obj D} : (h ++ [o])[h.length]? = some o := by simp

theorem lt_of_get {h : Heap D} {l : Nat} {o : Obj D} (e : h[l]? = some o) : l < h.length :=
  (List.getElem?_eq_some_iff.1 e).1

theorem get_append_cases {h : Heap D} {o o1 : Obj D} {l : Nat} (e : (h ++ [o])[l]? = some o1) :
    (l < h.length ∧ h[l]? = some o1) ∨ (l = h.length ∧ o1 = o) := by
  have hl := lt_of_get e
  simp only [List.length_append, List.length_singleton] at hl
  rcases Nat.lt_or_ge l h.length with hl' | hl'
  · rw [get_append hl'] at e; exact .inl ⟨hl', e⟩
  · have : l = h.length := by omega
    subst this
    rw [get_append_self] at e
    exact .inr ⟨rfl, (Option.some.inj e).symm⟩

theorem HeapOk.append {h : Heap D} (ok : HeapOk h) {o : Obj D} (ho : ∀ k ∈ o.kids, Valid h k) : HeapOk (h ++ [o]) := by
  intro l o1 e k hk
  rcases get_append_cases e with ⟨_, e⟩ | ⟨-, rfl⟩
  · exact (ok l o1 e k hk).mono (by simp)
  · exact (ho k hk).mono (by simp)

/-- A longer heap makes nothing else reachable. -/
theorem reach_append {h : Heap D} (ok : HeapOk h) (o : Obj D) {v : Val D} {l : Nat} (hv : Valid h v) :
    Reach (h ++ [o]) v l ↔ Reach h v l := by
  constructor
  · intro r
    induction r with
    | here l => exact .here l
    | step l o1 k l' e hk _ ih =>
      rw [get_append (hv l rfl)] at e
      exact .step l o1 k l' e hk (ih (ok l o1 e k hk))
  · intro r
    induction r with
    | here l => exact .here l
    | step l o1 k l' e hk _ ih =>
      exact .step l o1 k l' (by rw [get_append (hv l rfl)]; exact e) hk (ih (ok l o1 e k hk))

theorem Reach.valid {h : Heap D} (ok : HeapOk h) {v : Val D} {l : Nat} (hv : Valid h v) (r : Reach h v l) : l < h.length := by
  induction r with
  | here l => exact hv l rfl
  | step l o k l' e hk _ ih => exact ih (ok l o e k hk)

theorem obs_agree {h h1 : Heap D} (n : Nat) : ∀ (v : Val D), (∀ l, Reach h v l → h1[l]? = h[l]?) → obs h1 n v = obs h n v := by
  induction n with
  | zero => intro v _; cases v <;> rfl
  | succ n ih =>
    intro v hv
    cases v with
    | imm d => rfl
    | ref l =>
      unfold obs
      rw [hv l (.here l)]
      cases e : h[l]? with
      | none => rfl
      | some o =>
        show Tree.node _ _ = Tree.node _ _
        congr 1
        exact List.map_congr_left fun k hk => ih k fun l' r => hv l' (.step l o k l' e hk r)

/-! ## Two heaps -/

/-- `φ` takes the objects of `h'` to those of `h`; only objects in `P` have more than one, and these are as they were in `H0`. -/
structure Rel (P : Nat → Prop) (H0 : Heap D) (φ : Nat → Nat) (h h' : Heap D) : Prop where
  hom : ∀ l o, h'[l]? = some o → h[φ l]? = some ⟨o.data, o.kids.map (Val.map φ)⟩
  inj : ∀ l l2, l < h'.length → l2 < h'.length → φ l = φ l2 → l = l2 ∨ P (φ l)
  ok : HeapOk h
  ok' : HeapOk h'
  frozen : ∀ l, P l → l < H0.length ∧ h[l]? = H0[l]?
  len : H0.length ≤ h.length

def upd (φ : Nat → Nat) (l m : Nat) : Nat → Nat := fun x => if x = l then m else φ x

theorem Val.map_upd {φ : Nat → Nat} {h' : Heap D} {v : Val D} (hv : Valid h' v) (m : Nat) : v.map (upd φ h'.length m) = v.map φ := by
  cases v with
  | imm d => rfl
  | ref l =>
    have := hv l rfl
    simp [Val.map, upd, show l ≠ h'.length by omega]

theorem obs_rel {P : Nat → Prop} {H0 : Heap D} {φ : Nat → Nat} {h h' : Heap D} (R : Rel P H0 φ h h') (n : Nat) :
    ∀ v, Valid h' v → obs h n (v.map φ) = obs h' n v := by
  induction n with
  | zero => intro v _; cases v <;> rfl
  | succ n ih =>
    intro v hv
    cases v with
    | imm d => rfl
    | ref l =>
      have hl := hv l rfl
      have e := List.getElem?_eq_getElem hl
      show obs h (n + 1) (.ref (φ l)) = _
      unfold obs
      rw [R.hom l _ e, e]
      dsimp only
      rw [List.map_map]
      congr 1
      exact List.map_congr_left fun k hk => ih k (R.ok' l _ e k hk)

theorem seen_rel {P : Nat → Prop} {H0 : Heap D} {φ : Nat → Nat} {h h' : Heap D} (R : Rel P H0 φ h h') {vs : List (Val D)}
    (hv : ∀ v ∈ vs, Valid h' v) : (vs.map (Val.map φ)).map (seen h) = vs.map (seen h') := by
  rw [List.map_map]
  exact List.map_congr_left fun v hm => funext fun n => obs_rel R n v (hv v hm)

theorem Rel.lt {P : Nat → Prop} {H0 : Heap D} {φ : Nat → Nat} {h h' : Heap D} (R : Rel P H0 φ h h') {l : Nat} (hl : l < h'.length) :
    φ l < h.length := lt_of_get (R.hom l _ (List.getElem?_eq_getElem hl))

theorem Valid.map {P : Nat → Prop} {H0 : Heap D} {φ : Nat → Nat} {h h' : Heap D} (R : Rel P H0 φ h h') {v : Val D} (hv : Valid h' v) :
    Valid h (v.map φ) := by
  cases v with
  | imm d => exact valid_imm
  | ref l => exact valid_ref.2 (R.lt (hv l rfl))

theorem map_kids_upd {φ : Nat → Nat} {h' : Heap D} {ks : List (Val D)} (hk : ∀ k ∈ ks, Valid h' k) (m : Nat) :
    ks.map (Val.map (upd φ h'.length m)) = ks.map (Val.map φ) :=
  List.map_congr_left fun k hm => Val.map_upd (hk k hm) m

/-- New objects on both sides. -/
theorem Rel.alloc {P : Nat → Prop} {H0 : Heap D} {φ : Nat → Nat} {h h' : Heap D} (R : Rel P H0 φ h h') (d : D) (ks : List (Val D))
    (hk : ∀ k ∈ ks, Valid h' k) :
    Rel P H0 (upd φ h'.length h.length) (h ++ [⟨d, ks.map (Val.map φ)⟩]) (h' ++ [⟨d, ks⟩]) where
  hom := fun l o e => by
    rcases get_append_cases e with ⟨hl, e⟩ | ⟨rfl, rfl⟩
    · have : upd φ h'.length h.length l = φ l := by simp [upd, show l ≠ h'.length by omega]
      rw [this, get_append (R.lt hl), R.hom l o e, map_kids_upd (R.ok' l o e)]
    · have : upd φ h'.length h.length h'.length = h.length := by simp [upd]
      rw [this, get_append_self, map_kids_upd hk]
  inj := fun l l2 hl hl2 e => by
    simp only [List.length_append, List.length_singleton] at hl hl2
    unfold upd at e ⊢
    by_cases h1 : l = h'.length <;> by_cases h2 : l2 = h'.length
    · left; omega
    · rw [if_pos h1, if_neg h2] at e
      have := R.lt (show l2 < h'.length by omega)
      omega
    · rw [if_neg h1, if_pos h2] at e
      have := R.lt (show l < h'.length by omega)
      omega
    · rw [if_neg h1, if_neg h2] at e
      rw [if_neg h1]
      exact R.inj l l2 (by omega) (by omega) e
  ok := R.ok.append fun k hm => by
    obtain ⟨k', hm', rfl⟩ := List.mem_map.1 hm
    exact (hk k' hm').map R
  ok' := R.ok'.append hk
  frozen := fun l p => ⟨(R.frozen l p).1, by
    have := (R.frozen l p).1
    have := R.len
    rw [get_append (by omega)]
    exact (R.frozen l p).2⟩
  len := by have := R.len; simp; omega

/-- A copy of an object in `P`. -/
theorem Rel.clone {P : Nat → Prop} {H0 : Heap D} {φ : Nat → Nat} {h h' : Heap D} (R : Rel P H0 φ h h') (d : D) (ks : List (Val D))
    (hk : ∀ k ∈ ks, Valid h' k) (p : Nat) (hp : P p) (ho : h[p]? = some ⟨d, ks.map (Val.map φ)⟩) :
    Rel P H0 (upd φ h'.length p) h (h' ++ [⟨d, ks⟩]) where
  hom := fun l o e => by
    rcases get_append_cases e with ⟨hl, e⟩ | ⟨rfl, rfl⟩
    · have : upd φ h'.length p l = φ l := by simp [upd, show l ≠ h'.length by omega]
      rw [this, R.hom l o e, map_kids_upd (R.ok' l o e)]
    · have : upd φ h'.length p h'.length = p := by simp [upd]
      rw [this, ho, map_kids_upd hk]
  inj := fun l l2 hl hl2 e => by
    simp only [List.length_append, List.length_singleton] at hl hl2
    unfold upd at e ⊢
    by_cases h1 : l = h'.length <;> by_cases h2 : l2 = h'.length
    · left; omega
    · rw [if_pos h1]; exact .inr hp
    · rw [if_neg h1, if_pos h2] at e
      rw [if_neg h1, e]; exact .inr hp
    · rw [if_neg h1, if_neg h2] at e
      rw [if_neg h1]
      exact R.inj l l2 (by omega) (by omega) e
  ok := R.ok
  ok' := R.ok'.append hk
  frozen := R.frozen
  len := R.len

/-! ## Steps -/

/-- What later states have to do with earlier ones. -/
structure Step (P : Nat → Prop) (φ : Nat → Nat) (h h' : Heap D) (φ1 : Nat → Nat) (h1 h1' : Heap D) : Prop where
  ext : ∀ l, l < h'.length → φ1 l = φ l
  len : h.length ≤ h1.length
  len' : h'.length ≤ h1'.length
  taint : ∀ v, Valid h v → Taint P h1 v → Taint P h v

theorem Step.refl (P : Nat → Prop) (φ : Nat → Nat) (h h' : Heap D) : Step P φ h h' φ h h' :=
  ⟨fun _ _ => rfl, Nat.le_refl _, Nat.le_refl _, fun _ _ t => t⟩

theorem Step.trans {P : Nat → Prop} {φ φ1 φ2 : Nat → Nat} {h h' h1 h1' h2 h2' : Heap D} (a : Step P φ h h' φ1 h1 h1')
    (b : Step P φ1 h1 h1' φ2 h2 h2') : Step P φ h h' φ2 h2 h2' :=
  ⟨fun l hl => (b.ext l (Nat.lt_of_lt_of_le hl a.len')).trans (a.ext l hl), Nat.le_trans a.len b.len, Nat.le_trans a.len' b.len',
    fun v hv t => a.taint v hv (b.taint v (hv.mono a.len) t)⟩

theorem Step.map {P : Nat → Prop} {φ φ1 : Nat → Nat} {h h' h1 h1' : Heap D} (a : Step P φ h h' φ1 h1 h1') {v : Val D} (hv : Valid h' v) :
    v.map φ1 = v.map φ := by
  cases v with
  | imm d => rfl
  | ref l => show Val.ref _ = Val.ref _; rw [a.ext l (hv l rfl)]

theorem step_alloc (P : Nat → Prop) (φ : Nat → Nat) {h h' : Heap D} (ok : HeapOk h) (o o' : Obj D) :
    Step P φ h h' (upd φ h'.length h.length) (h ++ [o]) (h' ++ [o']) where
  ext := fun l hl => by simp [upd, show l ≠ h'.length by omega]
  len := by simp
  len' := by simp
  taint := fun v hv ⟨l, r, p⟩ => ⟨l, (reach_append ok o hv).1 r, p⟩

theorem step_clone (P : Nat → Prop) (φ : Nat → Nat) (h h' : Heap D) (o' : Obj D) (p : Nat) :
    Step P φ h h' (upd φ h'.length p) h (h' ++ [o']) where
  ext := fun l hl => by simp [upd, show l ≠ h'.length by omega]
  len := Nat.le_refl _
  len' := by simp
  taint := fun _ _ t => t

/-! ## Environments -/

def EnvRel (φ : Nat → Nat) (h' : Heap D) (env env' : Env D) : Prop :=
  ∀ x, env x = (env' x).map (Val.map φ) ∧ ∀ v, env' x = some v → Valid h' v

def EnvSafe (P : Nat → Prop) (h : Heap D) (trivial : Var → Bool) (safe : Var → Prop) (env : Env D) : Prop :=
  ∀ x v, env x = some v → Taint P h v → safe x ∧ trivial x = false

theorem EnvRel.step {P : Nat → Prop} {φ φ1 : Nat → Nat} {h h' h1 h1' : Heap D} {env env' : Env D} (E : EnvRel φ h' env env')
    (a : Step P φ h h' φ1 h1 h1') : EnvRel φ1 h1' env env' := by
  intro x
  obtain ⟨e1, e2⟩ := E x
  refine ⟨?_, fun v hv => (e2 v hv).mono a.len'⟩
  rw [e1]
  cases hx : env' x with
  | none => rfl
  | some v => simp only [Option.map_some]; rw [a.map (e2 v hx)]

theorem EnvRel.valid {P : Nat → Prop} {H0 : Heap D} {φ : Nat → Nat} {h h' : Heap D} {env env' : Env D} (E : EnvRel φ h' env env')
    (R : Rel P H0 φ h h') {x : Var} {v : Val D} (hv : env x = some v) : Valid h v := by
  obtain ⟨e1, e2⟩ := E x
  rw [e1] at hv
  cases hx : env' x with
  | none => rw [hx] at hv; cases hv
  | some v' =>
    rw [hx] at hv
    cases hv
    exact (e2 v' hx).map R

theorem EnvSafe.step {P : Nat → Prop} {H0 : Heap D} {φ φ1 : Nat → Nat} {h h' h1 h1' : Heap D} {trivial : Var → Bool} {safe : Var → Prop}
    {env env' : Env D} (S : EnvSafe P h trivial safe env) (E : EnvRel φ h' env env') (R : Rel P H0 φ h h')
    (a : Step P φ h h' φ1 h1 h1') : EnvSafe P h1 trivial safe env :=
  fun x v hv t => S x v hv (a.taint v (E.valid R hv) t)

theorem lookAll_rel {φ : Nat → Nat} {h' : Heap D} {env env' : Env D} (E : EnvRel φ h' env env') (xs : List Var) :
    (lookAll env xs = none ∧ lookAll env' xs = none) ∨
      ∃ vs, lookAll env' xs = some vs ∧ lookAll env xs = some (vs.map (Val.map φ)) ∧ ∀ v ∈ vs, Valid h' v := by
  induction xs with
  | nil => exact .inr ⟨[], rfl, rfl, by simp⟩
  | cons x xs ih =>
    obtain ⟨e1, e2⟩ := E x
    unfold lookAll
    rw [e1]
    cases hx : env' x with
    | none => left; simp
    | some v =>
      rcases ih with ⟨h1, h2⟩ | ⟨vs, h1, h2, h3⟩
      · left; simp [h1, h2]
      · right
        refine ⟨v :: vs, by simp [h1], by simp [h2], ?_⟩
        intro w hw
        rcases List.mem_cons.1 hw with rfl | hw
        · exact e2 _ hx
        · exact h3 w hw

theorem lookAll_mem {env : Env D} : ∀ {xs : List Var} {vs : List (Val D)}, lookAll env xs = some vs →
    ∀ v ∈ vs, ∃ x ∈ xs, env x = some v := by
  intro xs
  induction xs with
  | nil => intro vs h v hv; cases h; cases hv
  | cons x xs ih =>
    intro vs h v hv
    unfold lookAll at h
    cases hx : env x with
    | none => simp [hx] at h
    | some w =>
      cases hs : lookAll env xs with
      | none => simp [hx, hs] at h
      | some ws =>
        simp only [hx, hs, Option.some.injEq] at h
        subst h
        rcases List.mem_cons.1 hv with rfl | hv
        · exact ⟨x, List.mem_cons_self .., hx⟩
        · obtain ⟨y, hy, e⟩ := ih hs v hv
          exact ⟨y, List.mem_cons_of_mem _ hy, e⟩

theorem bind_rel {φ : Nat → Nat} {h' : Heap D} {env env' : Env D} (E : EnvRel φ h' env env') (trivial : Var → Bool) (x : Var)
    (v' : Val D) (hv : Valid h' v') :
    (bind trivial env x (v'.map φ) = none ∧ bind trivial env' x v' = none) ∨
      ∃ env1 env1', bind trivial env x (v'.map φ) = some env1 ∧ bind trivial env' x v' = some env1' ∧ EnvRel φ h' env1 env1' ∧
        (∀ y, env1 y = if y = x then some (v'.map φ) else env y) ∧ (∀ l, v' = .ref l → trivial x = false) := by
  have key : EnvRel φ h' (fun y => if y = x then some (v'.map φ) else env y) (fun y => if y = x then some v' else env' y) := by
    intro y
    by_cases hy : y = x
    · simp only [if_pos hy]
      exact ⟨rfl, fun w hw => by cases hw; exact hv⟩
    · simp only [if_neg hy]
      exact E y
  cases v' with
  | imm d =>
    right
    refine ⟨_, _, ?_, ?_, key, fun y => rfl, fun l e => by cases e⟩
    · cases ht : trivial x <;> simp [bind, ht, Val.map]
    · cases ht : trivial x <;> simp [bind, ht]
  | ref l =>
    cases ht : trivial x with
    | true => left; simp [bind, ht, Val.map]
    | false =>
      right
      exact ⟨_, _, by simp [bind, ht, Val.map], by simp [bind, ht], key, fun y => rfl, fun _ _ => rfl⟩

theorem bind_safe {P : Nat → Prop} {h : Heap D} {trivial : Var → Bool} {safe : Var → Prop} {env env1 : Env D} {x : Var} {v : Val D}
    (S : EnvSafe P h trivial safe env) (hb : bind trivial env x v = some env1) (hx : Taint P h v → safe x) :
    EnvSafe P h trivial safe env1 := by
  intro y w hy t
  have : env1 = fun y => if y = x then some v else env y := by
    unfold bind at hb
    split at hb
    · cases hb
    · exact (Option.some.inj hb).symm
  subst this
  by_cases e : y = x
  · subst e
    simp only [if_pos] at hy
    cases hy
    refine ⟨hx t, ?_⟩
    obtain ⟨l, rfl⟩ := t.isRef
    cases ht : trivial y with
    | false => rfl
    | true => simp [bind, ht] at hb
  · simp only [if_neg e] at hy
    exact S y w hy t

end Verif.Slots
