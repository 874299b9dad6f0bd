import Verif.Lemmas.ValueSem

/-! Simulation between a block and its rewriting: nothing here is claimed. -/

namespace Verif.VS

variable {T W : Type}

/-- The rewriting of a whole slice, front to back, with the current replacement of names. -/
def go (al : List Name) (rev : List Op) (rs : List Name) : (Name → Name) → List Op → List Op
  | _, [] => []
  | θ, o :: rest =>
    match overwriteOf al o with
    | some (v, d) => go al rev rs (fun n => if n ∈ d :: castAliases rev d then θ v else θ n) rest
    | none =>
      match readOf rs o with
      | some (x, r) => go al rev rs (fun n => if n = r then θ x else θ n) rest
      | none => o.subst θ :: go al rev rs θ rest

theorem subst_subst (o : Op) (σ θ : Name → Name) : (o.subst σ).subst θ = o.subst (fun n => θ (σ n)) := by
  simp [Op.subst, Function.comp_def]

theorem replaceUses_subst (o : Op) (set : List Name) (v : Name) (θ : Name → Name) :
    (o.replaceUses set v).subst θ = o.subst (fun n => θ (if n ∈ set then v else n)) := by
  simp [Op.subst, Op.replaceUses, Function.comp_def]

theorem readOf_subst (rs : List Name) (o : Op) (σ : Name → Name) :
    readOf rs (o.subst σ) = (readOf rs o).map fun p => (σ p.1, p.2) := by
  obtain ⟨k, args, res⟩ := o
  unfold readOf Op.subst
  cases k <;> simp
  match args with
  | [] => simp
  | [x] =>
    match res with
    | [] => simp
    | [r] => by_cases h : r ∈ rs <;> simp [h]
    | _ :: _ :: _ => simp
  | _ :: _ :: _ => simp

theorem readOf_eq {rs : List Name} {o : Op} {x r : Name} (h : readOf rs o = some (x, r)) :
    o = ⟨.toVTensor, [x], [r]⟩ ∧ r ∈ rs := by
  obtain ⟨k, args, res⟩ := o
  unfold readOf at h
  split at h
  · next a b hk ha hr =>
    split at h
    · next hc =>
      simp only [Option.some.injEq, Prod.mk.injEq] at h
      obtain ⟨rfl, rfl⟩ := h
      simp only at hk ha hr
      subst hk; subst ha; subst hr
      exact ⟨rfl, by simpa using hc⟩
    · cases h
  · cases h

theorem overwriteOf_eq {al : List Name} {o : Op} {v d : Name} (h : overwriteOf al o = some (v, d)) :
    o.kind = .overwrite ∧ o.args = [v, d] ∧ d ∈ al := by
  unfold overwriteOf at h
  split at h
  · next a b hk ha =>
    split at h
    · next hc =>
      simp only [Option.some.injEq, Prod.mk.injEq] at h
      obtain ⟨rfl, rfl⟩ := h
      exact ⟨hk, ha, by simpa using hc⟩
    · cases h
  · cases h

theorem drop_eq_go {D0 : List Name} {all done ops : List Op} {al rs : List Name} (hs : Ssa D0 (done ++ ops))
    (hall : ∀ o ∈ all, o ∈ done ++ ops) (θ σ : Name → Name)
    (h1 : ∀ n, σ n = n ∨ σ n ∈ defs done ++ D0) (h2 : ∀ n, n ∉ defs done ++ D0 → σ n = n) :
    dropCopies rs θ ((dropOverwrites al all.reverse ops).map (·.subst σ))
      = go al all.reverse rs (fun n => θ (σ n)) ops := by
  induction ops generalizing done θ σ with
  | nil => simp [dropOverwrites, dropCopies, go]
  | cons o ops ih =>
    have hs' : Ssa D0 ((done ++ [o]) ++ ops) := by simpa using hs
    have hall' : ∀ p ∈ all, p ∈ (done ++ [o]) ++ ops := by simpa using hall
    have hmono : ∀ n, n ∈ defs done ++ D0 → n ∈ defs (done ++ [o]) ++ D0 := by
      intro n hn; simp only [defs, List.flatMap_append, List.mem_append] at hn ⊢
      rcases hn with h | h
      · exact .inl (.inl h)
      · exact .inr h
    obtain ⟨_, k2⟩ := hs.append
    obtain ⟨ka, kr, _, _⟩ := k2
    rw [dropOverwrites, go]
    cases hov : overwriteOf al o with
    | some p =>
      obtain ⟨v, d⟩ := p
      simp only
      obtain ⟨hk, ha, hd⟩ := overwriteOf_eq hov
      have hset : ∀ n ∈ d :: castAliases all.reverse d, n ∈ defs done ++ D0 := by
        have hdd : d ∈ defs done ++ D0 := ka d (by simp [ha])
        intro n hn
        rcases List.mem_cons.1 hn with e | e
        · exact e ▸ hdd
        · exact Chain.defined hs
            ((chain_of_castAliases _ _ _ e).mono (fun p hp => hall p (List.mem_reverse.1 hp))) hdd
      have hv : v ∈ defs done ++ D0 := ka v (by simp [ha])
      rw [List.map_map]
      have : ((fun x : Op => x.subst σ) ∘ fun x : Op => x.replaceUses (d :: castAliases all.reverse d) v)
          = fun x : Op => x.subst (fun n => σ (if n ∈ d :: castAliases all.reverse d then v else n)) := by
        funext x; simp [replaceUses_subst]
      rw [this, ih hs' hall']
      · congr 1
        funext n
        by_cases h : n ∈ d :: castAliases all.reverse d
        · simp only [if_pos h]
        · simp only [if_neg h]
      · intro n
        by_cases h : n ∈ d :: castAliases all.reverse d
        · simp only [if_pos h]
          rcases h1 v with e | e
          · rw [e]; exact .inr (hmono v hv)
          · exact .inr (hmono _ e)
        · simp only [if_neg h]
          rcases h1 n with e | e
          · exact .inl e
          · exact .inr (hmono _ e)
      · intro n hn
        have : n ∉ defs done ++ D0 := fun hh => hn (hmono n hh)
        rw [if_neg (fun hh => this (hset n hh))]
        exact h2 n this
    | none =>
      simp only
      rw [List.map_cons, dropCopies, readOf_subst]
      have hn1 : ∀ n, σ n = n ∨ σ n ∈ defs (done ++ [o]) ++ D0 := fun n => (h1 n).imp id (hmono _)
      have hn2 : ∀ n, n ∉ defs (done ++ [o]) ++ D0 → σ n = n := fun n hn => h2 n (fun hh => hn (hmono n hh))
      cases hr : readOf rs o with
      | none =>
        simp only [Option.map_none]
        rw [subst_subst, ih hs' hall' θ σ hn1 hn2]
      | some p =>
        obtain ⟨x, r⟩ := p
        simp only [Option.map_some]
        obtain ⟨ho, hrs⟩ := readOf_eq hr
        have hrD : r ∉ defs done ++ D0 := kr r (by simp [ho])
        rw [ih hs' hall' _ σ hn1 hn2]
        congr 1
        funext n
        by_cases e : n = r
        · subst e; simp [h2 n hrD]
        · have : σ n ≠ r := by
            intro e'
            rcases h1 n with h | h
            · exact e (h.symm.trans e')
            · exact hrD (e' ▸ h)
          simp [e, this]

/-! ## The relation between the two runs -/

structure Rel (i : Info) (c : Name) (al : List Name) (θ : Name → Name) (A D : List Name) (S S' : Name → T) : Prop where
  val : ∀ n, (¬ i.Inside c n ∨ n ∈ A) → S n = S' (θ n)
  img : ∀ n, θ n = n ∨ (θ n ∈ D ∧ (i.nv (θ n) = false ∨ θ n ∈ al))
  fixed : ∀ n, i.nv n = true → ¬ i.Inside c n → θ n = n
  fresh : ∀ n, n ∉ D → θ n = n
  avail : ∀ n ∈ A, n ∈ D
  alias : ∀ n ∈ A, n ∈ al

/-- What is fixed during the simulation. -/
structure Ctx (i : Info) (c base : Name) (al : List Name) (nv' : Name → Bool) : Prop where
  after : ∀ n, n < base → nv' n = (i.nv n && !al.contains n)
  below : ∀ n, i.nv n = true → n < base ∧ ∀ r, i.region n = some r → r < base
  inside : ∀ n ∈ al, i.Inside c n

theorem Info.Inside.ne {i : Info} {c n : Name} {g : Option Name} (h : i.region n = g) (hg : g ≠ some c) :
    ¬ i.Inside c n := fun hi => hg (h.symm.trans hi.2)

variable {i : Info} {c base : Name} {al : List Name} {nv' : Name → Bool} {θ : Name → Name} {A D : List Name}
  {S S' : Name → T}

theorem Ctx.nv_after (hx : Ctx i c base al nv') {n : Name} {g : Option Name} (hg : g ≠ some c)
    (hgb : ∀ r, g = some r → r < base) :
    (nv' n = true ∧ (i.after base nv').region n = g) ↔ (i.nv n = true ∧ i.region n = g) := by
  by_cases hn : n < base
  · simp only [Info.after, hx.after n hn, if_pos hn, Bool.and_eq_true, Bool.not_eq_true']
    constructor
    · rintro ⟨⟨h1, _⟩, h2⟩; exact ⟨h1, h2⟩
    · rintro ⟨h1, h2⟩
      refine ⟨⟨h1, ?_⟩, h2⟩
      cases hc : al.contains n with
      | false => rfl
      | true => exact absurd ((hx.inside n (by simpa using hc)).2) (fun h => hg (h2.symm.trans h))
  · simp only [Info.after, if_neg hn]
    constructor
    · rintro ⟨_, h2⟩; exact absurd (hgb n h2.symm) hn
    · rintro ⟨h1, _⟩; exact absurd (hx.below n h1).1 hn

theorem Rel.seen (hx : Ctx i c base al nv') (h : Rel i c al θ A D S S') {g : Option Name} (hg : g ≠ some c)
    (hgb : ∀ r, g = some r → r < base) : (i.after base nv').seen g S' = i.seen g S := by
  funext n
  unfold Info.seen
  have hiff := hx.nv_after (n := n) hg hgb
  by_cases hn : i.nv n = true ∧ i.region n = g
  · rw [if_pos hn, if_pos (show (i.after base nv').nv n = true ∧ _ from hiff.2 hn)]
    have hni := Info.Inside.ne hn.2 hg
    rw [h.val n (.inl hni), h.fixed n hn.1 hni]
  · rw [if_neg hn, if_neg (show ¬ ((i.after base nv').nv n = true ∧ _) from fun hh => hn (hiff.1 hh))]

theorem Rel.poke (hx : Ctx i c base al nv') (hD : ∀ n ∈ D, n < base) (h : Rel i c al θ A D S S')
    {g : Option Name} (hg : g ≠ some c) (hgb : ∀ r, g = some r → r < base) (m : Name → T) :
    Rel i c al θ A D (i.poke g S m) ((i.after base nv').poke g S' m) := by
  refine ⟨?_, h.img, h.fixed, h.fresh, h.avail, h.alias⟩
  intro n hn
  unfold Info.poke
  have hiff := hx.nv_after (n := θ n) hg hgb
  by_cases hp : i.nv n = true ∧ i.region n = g
  · have hni := Info.Inside.ne hp.2 hg
    have ht := h.fixed n hp.1 hni
    rw [if_pos hp, if_pos (show (i.after base nv').nv (θ n) = true ∧ _ from hiff.2 (by rw [ht]; exact hp)), ht]
  · rw [if_neg hp]
    have : ¬ ((i.after base nv').nv (θ n) = true ∧ (i.after base nv').region (θ n) = g) := by
      intro hh
      have hk := hiff.1 hh
      rcases h.img n with e | ⟨_, e | e⟩
      · exact hp (e ▸ hk)
      · rw [hk.1] at e; cases e
      · exact hg (hk.2.symm.trans (hx.inside _ e).2)
    rw [if_neg this]
    exact h.val n hn

theorem Rel.more (h : Rel i c al θ A D S S') {D' : List Name} (hD : ∀ n ∈ D, n ∈ D') : Rel i c al θ A D' S S' :=
  ⟨h.val, fun n => (h.img n).imp id (fun p => ⟨hD _ p.1, p.2⟩), h.fixed, fun n hn => h.fresh n (fun hh => hn (hD n hh)),
    fun n hn => hD n (h.avail n hn), h.alias⟩

/-- Results of an operation that defines no handle of the region. -/
theorem Rel.assign (h : Rel i c al θ A D S S') {rs : List Name} (hr : ∀ r ∈ rs, r ∉ D) (vs : List T) :
    Rel i c al θ A (rs ++ D) (assign S rs vs) (assign S' rs vs) := by
  have hm := h.more (D' := rs ++ D) (fun n hn => List.mem_append_right _ hn)
  refine ⟨?_, hm.img, hm.fixed, hm.fresh, hm.avail, hm.alias⟩
  apply assign_rel rs vs S S' θ
  · intro n hn
    rcases h.img n with e | ⟨e, _⟩
    · exact e
    · exact absurd e (hr _ hn)
  · intro r hrr; exact h.fresh r (hr r hrr)
  · exact h.val

/-- The result of an operation, which may be a new handle of the region. -/
theorem Rel.assign_one (h : Rel i c al θ A D S S') {r : Name} (hr : r ∉ D) (v : T) {A' : List Name}
    (hA : ∀ n ∈ A', n ∈ A ∨ n = r) (hal : ∀ n ∈ A', n ∈ al) :
    Rel i c al θ A' ([r] ++ D) (VS.assign S [r] [v]) (VS.assign S' [r] [v]) := by
  have hm := h.more (D' := [r] ++ D) (fun n hn => List.mem_append_right _ hn)
  refine ⟨?_, hm.img, hm.fixed, hm.fresh, ?_, hal⟩
  · apply VS.assign_one S S' θ (fun n => ¬ i.Inside c n ∨ n ∈ A) (fun n => ¬ i.Inside c n ∨ n ∈ A')
    · intro n hn
      rcases h.img n with e | ⟨e, _⟩
      · exact e ▸ hn
      · exact absurd (hn ▸ e) hr
    · exact h.fresh r hr
    · rintro n (hn | hn) hne
      · exact .inl hn
      · exact (hA n hn).elim .inr (fun e => absurd e hne)
    · exact h.val
  · intro n hn
    rcases hA n hn with e | e
    · exact List.mem_append_right _ (h.avail n e)
    · simp [e]

theorem Rel.args (h : Rel i c al θ A D S S') {xs : List Name} (hx : ∀ x ∈ xs, ¬ i.Inside c x ∨ x ∈ A) :
    (xs.map θ).map S' = xs.map S := by
  rw [List.map_map]
  apply List.map_congr_left
  intro x hxm
  exact (h.val x (hx x hxm)).symm

theorem Rel.fewer (h : Rel i c al θ A D S S') {A' : List Name} (hA : ∀ n ∈ A', n ∈ A) : Rel i c al θ A' D S S' :=
  ⟨fun n hn => h.val n (hn.imp id (hA n)), h.img, h.fixed, h.fresh, fun n hn => h.avail n (hA n hn),
    fun n hn => h.alias n (hA n hn)⟩

theorem Rel.step (M : Machine T W) (hx : Ctx i c base al nv') (hD : ∀ n ∈ D, n < base) {s s' : State T W}
    (h : Rel i c al θ A D s.val s'.val) (hw : s'.world = s.world) {o : Op} (ht : i.Typed o)
    (ha : ∀ a ∈ o.args, a ∈ D) (hr : ∀ r ∈ o.results, r ∉ D) (hargs : ∀ a ∈ o.args, ¬ i.Inside c a ∨ a ∈ A)
    (hov : o.kind = .overwrite → ∀ d ∈ o.args, ¬ i.Inside c d) {A' : List Name}
    (hA : ∀ n ∈ A', n ∈ A ∨ n ∈ o.results) (hal : ∀ n ∈ A', n ∈ al) :
    Rel i c al θ A' (o.results ++ D) (exec M i o s).val (exec M (i.after base nv') (o.subst θ) s').val
      ∧ (exec M (i.after base nv') (o.subst θ) s').world = (exec M i o s).world := by
  obtain ⟨kind, args, results⟩ := o
  unfold Info.Typed at ht
  cases kind with
  | toTensor =>
    obtain ⟨x, r, rfl, rfl, _⟩ := ht
    simp only [exec, Op.subst, List.map_cons, List.map_nil]
    rw [← h.val x (hargs x (by simp))]
    exact ⟨h.assign_one (hr r (by simp)) _ (fun n hn => (hA n hn).imp id (by simp)) hal, hw⟩
  | toVTensor =>
    obtain ⟨x, r, rfl, rfl, _⟩ := ht
    simp only [exec, Op.subst, List.map_cons, List.map_nil]
    rw [← h.val x (hargs x (by simp))]
    exact ⟨h.assign_one (hr r (by simp)) _ (fun n hn => (hA n hn).imp id (by simp)) hal, hw⟩
  | cast =>
    obtain ⟨x, r, rfl, rfl, _⟩ := ht
    simp only [exec, Op.subst, List.map_cons, List.map_nil]
    rw [← h.val x (hargs x (by simp))]
    exact ⟨h.assign_one (hr r (by simp)) _ (fun n hn => (hA n hn).imp id (by simp)) hal, hw⟩
  | view k =>
    obtain ⟨x, xs, r, rfl, rfl, _⟩ := ht
    simp only [exec, Op.subst]
    rw [h.args hargs]
    exact ⟨h.assign_one (hr r (by simp)) _ (fun n hn => (hA n hn).imp id (by simp)) hal, hw⟩
  | overwrite =>
    obtain ⟨v, d, rfl, rfl, hv, hd⟩ := ht
    simp only [exec, Op.subst, List.map_cons, List.map_nil]
    have hnd : ¬ i.Inside c d := hov rfl d (by simp)
    have hb := hx.below d hd
    have hreg : (i.after base nv').region d = i.region d := by simp [Info.after, hb.1]
    have hg : i.region d ≠ some c := fun e => hnd ⟨hd, e⟩
    rw [h.fixed d hd hnd, hreg, h.seen hx hg hb.2, ← h.val v (hargs v (by simp))]
    refine ⟨?_, hw⟩
    simp only [List.nil_append]
    apply (h.poke hx hD hg hb.2 _).fewer
    intro n hn
    exact (hA n hn).elim id (fun e => by cases e)
  | ret =>
    simp only at ht
    subst ht
    have e1 : exec M i ⟨.ret, args, []⟩ s = s := by unfold exec; rfl
    have e2 : exec M (i.after base nv') (Op.subst θ ⟨.ret, args, []⟩) s' = s' := by unfold exec; rfl
    rw [e1, e2]
    exact ⟨(h.fewer (fun n hn => (hA n hn).elim id (fun e => by cases e))), hw⟩
  | other k =>
    simp only [exec, Op.subst]
    rw [h.args hargs, h.seen hx (by simp) (by simp), hw]
    refine ⟨?_, rfl⟩
    have hp := h.poke hx hD (g := none) (by simp) (by simp) (M.ext k (args.map s.val) (i.seen none s.val) s.world).2.1
    apply (hp.assign hr _).fewer
    intro n hn
    rcases hA n hn with e | e
    · exact e
    · have hi := hx.inside n (hal n hn)
      have := ht.2 n e hi.1
      rw [hi.2] at this; cases this

/-- An overwrite of the region: the rewritten block does nothing. -/
theorem Rel.overwrite (M : Machine T W) (hx : Ctx i c base al nv') {s : State T W} {S' : Name → T}
    (h : Rel i c al θ A D s.val S') {v d : Name} (hd : d ∈ al) (hv : i.nv v = false) (hvD : v ∈ D) {set : List Name}
    (hset : ∀ n ∈ set, n ∈ D ∧ n ∈ al ∧ ∀ t m, M.spread d t m n = t) {o : Op} (hk : o.kind = .overwrite)
    (ha : o.args = [v, d]) :
    Rel i c al (fun n => if n ∈ set then θ v else θ n) set D (exec M i o s).val S'
      ∧ (exec M i o s).world = s.world := by
  have he : exec M i o s
      = ⟨i.poke (i.region d) s.val (M.spread d (s.val v) (i.seen (i.region d) s.val)), s.world⟩ := by
    unfold exec; rw [hk, ha]
  have hreg : i.region d = some c := (hx.inside d hd).2
  have hnv : ¬ i.Inside c v := fun hi => by rw [hi.1] at hv; cases hv
  rw [he, hreg]
  refine ⟨⟨?_, ?_, ?_, ?_, fun n hn => (hset n hn).1, fun n hn => (hset n hn).2.1⟩, rfl⟩
  · intro n hn
    simp only [Info.poke]
    by_cases hm : n ∈ set
    · rw [if_pos hm, if_pos (show i.nv n = true ∧ i.region n = some c from hx.inside n (hset n hm).2.1), (hset n hm).2.2]
      exact h.val v (.inl hnv)
    · have hni := hn.resolve_right hm
      rw [if_neg hm, if_neg (show ¬ (i.nv n = true ∧ i.region n = some c) from hni)]
      exact h.val n (.inl hni)
  · intro n
    by_cases hm : n ∈ set
    · simp only [if_pos hm]
      rcases h.img v with e | e
      · rw [e]; exact .inr ⟨hvD, .inl hv⟩
      · exact .inr e
    · simp only [if_neg hm]; exact h.img n
  · intro n h1 h2
    have : n ∉ set := fun hm => h2 (hx.inside n (hset n hm).2.1)
    simp only [if_neg this]; exact h.fixed n h1 h2
  · intro n hn
    have : n ∉ set := fun hm => hn (hset n hm).1
    simp only [if_neg this]; exact h.fresh n hn

/-- A copy to a value tensor of the region: the rewritten block does nothing. -/
theorem Rel.read (M : Machine T W) {s : State T W} {S' : Name → T} (h : Rel i c al θ A D s.val S') {x r : Name}
    (hxA : x ∈ A) (hr : r ∉ D) (hrn : i.nv r = false) :
    Rel i c al (fun n => if n = r then θ x else θ n) A ([r] ++ D) (exec M i ⟨.toVTensor, [x], [r]⟩ s).val S'
      ∧ (exec M i ⟨.toVTensor, [x], [r]⟩ s).world = s.world := by
  refine ⟨⟨?_, ?_, ?_, ?_, ?_, h.alias⟩, rfl⟩
  · intro n hn
    simp only [exec, VS.assign]
    by_cases e : n = r
    · rw [if_pos e, if_pos e]; exact h.val x (.inr hxA)
    · rw [if_neg e, if_neg e]; exact h.val n hn
  · intro n
    by_cases e : n = r
    · simp only [if_pos e]
      refine .inr ?_
      rcases h.img x with k | k
      · rw [k]; exact ⟨by simp [h.avail x hxA], .inr (h.alias x hxA)⟩
      · exact ⟨by simp [k.1], k.2⟩
    · simp only [if_neg e]
      exact (h.img n).imp id (fun p => ⟨by simp [p.1], p.2⟩)
  · intro n h1 h2
    have : n ≠ r := fun e => by rw [e, hrn] at h1; cases h1
    simp only [if_neg this]; exact h.fixed n h1 h2
  · intro n hn
    simp only [List.cons_append, List.nil_append, List.mem_cons, not_or] at hn
    simp only [if_neg hn.1]; exact h.fresh n hn.2
  · intro n hn; simp [h.avail n hn]

end Verif.VS
