import Verif.Lemmas.ValueSemSim

/-! The rewritten block computes the same: nothing here is claimed. -/

namespace Verif.VS

variable {T W : Type}

theorem Ssa.unique {D : List Name} {ops : List Op} (h : Ssa D ops) {o p : Op} (ho : o ∈ ops) (hp : p ∈ ops) {r : Name}
    (hr : r ∈ o.results) (hr' : r ∈ p.results) : o = p := by
  induction ops generalizing D with
  | nil => cases ho
  | cons q ops ih =>
    obtain ⟨_, _, _, h4⟩ := h
    rcases List.mem_cons.1 ho with e | e <;> rcases List.mem_cons.1 hp with e' | e'
    · rw [e, e']
    · subst e
      exact absurd (List.mem_append_left _ hr) (h4.notMem_defs r (List.mem_flatMap.2 ⟨p, e', hr'⟩))
    · subst e'
      exact absurd (List.mem_append_left _ hr') (h4.notMem_defs r (List.mem_flatMap.2 ⟨o, e, hr⟩))
    · exact ih h4 e e'

/-! ## The copies in front of the return -/

def execs (M : Machine T W) (i : Info) (ops : List Op) (s : State T W) : State T W := ops.foldl (fun s o => exec M i o s) s

theorem run_append (M : Machine T W) (i : Info) (a b : List Op) (s : State T W) (h : ∀ o ∈ a, o.kind ≠ .ret) :
    run M i (a ++ b) s = run M i b (execs M i a s) := by
  induction a generalizing s with
  | nil => rfl
  | cons o a ih =>
    rw [List.cons_append, run, if_neg (h o List.mem_cons_self), ih _ (fun p hp => h p (List.mem_cons_of_mem _ hp))]
    rfl

theorem execs_append (M : Machine T W) (i : Info) (a b : List Op) (s : State T W) :
    execs M i (a ++ b) s = execs M i b (execs M i a s) := by simp [execs]

theorem copyTensorToType_spec (M : Machine T W) (i : Info) (nv : Name → Bool) (recast : Bool) (base n : Nat)
    (hn : n < base) (s : State T W) :
    (∀ o ∈ (copyTensorToType nv recast base n).1, o.kind ≠ .ret)
      ∧ (∀ m : Nat, m < base → (execs M i (copyTensorToType nv recast base n).1 s).val m = s.val m)
      ∧ (execs M i (copyTensorToType nv recast base n).1 s).val (base + 2) = s.val n
      ∧ (execs M i (copyTensorToType nv recast base n).1 s).world = s.world := by
  have k0 : ∀ m : Nat, m < base → ¬ m = base := by intro m hm; omega
  have k1 : ∀ m : Nat, m < base → ¬ m = base + 1 := by intro m hm; omega
  have k2 : ∀ m : Nat, m < base → ¬ m = base + 2 := by intro m hm; omega
  cases hnv : nv n <;> cases recast <;> refine ⟨?_, ?_, ?_, ?_⟩ <;>
    simp +contextual [copyTensorToType, hnv, execs, exec, assign, k0, k1, k2]

theorem copyBack_spec (M : Machine T W) (i : Info) (nv : Name → Bool) (recast : Nat → Bool) (base k : Nat)
    (flags : List Bool) (ns : List Name) (hn : ∀ n : Nat, n ∈ ns → n < base) (s : State T W) :
    (∀ o ∈ (copyBack nv recast base k flags ns).1, o.kind ≠ .ret)
      ∧ (∀ m : Nat, m < base → (execs M i (copyBack nv recast base k flags ns).1 s).val m = s.val m)
      ∧ (copyBack nv recast base k flags ns).2.map (execs M i (copyBack nv recast base k flags ns).1 s).val
          = ns.map s.val
      ∧ (execs M i (copyBack nv recast base k flags ns).1 s).world = s.world := by
  induction ns generalizing base k flags s with
  | nil => simp [copyBack, execs]
  | cons n ns ih =>
    have hn0 := hn n List.mem_cons_self
    have hns : ∀ m ∈ ns, m < base + 3 := fun m hm => Nat.lt_add_right _ (hn m (List.mem_cons_of_mem _ hm))
    rw [copyBack]
    simp only
    split
    · obtain ⟨c1, c2, c3, c4⟩ := copyTensorToType_spec M i nv (recast k && !nv n) base n hn0 s
      obtain ⟨k1, k2, k3, k4⟩ := ih (base + 3) (k + 1) (flags.drop 1) hns
        (execs M i (copyTensorToType nv (recast k && !nv n) base n).1 s)
      refine ⟨?_, ?_, ?_, ?_⟩
      · intro o ho
        rcases List.mem_append.1 ho with e | e
        · exact c1 o e
        · exact k1 o e
      · intro m hm
        rw [execs_append, k2 m (by omega), c2 m hm]
      · rw [execs_append, List.map_cons, k3, List.map_cons]
        congr 1
        · have : (copyTensorToType nv (recast k && !nv n) base n).2 = base + 2 := rfl
          rw [this, k2 _ (by omega), c3]
        · apply List.map_congr_left
          intro m hm
          exact c2 m (hn m (List.mem_cons_of_mem _ hm))
      · rw [execs_append, k4, c4]
    · obtain ⟨k1, k2, k3, k4⟩ := ih (base + 3) (k + 1) (flags.drop 1) hns s
      refine ⟨k1, fun m hm => k2 m (by omega), ?_, k4⟩
      rw [List.map_cons, k3, List.map_cons, k2 n (Nat.lt_add_right 3 hn0)]

theorem run_finishReturn (M : Machine T W) (i : Info) (nv : Name → Bool) (recast : Nat → Bool) (base : Name)
    (flags : List Bool) (ops : List Op) (hreg : ∀ n, base ≤ n → i.region n ≠ none)
    (hargs : ∀ o ∈ ops, ∀ a ∈ o.args, a < base) (s : State T W) :
    run M i (finishReturn nv recast base flags ops) s = run M i ops s := by
  induction ops generalizing s with
  | nil => rfl
  | cons o ops ih =>
    rw [finishReturn]
    split
    · next hk =>
      obtain ⟨k1, k2, k3, k4⟩ := copyBack_spec M i nv recast base 0 flags o.args
        (hargs o List.mem_cons_self) s
      rw [run_append _ _ _ _ _ k1, run, run, if_pos hk, if_pos (by exact hk), k3, k4]
      congr 2
      funext n
      unfold Info.seen
      by_cases hs : i.nv n = true ∧ i.region n = none
      · rw [if_pos hs, if_pos hs, k2]
        exact Nat.lt_of_not_le (fun hh => hreg n hh hs.2)
      · rw [if_neg hs, if_neg hs]
    · next hk =>
      rw [run, run, if_neg hk, if_neg hk]
      exact ih (fun p hp => hargs p (List.mem_cons_of_mem _ hp)) _

/-! ## The slice -/

theorem go_args {al : List Name} {rev : List Op} {rs : List Name} {base : Name} (θ : Name → Name) (ops : List Op)
    (hops : ∀ o ∈ ops, ∀ a ∈ o.args, a < base) (hθ : ∀ n, n < base → θ n < base) :
    ∀ o ∈ go al rev rs θ ops, ∀ a ∈ o.args, a < base := by
  induction ops generalizing θ with
  | nil => simp [go]
  | cons o ops ih =>
    have hops' := fun p hp => hops p (List.mem_cons_of_mem o hp)
    have h0 := hops o List.mem_cons_self
    rw [go]
    cases hov : overwriteOf al o with
    | some p =>
      obtain ⟨v, d⟩ := p
      simp only
      obtain ⟨_, ha, _⟩ := overwriteOf_eq hov
      apply ih _ hops'
      intro n hn
      split
      · exact hθ v (h0 v (by simp [ha]))
      · exact hθ n hn
    | none =>
      simp only
      cases hr : readOf rs o with
      | some p =>
        obtain ⟨x, r⟩ := p
        simp only
        obtain ⟨ho, _⟩ := readOf_eq hr
        apply ih _ hops'
        intro n hn
        split
        · exact hθ x (h0 x (by simp [ho]))
        · exact hθ n hn
      | none =>
        simp only
        intro p hp a ha
        rcases List.mem_cons.1 hp with e | e
        · subst e
          obtain ⟨b, hb, rfl⟩ := List.mem_map.1 ha
          exact hθ b (h0 b hb)
        · exact ih θ hops' hθ p e a ha

theorem mem_usesOf {al : List Name} {o : Op} {n : Name} : n ∈ usesOf al o ↔ n ∈ o.args ∧ n ∈ al := by
  simp [usesOf]

theorem mem_copyResults {al : List Name} {post : List Op} {r : Name} (h : r ∈ copyResults al post) :
    ∃ o ∈ post, usesOf al o ≠ [] ∧ o.kind = .toVTensor ∧ r ∈ o.results := by
  simp only [copyResults, users, List.mem_flatMap, List.mem_filter] at h
  obtain ⟨o, ⟨h1, h2⟩, h3⟩ := h
  split at h3
  · next hk => exact ⟨o, h1, by simpa using h2, hk, h3⟩
  · cases h3

theorem copyResults_mem {al : List Name} {post : List Op} {o : Op} {r : Name} (ho : o ∈ post) (hu : usesOf al o ≠ [])
    (hk : o.kind = .toVTensor) (hr : r ∈ o.results) : r ∈ copyResults al post := by
  simp only [copyResults, users, List.mem_flatMap, List.mem_filter]
  exact ⟨o, ⟨ho, by simpa using hu⟩, by simpa [hk] using hr⟩

theorem users_cons_neg {al : List Name} {o : Op} {ops : List Op} (h : usesOf al o = []) :
    users al (o :: ops) = users al ops := by
  unfold users; rw [List.filter_cons_of_neg (by simp [h])]

theorem users_cons_pos {al : List Name} {o : Op} {ops : List Op} (h : usesOf al o ≠ []) :
    users al (o :: ops) = o :: users al ops := by
  unfold users; rw [List.filter_cons_of_pos (by simpa using h)]

/-- Everything about the slice that does not change during the simulation. -/
structure SliceOk (i : Info) (c base : Name) (al : List Name) (nv' : Name → Bool) (D0 : List Name) (post : List Op)
    (M : Machine T W) : Prop where
  ctx : Ctx i c base al nv'
  ssa : Ssa D0 post
  typed : ∀ o ∈ post, i.Typed o
  complete : ∀ n ∈ defs post ++ D0, i.Inside c n → n ∈ al
  below : ∀ n ∈ defs post ++ D0, n < base
  view : ∀ o ∈ post, usesOf al o ≠ [] → viewOk i.nv al o = true
  back : M.ReadsBack post

theorem sim {i : Info} {c base : Name} {al : List Name} {nv' : Name → Bool} {D0 : List Name} {post : List Op}
    {M : Machine T W} (hS : SliceOk i c base al nv' D0 post M) (done ops : List Op) (hpost : post = done ++ ops)
    (θ : Name → Name) (A B : List Name) (s s' : State T W)
    (hrel : Rel i c al θ A (defs done ++ D0) s.val s'.val) (hw : s'.world = s.world)
    (hint : interpret i.nv al post.reverse A (users al ops) = some B) :
    run M (i.after base nv') (go al post.reverse (copyResults al post) θ ops) s' = run M i ops s := by
  induction ops generalizing done θ A s s' with
  | nil => rfl
  | cons o ops ih =>
    have hpost' : post = (done ++ [o]) ++ ops := by simp [hpost]
    have ho : o ∈ post := by simp [hpost]
    have hssa := hS.ssa
    rw [hpost] at hssa
    obtain ⟨_, ka, kr, _, _⟩ := hssa.append
    have hty := hS.typed o ho
    have hDD : ∀ n, n ∈ defs done ++ D0 → n ∈ defs post ++ D0 := by
      intro n hn
      rw [hpost]
      simp only [defs, List.flatMap_append, List.mem_append] at hn ⊢
      rcases hn with h | h
      · exact .inl (.inl h)
      · exact .inr h
    have hD : ∀ n ∈ defs done ++ D0, n < base := fun n hn => hS.below n (hDD n hn)
    have hrD : ∀ r ∈ o.results, r ∈ defs post ++ D0 :=
      fun r hr => List.mem_append_left _ (List.mem_flatMap.2 ⟨o, ho, hr⟩)
    -- the defined names after `o`
    have hdef : ∀ n, n ∈ o.results ++ (defs done ++ D0) → n ∈ defs (done ++ [o]) ++ D0 := by
      intro n hn
      simp only [defs, List.flatMap_append, List.flatMap_cons, List.flatMap_nil, List.append_nil, List.mem_append] at hn ⊢
      rcases hn with h | h | h
      · exact .inl (.inr h)
      · exact .inl (.inl h)
      · exact .inr h
    by_cases hu : usesOf al o = []
    · -- not a user
      rw [users_cons_neg hu] at hint
      have hnal : ∀ a ∈ o.args, a ∉ al := by
        intro a ha hm
        have : a ∈ usesOf al o := mem_usesOf.2 ⟨ha, hm⟩
        rw [hu] at this; cases this
      have hnin : ∀ a ∈ o.args, ¬ i.Inside c a := fun a ha hi => hnal a ha (hS.complete a (hDD a (ka a ha)) hi)
      have hov : overwriteOf al o = none := by
        cases h : overwriteOf al o with
        | none => rfl
        | some p =>
          obtain ⟨v, d⟩ := p
          obtain ⟨_, h2, h3⟩ := overwriteOf_eq h
          exact absurd h3 (hnal d (by simp [h2]))
      have hrd : readOf (copyResults al post) o = none := by
        cases h : readOf (copyResults al post) o with
        | none => rfl
        | some p =>
          obtain ⟨x, r⟩ := p
          obtain ⟨h2, h3⟩ := readOf_eq h
          obtain ⟨q, hq1, hq2, _, hq4⟩ := mem_copyResults h3
          have := hS.ssa.unique ho hq1 (r := r) (by simp [h2]) hq4
          exact absurd (this ▸ hu) hq2
      rw [go, hov]
      simp only [hrd]
      rw [run, run]
      have hk' : (o.subst θ).kind = o.kind := rfl
      rw [hk']
      by_cases hk : o.kind = .ret
      · rw [if_pos hk, if_pos hk]
        rw [hrel.seen hS.ctx (by simp) (by simp), hw]
        congr 2
        exact hrel.args (fun x hx => .inl (hnin x hx))
      · rw [if_neg hk, if_neg hk]
        obtain ⟨h1, h2⟩ := hrel.step M hS.ctx hD hw hty ka kr (fun a ha => .inl (hnin a ha)) (fun _ d hd => hnin d hd)
          (A' := A) (fun n hn => .inl hn) hrel.alias
        exact ih (done ++ [o]) hpost' θ A _ _ (h1.more hdef) h2 hint
    · rw [users_cons_pos hu] at hint
      rw [interpret] at hint
      cases hiu : interpretUser i.nv al post.reverse A o with
      | none => rw [hiu] at hint; cases hint
      | some A' =>
        rw [hiu] at hint
        simp only at hint
        unfold interpretUser at hiu
        split at hiu
        · cases hiu
        · next hall =>
          have hall' : ∀ n ∈ usesOf al o, n ∈ A := by
            have := hall
            simp only [Bool.not_eq_true', Bool.not_eq_false, List.all_eq_true, List.contains_iff_mem] at this
            exact this
          have hargs : ∀ a ∈ o.args, ¬ i.Inside c a ∨ a ∈ A := by
            intro a ha
            by_cases hi : i.Inside c a
            · exact .inr (hall' a (mem_usesOf.2 ⟨ha, hS.complete a (hDD a (ka a ha)) hi⟩))
            · exact .inl hi
          split at hiu
          · -- view-like
            next hv =>
            split at hiu
            · next r hres =>
              have hkk : o.kind ≠ .ret ∧ o.kind ≠ .overwrite ∧ o.kind ≠ .toVTensor := by
                unfold Op.isViewLike at hv
                split at hv <;> simp_all
              have hov : overwriteOf al o = none := by
                cases h : overwriteOf al o with
                | none => rfl
                | some p => exact absurd (overwriteOf_eq h).1 hkk.2.1
              have hrd : readOf (copyResults al post) o = none := by
                cases h : readOf (copyResults al post) o with
                | none => rfl
                | some p => exact absurd (by rw [(readOf_eq h).1]) hkk.2.2
              have hA' : ∀ n ∈ A', n ∈ A ∨ n ∈ o.results := by
                intro n hn
                rw [← Option.some.inj hiu] at hn
                split at hn
                · rcases List.mem_cons.1 hn with e | e
                  · exact .inr (by simp [hres, e])
                  · exact .inl e
                · exact .inl hn
              have hal' : ∀ n ∈ A', n ∈ al := by
                intro n hn
                rcases hA' n hn with e | e
                · exact hrel.alias n e
                · rw [hres, List.mem_singleton] at e
                  subst e
                  by_cases hnA : n ∈ A
                  · exact hrel.alias n hnA
                  · rw [← Option.some.inj hiu] at hn
                    split at hn
                    · next hnv =>
                      obtain ⟨x, xs, r', h1, h2, h3⟩ := typed_viewLike hty hv
                      rw [hres] at h2; simp only [List.cons.injEq, and_true] at h2; subst h2
                      have hvo := hS.view o ho hu
                      have hx : x ∈ al := by
                        obtain ⟨u, hu'⟩ := List.exists_mem_of_ne_nil _ hu
                        obtain ⟨hu1, hu2⟩ := mem_usesOf.1 hu'
                        rw [h1] at hu1
                        rcases List.mem_cons.1 hu1 with e | e
                        · exact e ▸ hu2
                        · unfold viewOk at hvo
                          rw [hv, hres, h1] at hvo
                          simp only [Bool.not_true, Bool.false_or, hnv, List.drop_succ_cons, List.drop_zero,
                            List.take_succ_cons, List.take_zero, List.any_cons, List.any_nil, Bool.or_false] at hvo
                          have : xs.any al.contains = true := List.any_eq_true.2 ⟨u, e, by simpa using hu2⟩
                          rw [this] at hvo
                          simpa using hvo
                      have hin := hS.ctx.inside x hx
                      exact hS.complete n (hrD n (by simp [hres])) ⟨hnv, (h3 hnv).2.trans hin.2⟩
                    · exact absurd hn hnA
              rw [go, hov]
              simp only [hrd]
              rw [run, run]
              have hk' : (o.subst θ).kind = o.kind := rfl
              rw [hk', if_neg hkk.1, if_neg hkk.1]
              obtain ⟨h1, h2⟩ := hrel.step M hS.ctx hD hw hty ka kr hargs
                (fun h => absurd h hkk.2.1) hA' hal'
              exact ih (done ++ [o]) hpost' θ A' _ _ (h1.more hdef) h2 hint
            · cases hiu
          · next hv =>
            split at hiu
            · -- copy to a value tensor
              next hk =>
              have hAA : A = A' := Option.some.inj hiu
              subst hAA
              have hty' := hty
              unfold Info.Typed at hty'
              rw [hk] at hty'
              obtain ⟨x, r, h1, h2, h3, h4⟩ := hty'
              have hoe : o = ⟨.toVTensor, [x], [r]⟩ := by cases o; simp_all
              have hx : x ∈ al := by
                obtain ⟨u, hu'⟩ := List.exists_mem_of_ne_nil _ hu
                obtain ⟨hu1, hu2⟩ := mem_usesOf.1 hu'
                rw [h1, List.mem_singleton] at hu1
                exact hu1 ▸ hu2
              have hxA : x ∈ A := hall' x (mem_usesOf.2 ⟨by simp [h1], hx⟩)
              have hov : overwriteOf al o = none := by
                cases h : overwriteOf al o with
                | none => rfl
                | some p => have := (overwriteOf_eq h).1; rw [hk] at this; cases this
              have hrd : readOf (copyResults al post) o = some (x, r) := by
                have := copyResults_mem ho hu hk (r := r) (by simp [h2])
                unfold readOf
                rw [hk, h1, h2]
                simp [this]
              rw [go, hov]
              simp only [hrd]
              rw [run, if_neg (by rw [hk]; simp)]
              obtain ⟨k1, k2⟩ := hrel.read M hxA (kr r (by simp [h2])) h4
              rw [hoe] at hdef
              rw [hoe]
              rw [hoe] at hpost'
              exact ih _ hpost' _ A _ _ (k1.more hdef) (hw.trans k2.symm) hint
            · -- overwrite
              next v d hk ha =>
              have hAA := Option.some.inj hiu
              have hty' := hty
              unfold Info.Typed at hty'
              rw [hk] at hty'
              obtain ⟨v', d', h1, h2, h3, h4⟩ := hty'
              rw [ha] at h1
              simp only [List.cons.injEq, and_true] at h1
              obtain ⟨rfl, rfl⟩ := h1
              have hd : d ∈ al := by
                obtain ⟨u, hu'⟩ := List.exists_mem_of_ne_nil _ hu
                obtain ⟨hu1, hu2⟩ := mem_usesOf.1 hu'
                rw [ha] at hu1
                simp only [List.mem_cons, List.not_mem_nil, or_false] at hu1
                rcases hu1 with e | e
                · have := (hS.ctx.inside u hu2).1
                  rw [e, h3] at this; cases this
                · exact e ▸ hu2
              have hov : overwriteOf al o = some (v, d) := by
                unfold overwriteOf; rw [hk, ha]; simp [hd]
              rw [go, hov]
              simp only
              rw [run, if_neg (by rw [hk]; simp)]
              have hset : ∀ n ∈ d :: castAliases post.reverse d,
                  n ∈ defs done ++ D0 ∧ n ∈ al ∧ ∀ t m, M.spread d t m n = t := by
                have hdD : d ∈ defs done ++ D0 := ka d (by simp [ha])
                intro n hn
                rcases List.mem_cons.1 hn with e | e
                · subst e
                  exact ⟨hdD, hd, fun t m => hS.back n t m n (.refl n)⟩
                · have hch := (chain_of_castAliases _ _ _ e).mono (b := post) (fun p hp => List.mem_reverse.1 hp)
                  have hnD : n ∈ defs done ++ D0 := Chain.defined hssa (hpost ▸ hch) hdD
                  have hin := hch.typed hS.typed (hS.ctx.inside d hd).1
                  refine ⟨hnD, hS.complete n (hDD n hnD) ⟨hin.1, hin.2.trans (hS.ctx.inside d hd).2⟩, ?_⟩
                  exact fun t m => hS.back d t m n hch.same
              obtain ⟨k1, k2⟩ := hrel.overwrite M hS.ctx hd h3 (ka v (by simp [ha])) hset hk ha
              rw [h2] at hdef
              rw [← hAA] at hint
              exact ih (done ++ [o]) hpost' _ _ _ _ (k1.more (fun n hn => hdef n (by simpa using hn))) (hw.trans k2.symm) hint
            · -- return
              next hk =>
              have hov : overwriteOf al o = none := by
                cases h : overwriteOf al o with
                | none => rfl
                | some p => have := (overwriteOf_eq h).1; rw [hk] at this; cases this
              have hrd : readOf (copyResults al post) o = none := by
                cases h : readOf (copyResults al post) o with
                | none => rfl
                | some p => have := (readOf_eq h).1; rw [this] at hk; cases hk
              rw [go, hov]
              simp only [hrd]
              rw [run, run]
              have hk' : (o.subst θ).kind = o.kind := rfl
              rw [hk', if_pos hk, if_pos hk, hrel.seen hS.ctx (by simp) (by simp), hw]
              congr 2
              exact hrel.args hargs
            · cases hiu

end Verif.VS
