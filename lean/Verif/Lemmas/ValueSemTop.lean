import Verif.Lemmas.ValueSemMain

/-! The whole block: nothing here is claimed. -/

namespace Verif.VS

variable {T W : Type}

theorem not_inside_before {i : Info} {params : List Name} {pre : List Op} {c : Name} (hs : Ssa params pre)
    (ht : ∀ o ∈ pre, i.Typed o) (hp : ∀ p ∈ params, i.nv p = true → i.region p = none) (hc : c ∉ defs pre) :
    ∀ n ∈ defs pre ++ params, ¬ i.Inside c n := by
  intro n hn hi
  have := mem_aliases_of_inside (al := []) hs ht hc
    (fun m hm hmi => by have := hp m hm hmi.1; rw [hmi.2] at this; cases this) n hn hi
  rw [foldl_addAlias_nil] at this
  cases this

theorem sim_prefix {i : Info} {c base : Name} {al : List Name} {nv' : Name → Bool} {M : Machine T W}
    (hx : Ctx i c base al nv') {params : List Name} (pre rest rest' : List Op) (done : List Op)
    (hs : Ssa params (done ++ pre)) (ht : ∀ o ∈ pre, i.Typed o)
    (hin : ∀ n ∈ defs (done ++ pre) ++ params, ¬ i.Inside c n) (hb : ∀ n ∈ defs (done ++ pre) ++ params, n < base)
    (s s' : State T W) (hrel : Rel i c al id [] (defs done ++ params) s.val s'.val) (hw : s'.world = s.world)
    (hrest : ∀ t t' : State T W, Rel i c al id [] (defs (done ++ pre) ++ params) t.val t'.val → t'.world = t.world →
      run M (i.after base nv') rest' t' = run M i rest t) :
    run M (i.after base nv') (pre ++ rest') s' = run M i (pre ++ rest) s := by
  induction pre generalizing done s s' with
  | nil => exact hrest s s' (by simpa using hrel) hw
  | cons o pre ih =>
    obtain ⟨_, ka, kr, _, _⟩ := hs.append
    have hty := ht o List.mem_cons_self
    have hsub : ∀ n, n ∈ defs done ++ params → n ∈ defs (done ++ o :: pre) ++ params := by
      intro n hn
      simp only [defs, List.flatMap_append, List.mem_append] at hn ⊢
      rcases hn with h | h
      · exact .inl (.inl h)
      · exact .inr h
    have hargs : ∀ a ∈ o.args, ¬ i.Inside c a := fun a ha => hin a (hsub a (ka a ha))
    have hsid : o.subst id = o := by simp [Op.subst]
    rw [List.cons_append, List.cons_append, run, run]
    by_cases hk : o.kind = .ret
    · rw [if_pos hk, if_pos hk, hrel.seen hx (by simp) (by simp), hw]
      congr 2
      have := hrel.args (xs := o.args) (fun x hxm => .inl (hargs x hxm))
      simpa using this
    · rw [if_neg hk, if_neg hk]
      obtain ⟨h1, h2⟩ := hrel.step M hx (fun n hn => hb n (hsub n hn)) hw hty ka kr (fun a ha => .inl (hargs a ha))
        (fun _ d hd => hargs d hd) (A' := []) (fun n hn => by cases hn) (fun n hn => by cases hn)
      rw [hsid] at h1 h2
      refine ih (done ++ [o]) (by simpa using hs) (fun p hp => ht p (List.mem_cons_of_mem _ hp)) (by simpa using hin)
        (by simpa using hb) _ _ (h1.more ?_) h2 (by simpa using hrest)
      intro n hn
      simp only [defs, List.flatMap_append, List.flatMap_cons, List.flatMap_nil, List.append_nil, List.mem_append] at hn ⊢
      rcases hn with h | h | h
      · exact .inl (.inr h)
      · exact .inl (.inl h)
      · exact .inr h

/-- The copy itself. -/
theorem Rel.copy {i : Info} {c x : Name} {al : List Name} {D : List Name} (M : Machine T W) {s s' : State T W}
    (h : Rel i c al id [] D s.val s'.val) (hc : c ∉ D) (hxD : x ∈ D) (hxn : i.nv x = false) (hci : i.Inside c c)
    (hcal : c ∈ al) :
    Rel i c al (fun n => if n = c then x else n) [c] ([c] ++ D) (exec M i ⟨.toTensor, [x], [c]⟩ s).val s'.val := by
  have hxi : ¬ i.Inside c x := fun hi => by rw [hi.1] at hxn; cases hxn
  refine ⟨?_, ?_, ?_, ?_, by simp, by simpa using hcal⟩
  · intro n hn
    simp only [exec, VS.assign]
    by_cases e : n = c
    · rw [if_pos e, if_pos e]; exact h.val x (.inl hxi)
    · rw [if_neg e, if_neg e]; exact h.val n (hn.imp id (fun hh => absurd (List.mem_singleton.1 hh) e))
  · intro n
    by_cases e : n = c
    · simp only [if_pos e]; exact .inr ⟨by simp [hxD], .inl hxn⟩
    · simp only [if_neg e]; exact .inl trivial
  · intro n _ h2
    have : n ≠ c := fun e => h2 (e ▸ hci)
    simp only [if_neg this]
  · intro n hn
    simp only [List.cons_append, List.nil_append, List.mem_cons, not_or] at hn
    simp only [if_neg hn.1]

theorem SameTensor.mono {a b : List Op} (h : ∀ o ∈ a, o ∈ b) {n m : Name} (hs : SameTensor a n m) : SameTensor b n m := by
  induction hs with
  | refl => exact .refl _
  | down hm _ ih => exact .down (h _ hm) ih
  | up hm _ ih => exact .up (h _ hm) ih

theorem Rel.init {i : Info} {c : Name} {al D : List Name} (S : Name → T) : Rel i c al id [] D S S :=
  ⟨fun _ _ => rfl, fun _ => .inl rfl, fun _ _ _ => rfl, fun _ _ => rfl, fun _ h => (by cases h), fun _ h => (by cases h)⟩

theorem defs_append (a b : List Op) : defs (a ++ b) = defs a ++ defs b := by simp [defs]

/-- The facts about the slice of a copy in a well-formed block. -/
theorem slice_ok {i : Info} {params : List Name} {base c x : Name} {pre post : List Op} {M : Machine T W}
    {nv' : Name → Bool} (hwf : WellFormed i params base (pre ++ ⟨.toTensor, [x], [c]⟩ :: post))
    (hreg : i.region c = some c) (hM : M.ReadsBack (pre ++ ⟨.toTensor, [x], [c]⟩ :: post))
    (hnv' : ∀ n, n < base → nv' n = (i.nv n && !(aliases i.nv c post).contains n))
    (hview : ∀ o ∈ post, usesOf (aliases i.nv c post) o ≠ [] → viewOk i.nv (aliases i.nv c post) o = true) :
    SliceOk i c base (aliases i.nv c post) nv' ([c] ++ (defs pre ++ params)) post M
      ∧ c ∉ defs pre ++ params ∧ x ∈ defs pre ++ params ∧ i.nv x = false ∧ i.Inside c c
      ∧ (∀ n ∈ defs pre ++ params, ¬ i.Inside c n ∧ n < base) := by
  obtain ⟨hpre, hsx, hsc, _, hspost⟩ := hwf.ssa.append
  have htc := hwf.typed ⟨.toTensor, [x], [c]⟩ (by simp)
  unfold Info.Typed at htc
  obtain ⟨x', c', e1, e2, hxn, hcn, _⟩ := htc
  simp only [List.cons.injEq, and_true] at e1 e2
  subst e1; subst e2
  have hcD : c ∉ defs pre ++ params := hsc c (by simp)
  have hxD : x ∈ defs pre ++ params := hsx x (by simp)
  have hcc : i.Inside c c := ⟨hcn, hreg⟩
  have htpost : ∀ o ∈ post, i.Typed o := fun o ho => hwf.typed o (by simp [ho])
  have htpre : ∀ o ∈ pre, i.Typed o := fun o ho => hwf.typed o (by simp [ho])
  have hbelow : ∀ n ∈ defs pre ++ params, n < base := by
    intro n hn
    rcases List.mem_append.1 hn with h | h
    · obtain ⟨o, ho, hr⟩ := List.mem_flatMap.1 h
      exact hwf.below o (by simp [ho]) n (by simp [hr])
    · exact hwf.paramsBelow n h
  have hnin := not_inside_before hpre htpre hwf.paramsPublic (fun h => hcD (List.mem_append_left _ h))
  have hcpost : c ∉ defs post := fun h => hspost.notMem_defs c h (by simp)
  refine ⟨⟨⟨hnv', hwf.nvBelow, ?_⟩, hspost, htpost, ?_, ?_, hview, ?_⟩, hcD, hxD, hxn, hcc,
    fun n hn => ⟨hnin n hn, hbelow n hn⟩⟩
  · exact inside_of_mem_aliases htpost (by simpa using hcc)
  · apply mem_aliases_of_inside hspost htpost hcpost
    intro n hn hi
    simp only [List.cons_append, List.nil_append, List.mem_cons] at hn
    rcases hn with e | e
    · simp [e]
    · exact absurd hi (hnin n e)
  · intro n hn
    rcases List.mem_append.1 hn with h | h
    · obtain ⟨o, ho, hr⟩ := List.mem_flatMap.1 h
      exact hwf.below o (by simp [ho]) n (by simp [hr])
    · simp only [List.cons_append, List.nil_append, List.mem_cons] at h
      rcases h with e | e
      · exact hwf.below ⟨.toTensor, [x], [c]⟩ (by simp) n (by simp [e])
      · exact hbelow n e
  · intro d v m n hs
    exact hM d v m n (hs.mono (fun o ho => by simp [ho]))

/-- Running the rewritten slice after the unchanged beginning. -/
theorem sound_of_go {i : Info} {params : List Name} {base c x : Name} {pre post : List Op} {M : Machine T W}
    {nv' : Name → Bool} (hwf : WellFormed i params base (pre ++ ⟨.toTensor, [x], [c]⟩ :: post))
    (hreg : i.region c = some c) (hM : M.ReadsBack (pre ++ ⟨.toTensor, [x], [c]⟩ :: post))
    (hnv' : ∀ n, n < base → nv' n = (i.nv n && !(aliases i.nv c post).contains n))
    (hview : ∀ o ∈ post, usesOf (aliases i.nv c post) o ≠ [] → viewOk i.nv (aliases i.nv c post) o = true)
    {B : List Name}
    (hint : interpret i.nv (aliases i.nv c post) post.reverse [c] (users (aliases i.nv c post) post) = some B)
    (post' : List Op) (hpost' : ∀ t : State T W, run M (i.after base nv') post' t
      = run M (i.after base nv') (go (aliases i.nv c post) post.reverse (copyResults (aliases i.nv c post) post)
          (fun n => if n = c then x else n) post) t) (s : State T W) :
    run M (i.after base nv') (pre ++ post') s = run M i (pre ++ ⟨.toTensor, [x], [c]⟩ :: post) s := by
  obtain ⟨hS, hcD, hxD, hxn, hcc, hbefore⟩ := slice_ok hwf hreg hM hnv' hview
  obtain ⟨hpre, _⟩ := hwf.ssa.append
  apply sim_prefix hS.ctx pre _ post' [] (by simpa using hpre) (fun o ho => hwf.typed o (by simp [ho]))
    (fun n hn => (hbefore n (by simpa using hn)).1) (fun n hn => (hbefore n (by simpa using hn)).2) s s (Rel.init _) rfl
  intro t t' hrel hw
  rw [hpost', run, if_neg (by simp)]
  apply sim hS [] post rfl _ [c] B
  · have := Rel.copy (al := aliases i.nv c post) M (by simpa using hrel) hcD hxD hxn hcc
      (mem_foldl_addAlias (by simp))
    simpa [defs] using this
  · simpa [exec] using hw
  · exact hint

theorem dropCopies_eq_go {i : Info} {params : List Name} {base c x : Name} {pre post : List Op}
    (hwf : WellFormed i params base (pre ++ ⟨.toTensor, [x], [c]⟩ :: post)) (al rs : List Name) (θ : Name → Name) :
    dropCopies rs θ (dropOverwrites al post.reverse post) = go al post.reverse rs θ post := by
  obtain ⟨_, _, _, _, hspost⟩ := hwf.ssa.append
  have := drop_eq_go (D0 := [c] ++ (defs pre ++ params)) (all := post) (done := []) (ops := post) (al := al) (rs := rs)
    (by simpa using hspost) (by simp) θ id (fun n => .inl rfl) (fun n _ => rfl)
  have hid : (dropOverwrites al post.reverse post).map (·.subst id) = dropOverwrites al post.reverse post := by
    simp [Op.subst]
  rw [hid] at this
  simpa using this

theorem interpretPattern_some {nv : Name → Bool} {recast : Nat → Bool} {base c x : Name} {post post' : List Op}
    (h : interpretPattern nv recast base c x post = some post') :
    (∀ o ∈ post, usesOf (aliases nv c post) o ≠ [] → viewOk nv (aliases nv c post) o = true)
      ∧ (∃ B, interpret nv (aliases nv c post) post.reverse [c] (users (aliases nv c post) post) = some B)
      ∧ post' = rewriteSlice nv recast base c x (aliases nv c post) post := by
  unfold interpretPattern at h
  simp only at h
  split at h
  · cases h
  · next hv =>
    split at h
    · cases h
    · split at h
      · next B hB =>
        refine ⟨?_, ⟨B, hB⟩, (Option.some.inj h).symm⟩
        intro o ho hu
        simp only [Bool.not_eq_true', Bool.not_eq_false, List.all_eq_true] at hv
        exact hv o (by unfold users; exact List.mem_filter.2 ⟨ho, by simpa using hu⟩)
      · cases h

theorem go_args_below {i : Info} {params : List Name} {base c x : Name} {pre post : List Op} {al rs : List Name}
    {rev : List Op} (hwf : WellFormed i params base (pre ++ ⟨.toTensor, [x], [c]⟩ :: post)) :
    ∀ o ∈ go al rev rs (fun n => if n = c then x else n) post, ∀ a ∈ o.args, a < base := by
  apply go_args
  · intro o ho a ha
    exact hwf.below o (by simp [ho]) a (by simp [ha])
  · intro n hn
    split
    · exact hwf.below ⟨.toTensor, [x], [c]⟩ (by simp) x (by simp)
    · exact hn

theorem run_rewriteSlice {i : Info} {params : List Name} {base c x : Name} {pre post : List Op} {M : Machine T W}
    {nv' : Name → Bool} (recast : Nat → Bool) (hwf : WellFormed i params base (pre ++ ⟨.toTensor, [x], [c]⟩ :: post))
    (al : List Name) (t : State T W) :
    run M (i.after base nv') (rewriteSlice i.nv recast base c x al post) t
      = run M (i.after base nv') (go al post.reverse (copyResults al post) (fun n => if n = c then x else n) post) t := by
  unfold rewriteSlice
  simp only
  rw [dropCopies_eq_go hwf]
  split
  · apply run_finishReturn
    · intro n hn
      simp only [Info.after]
      rw [if_neg (Nat.not_lt.2 hn)]
      simp
    · exact go_args_below hwf
  · rfl

end Verif.VS
