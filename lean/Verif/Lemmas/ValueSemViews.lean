import Verif.Lemmas.ValueSemTyped

/-! Handles, derived tensors, ownership, blocks without overwrites: nothing here is claimed. -/

namespace Verif.VS

variable {T W : Type}

theorem isViewLike_iff {o : Op} : o.isViewLike = true ↔ o.Shows := by
  obtain ⟨k, a, r⟩ := o
  cases k <;> simp [Op.isViewLike, Op.Shows]

theorem mem_foldl_addAlias_defs {nv : Name → Bool} {ops : List Op} {al : List Name} {n : Name}
    (h : n ∈ ops.foldl (addAlias nv) al) : n ∈ al ∨ n ∈ defs ops := by
  induction ops generalizing al with
  | nil => exact .inl h
  | cons o ops ih =>
    rcases ih h with h | h
    · rcases mem_addAlias_iff.1 h with h | ⟨_, _, a, as, hr, _⟩
      · exact .inl h
      · exact .inr (by simp [defs, hr])
    · exact .inr (by simp only [defs, List.flatMap_cons, List.mem_append]; exact .inr h)

/-- Which results are aliases. -/
theorem aliases_iff {nv : Name → Bool} {D : List Name} {ops : List Op} {al : List Name} (hs : Ssa D ops)
    (hal : ∀ n ∈ al, n ∈ D) {o : Op} (ho : o ∈ ops) {r : Name} (hr : r ∈ o.results) :
    r ∈ ops.foldl (addAlias nv) al ↔ o.isViewLike = true ∧ nv r = true ∧ ∃ a as, o.results = [r] ∧ o.args = a :: as
      ∧ a ∈ ops.foldl (addAlias nv) al := by
  induction ops generalizing D al with
  | nil => cases ho
  | cons p ops ih =>
    obtain ⟨h1, h2, h3, h4⟩ := hs
    rw [List.foldl_cons]
    have hal' : ∀ n ∈ addAlias nv al p, n ∈ p.results ++ D := by
      intro n hn
      rcases mem_addAlias_iff.1 hn with h | ⟨_, _, a, as, e, _⟩
      · exact List.mem_append_right _ (hal n h)
      · exact List.mem_append_left _ (by simp [e])
    rcases List.mem_cons.1 ho with e | e
    · subst e
      have hrl : r ∉ defs ops := fun h => h4.notMem_defs r h (List.mem_append_left _ hr)
      constructor
      · intro h
        rcases mem_foldl_addAlias_defs h with h | h
        · rcases mem_addAlias_iff.1 h with h | ⟨k1, k2, a, as, k3, k4, k5⟩
          · exact absurd (hal r h) (h2 r hr)
          · exact ⟨k1, k2, a, as, k3, k4, mem_foldl_addAlias (mem_addAlias k5)⟩
        · exact absurd h hrl
      · rintro ⟨k1, k2, a, as, k3, k4, k5⟩
        apply mem_foldl_addAlias
        refine mem_addAlias_iff.2 (.inr ⟨k1, k2, a, as, k3, k4, ?_⟩)
        have haD : a ∈ D := h1 a (by simp [k4])
        rcases mem_foldl_addAlias_defs k5 with h | h
        · rcases mem_addAlias_iff.1 h with h | ⟨_, _, b, bs, e, _⟩
          · exact h
          · exact absurd haD (h2 a (by simp [e]))
        · exact absurd (List.mem_append_right _ haD) (h4.notMem_defs a h)
    · exact ih h4 hal' e

theorem mem_aliases_iff_handle {nv : Name → Bool} {D : List Name} {post : List Op} {c : Name} (hs : Ssa D post)
    (hc : c ∈ D) (n : Name) : n ∈ aliases nv c post ↔ Handle nv post c n := by
  constructor
  · have key : ∀ (ops : List Op) (al : List Name), (∀ o ∈ ops, o ∈ post) → (∀ n ∈ al, Handle nv post c n) →
        ∀ n ∈ ops.foldl (addAlias nv) al, Handle nv post c n := by
      intro ops
      induction ops with
      | nil => intro al _ h; exact h
      | cons o ops ih =>
        intro al ho h
        apply ih _ (fun p hp => ho p (by simp [hp]))
        intro m hm
        rcases mem_addAlias_iff.1 hm with hm | ⟨k1, k2, a, as, k3, k4, k5⟩
        · exact h m hm
        · exact .step (ho o (by simp)) (isViewLike_iff.1 k1) k4 k3 k2 (h a k5)
    exact key post [c] (fun _ h => h) (by simp [Handle.self]) n
  · intro h
    induction h with
    | self => exact mem_foldl_addAlias (by simp)
    | step ho hsh ha hr hnv _ ih =>
      exact (aliases_iff hs (by simpa using hc) ho (by simp [hr])).2 ⟨isViewLike_iff.2 hsh, hnv, _, _, hr, ha, ih⟩

/-! ## Derived tensors -/

theorem mem_addDerived {l : List Name} {o : Op} {n : Name} (h : n ∈ l) : n ∈ addDerived l o := by
  unfold addDerived; split
  · exact List.mem_append_right _ h
  · exact h

theorem mem_foldl_addDerived {l : List Name} {ops : List Op} {n : Name} (h : n ∈ l) : n ∈ ops.foldl addDerived l := by
  induction ops generalizing l with
  | nil => exact h
  | cons o ops ih => exact ih (mem_addDerived h)

theorem addDerived_cases {l : List Name} {o : Op} {n : Name} (h : n ∈ addDerived l o) :
    n ∈ l ∨ (o.Shows ∧ n ∈ o.results ∧ ∃ a ∈ o.args, a ∈ l) := by
  unfold addDerived at h
  split at h
  · next hc =>
    simp only [Bool.and_eq_true, List.any_eq_true, List.contains_iff_mem] at hc
    rcases List.mem_append.1 h with h | h
    · exact .inr ⟨isViewLike_iff.1 hc.1, List.mem_of_mem_take h, hc.2⟩
    · exact .inl h
  · exact .inl h

theorem mem_foldl_addDerived_defs {ops : List Op} {l : List Name} {n : Name}
    (h : n ∈ ops.foldl addDerived l) : n ∈ l ∨ n ∈ defs ops := by
  induction ops generalizing l with
  | nil => exact .inl h
  | cons o ops ih =>
    rcases ih h with h | h
    · rcases addDerived_cases h with h | ⟨_, hr, _⟩
      · exact .inl h
      · exact .inr (by simp only [defs, List.flatMap_cons, List.mem_append]; exact .inl hr)
    · exact .inr (by simp only [defs, List.flatMap_cons, List.mem_append]; exact .inr h)

theorem derived_step {D : List Name} {ops : List Op} {l : List Name} (hs : Ssa D ops) (hl : ∀ n ∈ l, n ∈ D) {o : Op}
    (ho : o ∈ ops) (hsh : o.Shows) {r a : Name} (hr : o.results = [r]) (ha : a ∈ o.args)
    (hal : a ∈ ops.foldl addDerived l) : r ∈ ops.foldl addDerived l := by
  induction ops generalizing D l with
  | nil => cases ho
  | cons p ops ih =>
    obtain ⟨h1, h2, h3, h4⟩ := hs
    rw [List.foldl_cons] at hal ⊢
    have hl' : ∀ n ∈ addDerived l p, n ∈ p.results ++ D := by
      intro n hn
      rcases addDerived_cases hn with h | ⟨_, h, _⟩
      · exact List.mem_append_right _ (hl n h)
      · exact List.mem_append_left _ h
    rcases List.mem_cons.1 ho with e | e
    · subst e
      apply mem_foldl_addDerived
      have haD : a ∈ D := h1 a ha
      have : a ∈ l := by
        rcases mem_foldl_addDerived_defs hal with h | h
        · rcases addDerived_cases h with h | ⟨_, h, _⟩
          · exact h
          · exact absurd haD (h2 a h)
        · exact absurd (List.mem_append_right _ haD) (h4.notMem_defs a h)
      unfold addDerived
      rw [if_pos]
      · simp [hr]
      · simp only [Bool.and_eq_true, List.any_eq_true, List.contains_iff_mem]
        exact ⟨isViewLike_iff.2 hsh, a, ha, this⟩
    · exact ih h4 hl' e hal

theorem mem_reached_iff {i : Info} {D : List Name} {post : List Op} {c : Name} (hs : Ssa D post)
    (ht : ∀ o ∈ post, i.Typed o) (hc : c ∈ D) (n : Name) : n ∈ post.foldl addDerived [c] ↔ Derived post c n := by
  constructor
  · have key : ∀ (ops : List Op) (l : List Name), (∀ o ∈ ops, o ∈ post) → (∀ n ∈ l, Derived post c n) →
        ∀ n ∈ ops.foldl addDerived l, Derived post c n := by
      intro ops
      induction ops with
      | nil => intro l _ h; exact h
      | cons o ops ih =>
        intro l ho h
        apply ih _ (fun p hp => ho p (by simp [hp]))
        intro m hm
        rcases addDerived_cases hm with hm | ⟨k1, k2, a, k3, k4⟩
        · exact h m hm
        · exact .step (ho o (by simp)) k1 k3 k2 (h a k4)
    exact key post [c] (fun _ h => h) (by simp [Derived.self]) n
  · intro h
    induction h with
    | self => exact mem_foldl_addDerived (by simp)
    | @step o a r ho hsh ha hr _ ih =>
      obtain ⟨x, xs, r', _, hres, _⟩ := typed_viewLike (ht o ho) (isViewLike_iff.2 hsh)
      rw [hres, List.mem_singleton] at hr
      subst hr
      exact derived_step hs (by simpa using hc) ho hsh hres ha ih

theorem Handle.derived {nv : Name → Bool} {post : List Op} {c n : Name} (h : Handle nv post c n) : Derived post c n := by
  induction h with
  | self => exact .self
  | step ho hsh ha hr _ _ ih => exact .step ho hsh (by simp [ha]) (by simp [hr]) ih

theorem handle_of_derived {i : Info} {D : List Name} {post : List Op} {c : Name} (hs : Ssa D post)
    (ht : ∀ o ∈ post, i.Typed o) (hc : c ∈ D) (hf : FirstDerived i.nv post c) {n : Name} (h : Derived post c n)
    (hn : i.nv n = true) : n ∈ aliases i.nv c post := by
  have key : ∀ (done ops : List Op) (l al : List Name), post = done ++ ops → l = done.foldl addDerived [c] →
      (∀ n ∈ l, n ∈ defs done ++ D) → (∀ n ∈ l, i.nv n = true → n ∈ al) →
      ∀ n ∈ ops.foldl addDerived l, i.nv n = true → n ∈ ops.foldl (addAlias i.nv) al := by
    intro done ops
    induction ops generalizing done with
    | nil => intro l al _ _ _ h; exact h
    | cons o ops ih =>
      intro l al hp hl hlD h
      rw [List.foldl_cons, List.foldl_cons]
      apply ih (done ++ [o]) _ _ (by simp [hp]) (by simp [hl])
      · intro m hm
        rw [defs_append]
        rcases addDerived_cases hm with hm | ⟨_, k2, _⟩
        · have := hlD m hm
          simp only [List.mem_append] at this ⊢
          rcases this with h | h
          · exact .inl (.inl h)
          · exact .inr h
        · simp only [List.mem_append]
          exact .inl (.inr (by simp [defs, k2]))
      · intro m hm hmn
        rcases addDerived_cases hm with hm | ⟨k1, k2, a, k3, k4⟩
        · exact mem_addAlias (h m hm hmn)
        · have ho : o ∈ post := by simp [hp]
          obtain ⟨x, xs, r, hx, hr, hty⟩ := typed_viewLike (ht o ho) (isViewLike_iff.2 k1)
          rw [hr, List.mem_singleton] at k2
          subst k2
          have hlast : ∀ n, n ∈ l → n ∈ post.foldl addDerived [c] := by
            intro n hn
            rw [hp, List.foldl_append, ← hl]
            exact mem_foldl_addDerived hn
          have hder := hf o ho k1 a k3 ((mem_reached_iff hs ht hc a).1 (hlast a k4))
            (by rw [hr]; simpa using hmn) x xs hx
          have hxl : x ∈ l := by
            have := (mem_reached_iff hs ht hc x).2 hder
            rw [hp, List.foldl_append, ← hl] at this
            have hs' := hs
            rw [hp] at hs'
            obtain ⟨_, h2⟩ := hs'.append
            have hxD := h2.1 x (by simp [hx])
            rcases mem_foldl_addDerived_defs this with h | h
            · exact h
            · exact absurd hxD (h2.notMem_defs x h)
          exact mem_addAlias_iff.2 (.inr ⟨isViewLike_iff.2 k1, hmn, x, xs, hr, hx, h x hxl (hty hmn).1⟩)
  exact key [] post [c] [c] rfl rfl (by simpa [defs] using hc) (fun _ h _ => h) n ((mem_reached_iff hs ht hc n).2 h) hn

/-! ## Slices without overwrites -/

/-- The analysis succeeds if handles are only used by views of them, copies and returns. -/
theorem interpret_of_reads {i : Info} {c : Name} {al : List Name} {D0 : List Name} {post : List Op}
    (hs : Ssa D0 post) (ht : ∀ o ∈ post, i.Typed o) (hc : c ∈ D0) (hal : al = aliases i.nv c post)
    (rev : List Op)
    (hk : ∀ o ∈ post, usesOf al o ≠ [] → o.Shows ∨ o.kind = .toVTensor ∨ o.kind = .ret)
    (done ops : List Op) (hp : post = done ++ ops) (A : List Name)
    (hA : ∀ n ∈ al, n ∈ defs done ++ D0 → n ∈ A) :
    ∃ B, interpret i.nv al rev A (users al ops) = some B := by
  induction ops generalizing done A with
  | nil => exact ⟨A, rfl⟩
  | cons o ops ih =>
    have hp' : post = (done ++ [o]) ++ ops := by simp [hp]
    have ho : o ∈ post := by simp [hp]
    have hs' := hs
    rw [hp] at hs'
    obtain ⟨_, ka, kr, _, _⟩ := hs'.append
    have hdef : ∀ n, n ∈ defs (done ++ [o]) ++ D0 → n ∈ o.results ∨ n ∈ defs done ++ D0 := by
      intro n hn
      simp only [defs, List.flatMap_append, List.flatMap_cons, List.flatMap_nil, List.append_nil, List.mem_append] at hn ⊢
      rcases hn with (h | h) | h
      · exact .inr (.inl h)
      · exact .inl h
      · exact .inr (.inr h)
    have hres : ∀ r ∈ o.results, r ∈ al → o.isViewLike = true ∧ i.nv r = true ∧ o.results = [r] ∧ usesOf al o ≠ [] := by
      intro r hr hra
      rw [hal] at hra
      obtain ⟨k1, k2, a, as, k3, k4, k5⟩ := (aliases_iff hs (by simpa using hc) ho hr).1 hra
      refine ⟨k1, k2, k3, fun h0 => ?_⟩
      have : a ∈ usesOf al o := mem_usesOf.2 ⟨by simp [k4], by rw [hal]; exact k5⟩
      rw [h0] at this; cases this
    by_cases hu : usesOf al o = []
    · rw [users_cons_neg hu]
      apply ih (done ++ [o]) hp'
      intro n hn hd
      rcases hdef n hd with h | h
      · exact absurd hu (hres n h hn).2.2.2
      · exact hA n hn h
    · rw [users_cons_pos hu, interpret]
      have hav : (usesOf al o).all A.contains = true := by
        rw [List.all_eq_true]
        intro n hn
        obtain ⟨h1, h2⟩ := mem_usesOf.1 hn
        simpa using hA n h2 (ka n h1)
      have hstep : ∃ A', interpretUser i.nv al rev A o = some A' ∧ ∀ n ∈ al, n ∈ o.results ∨ n ∈ A → n ∈ A' := by
        unfold interpretUser
        rw [hav]
        simp only [Bool.not_true, Bool.false_eq_true, if_false]
        rcases hk o ho hu with hsh | hsh | hsh
        · obtain ⟨x, xs, r, _, hr, _⟩ := typed_viewLike (ht o ho) (isViewLike_iff.2 hsh)
          rw [if_pos (isViewLike_iff.2 hsh), hr]
          refine ⟨_, rfl, fun n hn h => ?_⟩
          rcases h with h | h
          · have := (hres n (by rw [hr]; exact h) hn).2.1
            rw [List.mem_singleton] at h
            subst h
            rw [if_pos this]; simp
          · split
            · exact List.mem_cons_of_mem _ h
            · exact h
        · have hv : ¬ o.isViewLike = true := by unfold Op.isViewLike; rw [hsh]; simp
          rw [if_neg hv]
          refine ⟨A, by rw [hsh], fun n hn h => ?_⟩
          rcases h with h | h
          · exact absurd (hres n h hn).1 hv
          · exact h
        · have hv : ¬ o.isViewLike = true := by unfold Op.isViewLike; rw [hsh]; simp
          rw [if_neg hv]
          refine ⟨A, by rw [hsh], fun n hn h => ?_⟩
          rcases h with h | h
          · exact absurd (hres n h hn).1 hv
          · exact h
      obtain ⟨A', e, hA'⟩ := hstep
      rw [e]
      apply ih (done ++ [o]) hp'
      intro n hn hd
      rcases hdef n hd with h | h
      · exact hA' n hn (.inl h)
      · exact hA' n hn (.inr (hA n hn h))

theorem interpret_kinds {nv : Name → Bool} {al : List Name} {rev : List Op} {A : List Name} {us : List Op}
    {B : List Name} (h : interpret nv al rev A us = some B) : ∀ o ∈ us, ∀ k, o.kind ≠ .other k := by
  induction us generalizing A with
  | nil => simp
  | cons u us ih =>
    rw [interpret] at h
    cases hu : interpretUser nv al rev A u with
    | none => rw [hu] at h; cases h
    | some A' =>
      rw [hu] at h
      intro o ho k hk
      rcases List.mem_cons.1 ho with e | e
      · subst e
        unfold interpretUser at hu
        split at hu
        · cases hu
        · rw [if_neg (by unfold Op.isViewLike; rw [hk]; simp), hk] at hu
          simp at hu
      · exact ih h o e k hk

theorem ssa_names {D : List Name} {pre : List Op} (hs : Ssa D pre) {o : Op} (ho : o ∈ pre) :
    ∀ n ∈ o.args ++ o.results, n ∈ defs pre ++ D := by
  intro n hn
  rcases List.mem_append.1 hn with h | h
  · exact hs.args_mem ho n h
  · exact List.mem_append_left _ (List.mem_flatMap.2 ⟨o, ho, h⟩)

/-- Where the analysis succeeds, the handles of the copy can be given a region of their own. -/
theorem owned {i : Info} {params : List Name} {base c x : Name} {pre post : List Op}
    (hwf : WellFormed i params base (pre ++ ⟨.toTensor, [x], [c]⟩ :: post))
    (hk : ∀ o ∈ post, usesOf (aliases i.nv c post) o ≠ [] → ∀ k, o.kind ≠ .other k) :
    WellFormed ⟨i.nv, fun n => if n ∈ aliases i.nv c post then some c else i.region n⟩ params base
      (pre ++ ⟨.toTensor, [x], [c]⟩ :: post) := by
  obtain ⟨hpre, hsx, hsc, _, hspost⟩ := hwf.ssa.append
  have hcD : c ∉ defs pre ++ params := hsc c (by simp)
  have hDal : ∀ n ∈ defs pre ++ params, n ∉ aliases i.nv c post := by
    intro n hn h
    rcases mem_foldl_addAlias_defs h with h | h
    · rw [List.mem_singleton] at h; exact hcD (h ▸ hn)
    · exact hspost.notMem_defs n h (List.mem_append_right _ hn)
  have hcb : c < base := hwf.below ⟨.toTensor, [x], [c]⟩ (by simp) c (by simp)
  refine ⟨hwf.ssa, ?_, ?_, hwf.paramsBelow, hwf.below, ?_⟩
  · intro o ho
    rcases List.mem_append.1 ho with h | h
    · refine (hwf.typed o ho).congr (fun n _ => rfl) (fun n hn => ?_)
      simp only
      rw [if_neg (hDal n (ssa_names hpre h n hn))]
    · rcases List.mem_cons.1 h with e | e
      · subst e
        have := hwf.typed _ ho
        unfold Info.Typed at this ⊢
        obtain ⟨x', c', e1, e2, k1, k2, _⟩ := this
        simp only [List.cons.injEq, and_true] at e1 e2
        subst e1; subst e2
        exact ⟨x, c, rfl, rfl, k1, k2, .inr (by simp only; rw [if_pos (show c ∈ aliases i.nv c post from mem_foldl_addAlias (by simp))])⟩
      · have hty := hwf.typed o ho
        have hres := fun r hr => aliases_iff (nv := i.nv) (al := [c]) hspost (by simp) e (r := r) hr
        have husr : ∀ a ∈ o.args, a ∈ aliases i.nv c post → usesOf (aliases i.nv c post) o ≠ [] := by
          intro a ha hal h0
          have : a ∈ usesOf (aliases i.nv c post) o := mem_usesOf.2 ⟨ha, hal⟩
          rw [h0] at this; cases this
        have hk' := hk o e
        obtain ⟨kind, args, results⟩ := o
        unfold Info.Typed at hty ⊢
        cases kind with
        | toTensor =>
          obtain ⟨y, r, rfl, rfl, k1, k2, k3⟩ := hty
          refine ⟨y, r, rfl, rfl, k1, k2, ?_⟩
          simp only
          rw [if_neg]
          · exact k3
          · intro h
            have := ((hres r (by simp)).1 h).1
            simp [Op.isViewLike] at this
        | toVTensor => exact hty
        | cast =>
          obtain ⟨y, r, rfl, rfl, k1, k2⟩ := hty
          refine ⟨y, r, rfl, rfl, k1, fun hn => ?_⟩
          simp only
          by_cases h : r ∈ aliases i.nv c post
          · obtain ⟨_, _, a, as, _, e2, e3⟩ := (hres r (by simp)).1 h
            simp only [List.cons.injEq] at e2
            obtain ⟨rfl, _⟩ := e2
            rw [if_pos h, if_pos (show y ∈ aliases i.nv c post from e3)]
          · rw [if_neg h, if_neg, k2 hn]
            intro h'
            exact h ((hres r (by simp)).2 ⟨by simp [Op.isViewLike], hn, y, [], rfl, rfl, h'⟩)
        | view k =>
          obtain ⟨y, ys, r, rfl, rfl, k2⟩ := hty
          refine ⟨y, ys, r, rfl, rfl, fun hn => ⟨(k2 hn).1, ?_⟩⟩
          simp only
          by_cases h : r ∈ aliases i.nv c post
          · obtain ⟨_, _, a, as, _, e2, e3⟩ := (hres r (by simp)).1 h
            simp only [List.cons.injEq] at e2
            obtain ⟨rfl, _⟩ := e2
            rw [if_pos h, if_pos (show y ∈ aliases i.nv c post from e3)]
          · rw [if_neg h, if_neg, (k2 hn).2]
            intro h'
            exact h ((hres r (by simp)).2 ⟨by simp [Op.isViewLike], hn, y, ys, rfl, rfl, h'⟩)
        | overwrite => exact hty
        | ret => exact hty
        | other k =>
          refine ⟨?_, ?_⟩
          · intro y hy hn
            simp only
            rw [if_neg]
            · exact hty.1 y hy hn
            · intro h
              exact hk' (husr y hy h) k rfl
          · intro r hr hn
            simp only
            rw [if_neg]
            · exact hty.2 r hr hn
            · intro h
              have := ((hres r hr).1 h).1
              simp [Op.isViewLike] at this
  · intro p hp hn
    simp only
    rw [if_neg (hDal p (List.mem_append_right _ hp))]
    exact hwf.paramsPublic p hp hn
  · intro n hn
    refine ⟨(hwf.nvBelow n hn).1, fun r hr => ?_⟩
    simp only at hr
    split at hr
    · exact Option.some.inj hr ▸ hcb
    · exact (hwf.nvBelow n hn).2 r hr

/-- No overwrites to remove. -/
theorem dropOverwrites_none {al : List Name} {rev ops : List Op} (h : ∀ o ∈ ops, overwriteOf al o = none) :
    dropOverwrites al rev ops = ops := by
  induction ops with
  | nil => rfl
  | cons o ops ih =>
    rw [dropOverwrites, h o (by simp), ih (fun p hp => h p (by simp [hp]))]

theorem nvAfter_of_typesAfter {i : Info} {c base : Name} {post post' : List Op} {E : List Name} {nv' : Name → Bool}
    (h : TypesAfter i (Handle i.nv post c) base post' nv') (hs : Ssa E post) (hc : c ∈ E) :
    nv' = nvAfter i.nv (aliases i.nv c post) base post' := by
  funext n
  rw [nvAfter, Bool.eq_iff_iff]
  by_cases hn : n < base
  · rw [if_pos hn, h.1 n hn, ← mem_aliases_iff_handle hs hc]
    simp
  · rw [if_neg hn, h.2 n (Nat.not_lt.1 hn)]
    simp

/-- The second pattern, where all views are views of the copy. -/
theorem viewPattern_sound {i : Info} {params : List Name} {base c x : Name} {pre post : List Op} {M : Machine T W}
    {nv' : Name → Bool} (hwf : WellFormed i params base (pre ++ ⟨.toTensor, [x], [c]⟩ :: post))
    (hreg : i.region c = some c) (hM : M.ReadsBack (pre ++ ⟨.toTensor, [x], [c]⟩ :: post))
    (hnv' : ∀ n, n < base → nv' n = (i.nv n && !(aliases i.nv c post).contains n))
    (hf : FirstDerived i.nv post c) (recast : Nat → Bool) {post' : List Op}
    (hpat : viewPattern i.nv recast base c x post = some post') (s : State T W) :
    run M (i.after base nv') (pre ++ post') s = run M i (pre ++ ⟨.toTensor, [x], [c]⟩ :: post) s := by
  obtain ⟨_, _, _, _, hspost⟩ := hwf.ssa.append
  have hty : ∀ o ∈ post, i.Typed o := fun o ho => hwf.typed o (by simp [ho])
  have hcE : c ∈ (⟨.toTensor, [x], [c]⟩ : Op).results ++ (defs pre ++ params) := by simp
  have hreach := mem_reached_iff hspost hty hcE
  have hhan := fun n => mem_aliases_iff_handle (nv := i.nv) hspost hcE n
  have halr : ∀ n ∈ aliases i.nv c post, n ∈ post.foldl addDerived [c] :=
    fun n hn => (hreach n).2 ((hhan n).1 hn).derived
  have hral : ∀ n ∈ post.foldl addDerived [c], i.nv n = true → n ∈ aliases i.nv c post :=
    fun n hn hv => handle_of_derived hspost hty hcE hf ((hreach n).1 hn) hv
  unfold viewPattern at hpat
  simp only at hpat
  generalize hrd : post.foldl addDerived [c] = reached at *
  split at hpat
  · cases hpat
  · next hall =>
    split at hpat
    · cases hpat
    · have hpost' := (Option.some.inj hpat).symm
      clear hpat
      simp only [Bool.not_eq_true', Bool.not_eq_false, List.all_eq_true] at hall
      have huser : ∀ o ∈ post, ∀ a ∈ o.args, a ∈ reached → o.Shows ∨ o.kind = .toVTensor ∨ o.kind = .ret := by
        intro o ho a ha hr
        have := hall o (List.mem_filter.2 ⟨ho, ?_⟩)
        · simp only [Bool.or_eq_true, decide_eq_true_eq, isViewLike_iff] at this
          rcases this with (h | h) | h
          · exact .inl h
          · exact .inr (.inl h)
          · exact .inr (.inr h)
        · simp only [ne_eq, decide_eq_true_eq]
          intro h0
          have : a ∈ usesOf reached o := mem_usesOf.2 ⟨ha, hr⟩
          rw [h0] at this; cases this
      have huse' : ∀ o ∈ post, usesOf (aliases i.nv c post) o ≠ [] → ∃ a ∈ o.args, a ∈ aliases i.nv c post := by
        intro o _ hu
        obtain ⟨a, l, e⟩ := List.exists_cons_of_ne_nil hu
        exact ⟨a, mem_usesOf.1 (e ▸ List.mem_cons_self)⟩
      have hkinds : ∀ o ∈ post, usesOf (aliases i.nv c post) o ≠ [] → o.Shows ∨ o.kind = .toVTensor ∨ o.kind = .ret := by
        intro o ho hu
        obtain ⟨a, h1, h2⟩ := huse' o ho hu
        exact huser o ho a h1 (halr a h2)
      have hview : ∀ o ∈ post, usesOf (aliases i.nv c post) o ≠ [] →
          viewOk i.nv (aliases i.nv c post) o = true := by
        intro o ho hu
        unfold viewOk
        by_cases hv : o.isViewLike = true
        · obtain ⟨y, ys, r, hx, hr, h3⟩ := typed_viewLike (hty o ho) hv
          obtain ⟨a, h1, h2⟩ := huse' o ho hu
          rw [hv, hr, hx]
          cases hn : i.nv r
          · simp [hn]
          · have := hf o ho (isViewLike_iff.1 hv) a h1 ((hhan a).1 h2).derived (by rw [hr]; simpa using hn) y ys hx
            have := hral y ((hreach y).2 this) (h3 hn).1
            simp [this]
        · simp [hv]
      obtain ⟨B, hB⟩ := interpret_of_reads hspost hty hcE rfl post.reverse hkinds [] post rfl [c] (by
        intro n hn hd
        rcases mem_foldl_addAlias_defs hn with h | h
        · exact h
        · exact absurd (by simpa [defs] using hd) (hspost.notMem_defs n h))
      apply sound_of_go hwf hreg hM hnv' hview hB
      intro t
      have hov : ∀ o ∈ post, overwriteOf (aliases i.nv c post) o = none := by
        intro o ho
        cases h : overwriteOf (aliases i.nv c post) o with
        | none => rfl
        | some p =>
          obtain ⟨v, d⟩ := p
          obtain ⟨h1, h2, h3⟩ := overwriteOf_eq h
          rcases huser o ho d (by simp [h2]) (halr d h3) with h | h | h
          · rcases h with h | ⟨_, h⟩ <;> rw [h1] at h <;> cases h
          · rw [h1] at h; cases h
          · rw [h1] at h; cases h
      have hcr : copyResults reached post = copyResults (aliases i.nv c post) post := by
        unfold copyResults users
        clear hB hpost'
        have : ∀ ops : List Op, (∀ o ∈ ops, o ∈ post) →
            ((ops.filter fun o => usesOf reached o ≠ []).flatMap fun o => if o.kind = .toVTensor then o.results else [])
            = (ops.filter fun o => usesOf (aliases i.nv c post) o ≠ []).flatMap
                fun o => if o.kind = .toVTensor then o.results else [] := by
          intro ops
          induction ops with
          | nil => intro _; rfl
          | cons o ops ih =>
            intro hin
            have ih := ih (fun p hp => hin p (by simp [hp]))
            have ho := hin o (by simp)
            by_cases hv : o.kind = .toVTensor
            · have hty' := hty o ho
              unfold Info.Typed at hty'
              rw [hv] at hty'
              obtain ⟨y, r, e1, e2, h1, h2⟩ := hty'
              have : (usesOf reached o ≠ []) ↔ (usesOf (aliases i.nv c post) o ≠ []) := by
                constructor
                · intro h h0
                  obtain ⟨a, l, e⟩ := List.exists_cons_of_ne_nil h
                  have ha := mem_usesOf.1 (e ▸ List.mem_cons_self : a ∈ usesOf reached o)
                  rw [e1, List.mem_singleton] at ha
                  obtain ⟨rfl, ha⟩ := ha
                  have : a ∈ usesOf (aliases i.nv c post) o := mem_usesOf.2 ⟨by rw [e1]; simp, hral a ha h1⟩
                  rw [h0] at this; cases this
                · intro h h0
                  obtain ⟨a, k1, k2⟩ := huse' o ho h
                  have := mem_usesOf.2 ⟨k1, halr a k2⟩
                  rw [h0] at this; cases this
              rw [List.filter_cons, List.filter_cons]
              simp only [this]
              split
              · rw [List.flatMap_cons, List.flatMap_cons, ih]
              · exact ih
            · rw [List.filter_cons, List.filter_cons]
              have e : ∀ l : List Op, ∀ b : Bool, ((if b = true then o :: l else l).flatMap
                  fun o => if o.kind = .toVTensor then o.results else [])
                  = l.flatMap fun o => if o.kind = .toVTensor then o.results else [] := by
                intro l b
                cases b <;> simp [hv]
              rw [e, e, ih]
        exact this post (fun _ h => h)
      have hgo := dropCopies_eq_go hwf (aliases i.nv c post) (copyResults (aliases i.nv c post) post)
        (fun n => if n = c then x else n)
      rw [dropOverwrites_none hov] at hgo
      rw [hpost', hcr, hgo]
      split
      · apply run_finishReturn
        · intro n hn
          simp only [Info.after]
          rw [if_neg (Nat.not_lt.2 hn)]
          simp
        · exact go_args_below hwf
      · rfl

end Verif.VS
