import Verif.Spec.ValueSem

/-! Lemmas about the pass that introduces value semantics: nothing here is claimed. -/

namespace Verif.VS

variable {T W : Type}

/-! ## Assignment -/

theorem assign_of_notMem (rs : List Name) (vs : List T) (S : Name → T) (n : Name) (h : n ∉ rs) :
    assign S rs vs n = S n := by
  induction rs generalizing vs S with
  | nil => simp [assign]
  | cons r rs ih =>
    cases vs with
    | nil => simp [assign]
    | cons v vs =>
      simp only [assign]
      rw [ih _ _ (fun hh => h (List.mem_cons_of_mem _ hh))]
      rw [if_neg (show ¬ n = r from fun hh => h (hh ▸ List.mem_cons_self))]

/-- One assignment on both sides; `r` may be a newly related name. -/
theorem assign_one (S S' : Name → T) (θ : Name → Name) (P Q : Name → Prop) (r : Name) (v : T)
    (hθ : ∀ n, θ n = r → n = r) (hr : θ r = r) (hPQ : ∀ n, Q n → n ≠ r → P n)
    (h : ∀ n, P n → S n = S' (θ n)) :
    ∀ n, Q n → assign S [r] [v] n = assign S' [r] [v] (θ n) := by
  intro n hn
  simp only [assign]
  by_cases e : n = r
  · subst e; simp [hr]
  · rw [if_neg e, if_neg (fun hh => e (hθ n hh))]
    exact h n (hPQ n hn e)

/-- Names related by `S n = S' (θ n)` stay related when both sides assign the same results. -/
theorem assign_rel (rs : List Name) (vs : List T) (S S' : Name → T) (θ : Name → Name)
    (P : Name → Prop) (hθ : ∀ n, θ n ∈ rs → θ n = n) (hfix : ∀ r ∈ rs, θ r = r)
    (h : ∀ n, P n → S n = S' (θ n)) :
    ∀ n, P n → assign S rs vs n = assign S' rs vs (θ n) := by
  induction rs generalizing vs S S' with
  | nil => simpa [assign] using h
  | cons r rs ih =>
    cases vs with
    | nil => simpa [assign] using h
    | cons v vs =>
      simp only [assign]
      apply ih vs _ _ (fun k hk => hθ k (List.mem_cons_of_mem _ hk)) (fun k hk => hfix k (List.mem_cons_of_mem _ hk))
      intro n hn
      by_cases e : n = r
      · subst e; simp [hfix n List.mem_cons_self]
      · have : θ n ≠ r := fun hh => e ((hθ n (hh ▸ List.mem_cons_self)).symm.trans hh)
        rw [if_neg e, if_neg this]
        exact h n hn

/-! ## Single assignment form -/

/-- The names defined by operations. -/
def defs (ops : List Op) : List Name := ops.flatMap Op.results

theorem Ssa.mono {D D' : List Name} {ops : List Op} (h : Ssa D ops) (hd : ∀ n, n ∈ D ↔ n ∈ D') : Ssa D' ops := by
  induction ops generalizing D D' with
  | nil => trivial
  | cons o ops ih =>
    obtain ⟨h1, h2, h3, h4⟩ := h
    refine ⟨fun a ha => (hd a).1 (h1 a ha), fun r hr hh => h2 r hr ((hd r).2 hh), h3, ih h4 ?_⟩
    intro n; simp [hd n]

theorem Ssa.append {D : List Name} {a b : List Op} (h : Ssa D (a ++ b)) : Ssa D a ∧ Ssa (defs a ++ D) b := by
  induction a generalizing D with
  | nil => exact ⟨trivial, by simpa [defs] using h⟩
  | cons o a ih =>
    obtain ⟨h1, h2, h3, h4⟩ := h
    obtain ⟨k1, k2⟩ := ih h4
    refine ⟨⟨h1, h2, h3, k1⟩, k2.mono ?_⟩
    intro n; simp [defs, or_assoc, or_comm, or_left_comm]

theorem Ssa.notMem_defs {D : List Name} {ops : List Op} (h : Ssa D ops) : ∀ r ∈ defs ops, r ∉ D := by
  induction ops generalizing D with
  | nil => simp [defs]
  | cons o ops ih =>
    obtain ⟨_, h2, _, h4⟩ := h
    intro r hr
    simp only [defs, List.flatMap_cons, List.mem_append] at hr
    rcases hr with hr | hr
    · exact h2 r hr
    · exact fun hh => ih h4 r hr (by simp [hh])

theorem Ssa.args_mem {D : List Name} {ops : List Op} (h : Ssa D ops) {o : Op} (ho : o ∈ ops) :
    ∀ a ∈ o.args, a ∈ defs ops ++ D := by
  induction ops generalizing D with
  | nil => cases ho
  | cons p ops ih =>
    obtain ⟨h1, _, _, h4⟩ := h
    intro a ha
    rcases List.mem_cons.1 ho with e | e
    · subst e; simp [h1 a ha]
    · have := ih h4 e a ha
      simp only [defs, List.flatMap_cons, List.mem_append] at this ⊢
      rcases this with h | h | h
      · exact .inl (.inr h)
      · exact .inl (.inl h)
      · exact .inr h

/-- What defines a name that is already defined has its operands defined. -/
theorem Ssa.closed {D : List Name} {done rest : List Op} (h : Ssa D (done ++ rest)) {o : Op} (ho : o ∈ done ++ rest)
    {r : Name} (hr : r ∈ o.results) (hd : r ∈ defs done ++ D) : ∀ a ∈ o.args, a ∈ defs done ++ D := by
  obtain ⟨h1, h2⟩ := h.append
  rcases List.mem_append.1 ho with e | e
  · exact h1.args_mem e
  · exact absurd hd (h2.notMem_defs r (List.mem_flatMap.2 ⟨o, e, hr⟩))

/-! ## Casts -/

/-- A chain of casts in the block. -/
inductive Chain (blk : List Op) : Name → Name → Prop where
  | one {x r : Name} : ⟨.cast, [x], [r]⟩ ∈ blk → Chain blk r x
  | more {x y r : Name} : ⟨.cast, [x], [r]⟩ ∈ blk → Chain blk x y → Chain blk r y

theorem Chain.mono {a b : List Op} (h : ∀ o ∈ a, o ∈ b) {n x : Name} (hc : Chain a n x) : Chain b n x := by
  induction hc with
  | one hm => exact .one (h _ hm)
  | more hm _ ih => exact .more (h _ hm) ih

theorem chain_of_castAliases (rev : List Op) (n x : Name) (h : x ∈ castAliases rev n) : Chain rev n x := by
  induction rev generalizing n with
  | nil => simp [castAliases] at h
  | cons o rest ih =>
    rw [castAliases] at h
    have hmono : ∀ p ∈ rest, p ∈ o :: rest := fun p hp => List.mem_cons_of_mem _ hp
    split at h
    · next hres =>
      split at h
      · next y hk ha =>
        have ho : o = ⟨.cast, [y], [n]⟩ := by cases o; simp_all
        rcases List.mem_cons.1 h with e | e
        · subst e; exact .one (ho ▸ List.mem_cons_self)
        · exact .more (ho ▸ List.mem_cons_self) ((ih y e).mono hmono)
      · cases h
    · exact (ih n h).mono hmono

theorem Chain.same {blk : List Op} {n x : Name} (h : Chain blk n x) : SameTensor blk n x := by
  have : ∀ m, SameTensor blk m n → SameTensor blk m x := by
    induction h with
    | one hm => intro m hs; exact .up hm hs
    | more hm _ ih => intro m hs; exact ih m (.up hm hs)
  exact this n (.refl n)

theorem Chain.typed {blk : List Op} {i : Info} (ht : ∀ o ∈ blk, i.Typed o) {n x : Name} (h : Chain blk n x)
    (hn : i.nv n = true) : i.nv x = true ∧ i.region x = i.region n := by
  induction h with
  | one hm =>
    obtain ⟨y, r, ha, hr, h1, h2⟩ := ht _ hm
    simp only [List.cons.injEq, and_true] at ha hr
    subst ha; subst hr
    exact ⟨h1.trans hn, (h2 hn).symm⟩
  | more hm _ ih =>
    obtain ⟨y, r, ha, hr, h1, h2⟩ := ht _ hm
    simp only [List.cons.injEq, and_true] at ha hr
    subst ha; subst hr
    obtain ⟨k1, k2⟩ := ih (h1.trans hn)
    exact ⟨k1, k2.trans (h2 hn).symm⟩

theorem Chain.defined {D : List Name} {done rest : List Op} (h : Ssa D (done ++ rest)) {n x : Name}
    (hc : Chain (done ++ rest) n x) (hn : n ∈ defs done ++ D) : x ∈ defs done ++ D := by
  induction hc with
  | one hm => exact h.closed hm (by simp) hn _ (by simp)
  | more hm _ ih => exact ih (h.closed hm (by simp) hn _ (by simp))

/-! ## Aliases -/

/-- Handles to the region of `c`. -/
def Info.Inside (i : Info) (c n : Name) : Prop := i.nv n = true ∧ i.region n = some c

theorem mem_addAlias {nv : Name → Bool} {al : List Name} {o : Op} {n : Name} (h : n ∈ al) : n ∈ addAlias nv al o := by
  unfold addAlias
  split
  · split
    · exact List.mem_cons_of_mem _ h
    · exact h
  · exact h

theorem mem_foldl_addAlias {nv : Name → Bool} {al : List Name} {ops : List Op} {n : Name} (h : n ∈ al) :
    n ∈ ops.foldl (addAlias nv) al := by
  induction ops generalizing al with
  | nil => exact h
  | cons o ops ih => exact ih (mem_addAlias h)

theorem foldl_addAlias_nil (nv : Name → Bool) (ops : List Op) : ops.foldl (addAlias nv) [] = [] := by
  induction ops with
  | nil => rfl
  | cons o ops ih =>
    have : addAlias nv [] o = [] := by
      unfold addAlias; split <;> simp
    rw [List.foldl_cons, this, ih]

theorem mem_addAlias_iff {nv : Name → Bool} {al : List Name} {o : Op} {n : Name} :
    n ∈ addAlias nv al o ↔ n ∈ al ∨ (o.isViewLike = true ∧ nv n = true ∧ ∃ a as, o.results = [n] ∧ o.args = a :: as ∧ a ∈ al) := by
  unfold addAlias
  split
  · next r a as hr ha =>
    split
    · next h =>
      simp only [Bool.and_eq_true, List.contains_iff_mem] at h
      simp only [List.mem_cons]
      constructor
      · rintro (e | e)
        · subst e; exact .inr ⟨h.1.1, h.1.2, a, as, hr, ha, h.2⟩
        · exact .inl e
      · rintro (e | ⟨_, _, b, bs, h1, _, _⟩)
        · exact .inr e
        · rw [hr] at h1; simp only [List.cons.injEq, and_true] at h1; exact .inl h1.symm
    · next h =>
      simp only [Bool.and_eq_true, List.contains_iff_mem, not_and] at h
      constructor
      · exact .inl
      · rintro (e | ⟨h1, h2, b, bs, h3, h4, h5⟩)
        · exact e
        · rw [hr] at h3; simp only [List.cons.injEq, and_true] at h3
          rw [ha] at h4; simp only [List.cons.injEq] at h4
          subst h3; rw [h4.1] at h
          exact absurd h5 (h ⟨h1, h2⟩)
  · next hno =>
    constructor
    · exact .inl
    · rintro (e | ⟨_, _, b, bs, h3, h4, _⟩)
      · exact e
      · exact absurd h4 (hno _ _ _ h3)

theorem typed_viewLike {i : Info} {o : Op} (ht : i.Typed o) (hv : o.isViewLike = true) :
    ∃ x xs r, o.args = x :: xs ∧ o.results = [r] ∧ (i.nv r = true → i.nv x = true ∧ i.region r = i.region x) := by
  unfold Op.isViewLike at hv
  unfold Info.Typed at ht
  split at hv
  · next hk =>
    rw [hk] at ht
    obtain ⟨x, r, h1, h2, h3, h4⟩ := ht
    exact ⟨x, [], r, h1, h2, fun h => ⟨h3.trans h, h4 h⟩⟩
  · next k hk =>
    rw [hk] at ht
    obtain ⟨x, xs, r, h1, h2, h3⟩ := ht
    exact ⟨x, xs, r, h1, h2, h3⟩
  · cases hv

theorem inside_of_mem_aliases {i : Info} {c : Name} {al : List Name} {ops : List Op} (ht : ∀ o ∈ ops, i.Typed o)
    (h0 : ∀ n ∈ al, i.Inside c n) : ∀ n ∈ ops.foldl (addAlias i.nv) al, i.Inside c n := by
  induction ops generalizing al with
  | nil => exact h0
  | cons o ops ih =>
    apply ih (fun p hp => ht p (List.mem_cons_of_mem _ hp))
    intro n hn
    rcases mem_addAlias_iff.1 hn with h | ⟨hv, hnv, a, as, hr, ha, hm⟩
    · exact h0 n h
    · obtain ⟨x, xs, r, h1, h2, h3⟩ := typed_viewLike (ht o List.mem_cons_self) hv
      rw [hr] at h2; simp only [List.cons.injEq, and_true] at h2
      rw [ha] at h1; simp only [List.cons.injEq] at h1
      subst h2
      exact ⟨hnv, (h3 hnv).2.trans (h1.1 ▸ (h0 a hm).2)⟩

/-- The only handles to the region of `c` an operation can produce are views of such, apart from `c`. -/
theorem inside_result {i : Info} {c : Name} {o : Op} (ht : i.Typed o) {n : Name} (hr : n ∈ o.results)
    (hi : i.Inside c n) (hc : n ≠ c) : o.isViewLike = true ∧ o.results = [n]
      ∧ ∃ a as, o.args = a :: as ∧ i.Inside c a := by
  have key : o.isViewLike = true → o.isViewLike = true ∧ o.results = [n] ∧ ∃ a as, o.args = a :: as ∧ i.Inside c a := by
    intro hv
    obtain ⟨x, xs, r, h1, h2, h3⟩ := typed_viewLike ht hv
    rw [h2] at hr; simp only [List.mem_singleton] at hr; subst hr
    exact ⟨hv, h2, x, xs, h1, (h3 hi.1).1, (h3 hi.1).2.symm.trans hi.2⟩
  unfold Info.Typed at ht
  split at ht
  · obtain ⟨x, r, _, h2, _, _, h5⟩ := ht
    rw [h2] at hr; simp only [List.mem_singleton] at hr; subst hr
    rcases h5 with h5 | h5
    · rw [hi.2] at h5; cases h5
    · rw [hi.2] at h5; exact absurd (Option.some.inj h5).symm hc
  · obtain ⟨x, r, _, h2, _, h4⟩ := ht
    rw [h2] at hr; simp only [List.mem_singleton] at hr; subst hr
    rw [hi.1] at h4; cases h4
  · next hk => exact key (by simp [Op.isViewLike, hk])
  · next hk => exact key (by simp [Op.isViewLike, hk])
  · obtain ⟨_, _, _, h2, _⟩ := ht
    rw [h2] at hr; cases hr
  · rw [ht] at hr; cases hr
  · have := ht.2 n hr hi.1
    rw [hi.2] at this; cases this

theorem mem_aliases_of_inside {i : Info} {c : Name} {D al : List Name} {ops : List Op} (hs : Ssa D ops)
    (ht : ∀ o ∈ ops, i.Typed o) (hc : c ∉ defs ops) (h0 : ∀ n ∈ D, i.Inside c n → n ∈ al) :
    ∀ n ∈ defs ops ++ D, i.Inside c n → n ∈ ops.foldl (addAlias i.nv) al := by
  induction ops generalizing D al with
  | nil => simpa [defs] using h0
  | cons o ops ih =>
    obtain ⟨h1, h2, h3, h4⟩ := hs
    have hc' : c ∉ o.results ∧ c ∉ defs ops := by
      simpa [defs] using hc
    intro n hn hi
    refine ih h4 (fun p hp => ht p (List.mem_cons_of_mem _ hp)) hc'.2 ?_ n ?_ hi
    · intro m hm hmi
      rcases List.mem_append.1 hm with hm | hm
      · obtain ⟨k1, k2, a, as, k3, k4⟩ := inside_result (ht o List.mem_cons_self) hm hmi
          (fun e => hc'.1 (e ▸ hm))
        exact mem_addAlias_iff.2 (.inr ⟨k1, hmi.1, a, as, k2, k3, h0 a (h1 a (by simp [k3])) k4⟩)
      · exact mem_addAlias (h0 m hm hmi)
    · simp only [defs, List.flatMap_cons, List.mem_append] at hn ⊢
      rcases hn with (h | h) | h
      · exact .inr (.inl h)
      · exact .inl h
      · exact .inr (.inr h)

end Verif.VS
