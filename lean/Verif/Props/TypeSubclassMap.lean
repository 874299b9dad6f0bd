import Verif.Spec.TypeSubclassMap

/-!
# C11: converter look-up by type is history-independent
-/

namespace Verif.TypeMap

variable {T V : Type} [DecidableEq T] {sub : T → T → Bool}

omit [DecidableEq T] in
theorem scan_first (t : T) (l : List (T × V)) : IsFirstMatch sub t l (scan sub t l) := by
  induction l with
  | nil => exact .inr ⟨rfl, by simp⟩
  | cons e l ih =>
    obtain ⟨s, v⟩ := e
    by_cases hs : sub t s = true
    · exact .inl ⟨[], s, v, l, rfl, hs, by simp [scan, hs], by simp⟩
    · have hs' : sub t s = false := by simpa using hs
      have he : scan sub t ((s, v) :: l) = scan sub t l := by simp [scan, hs']
      rw [he]
      rcases ih with ⟨b, s', v', a, h1, h2, h3, h4⟩ | ⟨h1, h2⟩
      · refine .inl ⟨(s, v) :: b, s', v', a, by simp [h1], h2, h3, ?_⟩
        intro e he
        rcases List.mem_cons.1 he with rfl | he
        · exact hs'
        · exact h4 e he
      · refine .inr ⟨h1, ?_⟩
        intro e he
        rcases List.mem_cons.1 he with rfl | he
        · exact hs'
        · exact h2 e he

theorem run_snoc (h : List (Event T V)) (e : Event T V) :
    run sub (h ++ [e]) = step sub (run sub h) e := by simp [run]

theorem run_append (h h' : List (Event T V)) :
    run sub (h ++ h') = h'.foldl (step sub) (run sub h) := by simp [run]

omit [DecidableEq T] in
theorem registrations_append (h h' : List (Event T V)) :
    registrations (h ++ h') = registrations h ++ registrations h' := by
  induction h with
  | nil => rfl
  | cons e h ih => cases e <;> simp [registrations, ih]

theorem foldl_mapping (h : List (Event T V)) (st : State T V) :
    (h.foldl (step sub) st).mapping = st.mapping ++ registrations h := by
  induction h generalizing st with
  | nil => simp [registrations]
  | cons e h ih =>
    rw [List.foldl_cons, ih]
    cases e with
    | register t v => simp [step, register, registrations]
    | lookup t =>
      have : (lookup sub st t).2.mapping = st.mapping := by
        unfold lookup; split <;> rfl
      simp [step, this, registrations]

theorem run_mapping (h : List (Event T V)) : (run sub h).mapping = registrations h := by
  simp [run, foldl_mapping, State.empty]

/-- A memoised answer stays until the class itself is registered. -/
theorem foldl_cached (t : T) (r : Option V) (h : List (Event T V)) (st : State T V)
    (hu : Unregistered t h) (hc : dictGet st.cache t = some r) :
    dictGet (h.foldl (step sub) st).cache t = some r := by
  induction h generalizing st with
  | nil => exact hc
  | cons e h ih =>
    rw [List.foldl_cons]
    have hu' : Unregistered t h := fun v hv => hu v (List.mem_cons_of_mem _ hv)
    refine ih _ hu' ?_
    cases e with
    | register t' v =>
      have hne : t' ≠ t := by
        rintro rfl; exact hu v (by simp)
      simp [step, register, dictGet_set_ne _ _ hne, hc]
    | lookup t' =>
      simp only [step, lookup]
      by_cases he : t' = t
      · subst he; simp [hc]
      · split
        · exact hc
        · simp [dictGet_set_ne _ _ he, hc]

/-- Nothing is memoised for a class that was neither registered nor looked up. -/
theorem foldl_uncached (t : T) (h : List (Event T V)) (st : State T V)
    (hu : Unregistered t h) (hl : Event.lookup t ∉ h) (hc : dictGet st.cache t = none) :
    dictGet (h.foldl (step sub) st).cache t = none := by
  induction h generalizing st with
  | nil => exact hc
  | cons e h ih =>
    rw [List.foldl_cons]
    have hu' : Unregistered t h := fun v hv => hu v (List.mem_cons_of_mem _ hv)
    refine ih _ hu' (fun hh => hl (List.mem_cons_of_mem _ hh)) ?_
    cases e with
    | register t' v =>
      have hne : t' ≠ t := by
        rintro rfl; exact hu v (by simp)
      simp [step, register, dictGet_set_ne _ _ hne, hc]
    | lookup t' =>
      have hne : t' ≠ t := by
        rintro rfl; exact hl (by simp)
      simp only [step, lookup]
      split
      · exact hc
      · simp [dictGet_set_ne _ _ hne, hc]

theorem answer_cached {h : List (Event T V)} {t : T} {r : Option V}
    (hc : dictGet (run sub h).cache t = some r) : answer sub h t = r := by
  simp [answer, lookup, hc]

theorem answer_uncached {h : List (Event T V)} {t : T}
    (hc : dictGet (run sub h).cache t = none) :
    answer sub h t = scan sub t (registrations h) := by
  simp [answer, lookup, hc, run_mapping]

theorem lookup_cache_idem (h : List (Event T V)) (t : T) :
    dictGet (run sub (h ++ [.lookup t])).cache t = some (answer sub h t) := by
  rw [run_snoc]
  simp only [step, answer, lookup]
  split
  · assumption
  · simp

end Verif.TypeMap

namespace Verif

open TypeMap

variable {T V : Type} [DecidableEq T]

/-- C11, the part that holds of every history: a class that was registered itself gets the value
of its latest own registration. -/
theorem C11_own_registration (sub : T → T → Bool) (h h' : List (Event T V)) (t : T) (v : V)
    (hu : Unregistered t h') :
    answer sub (h ++ .register t v :: h') t = some v := by
  apply answer_cached
  rw [run_append, List.foldl_cons]
  exact foldl_cached t (some v) h' _ hu (by simp [step, register])

/-- C11, the part that holds of every history: a class never registered itself gets the first
entry it is a subclass of among the registrations *made before its first look-up*; what was
looked up before for other classes has no influence. -/
theorem C11_first_lookup_partial (sub : T → T → Bool) (h h' : List (Event T V)) (t : T)
    (hu : Unregistered t h) (hl : Event.lookup t ∉ h) :
    IsFirstMatch sub t (registrations h) (answer sub h t) ∧
    (Unregistered t h' → answer sub (h ++ .lookup t :: h') t = answer sub h t) := by
  have hc : dictGet (run sub h).cache t = none := foldl_uncached t h _ hu hl rfl
  refine ⟨?_, fun hu' => ?_⟩
  · rw [answer_uncached hc]; exact scan_first t _
  · apply answer_cached
    have : h ++ Event.lookup t :: h' = (h ++ [.lookup t]) ++ h' := by simp
    rw [this, run_append]
    exact foldl_cached t _ h' _ hu' (lookup_cache_idem h t)

/-- C11 for the way the importer uses the map: if every class is registered before its
superclasses and all registrations come before the look-ups, then every look-up gives the first
registered entry the class is a subclass of, whichever look-ups happened before. -/
theorem C11_partial (sub : T → T → Bool) (hrefl : ∀ t, sub t t = true)
    (h : List (Event T V)) (hr : RegistrationsFirst h)
    (hs : SubclassesFirst sub (registrations h)) (t : T) :
    IsFirstMatch sub t (registrations h) (answer sub h t) := by
  obtain ⟨rs, ls, rfl, hrs, hls⟩ := hr
  have hul : ∀ t, Unregistered t ls := by
    intro t v hm
    obtain ⟨t', he⟩ := hls _ hm
    simp at he
  have hreg : registrations (rs ++ ls) = registrations rs := by
    rw [registrations_append]
    suffices registrations ls = [] by simp [this]
    clear hs
    induction ls with
    | nil => rfl
    | cons e ls ih =>
      obtain ⟨t', rfl⟩ := hls e (by simp)
      exact ih (fun e he => hls e (List.mem_cons_of_mem _ he))
        (fun t v hv => hul t v (List.mem_cons_of_mem _ hv))
  rw [hreg] at hs ⊢
  by_cases hreg' : Unregistered t rs
  · have hnl : Event.lookup t ∉ rs := fun hm => by
      obtain ⟨t', v, he⟩ := hrs _ hm; simp at he
    have hc : dictGet (run sub rs).cache t = none := foldl_uncached t rs _ hreg' hnl rfl
    have key : answer sub (rs ++ ls) t = scan sub t (registrations rs) := by
      by_cases hin : Event.lookup t ∈ ls
      · obtain ⟨l₁, l₂, hsplit, hfirst⟩ : ∃ l₁ l₂, ls = l₁ ++ Event.lookup t :: l₂ ∧
            Event.lookup t ∉ l₁ := by
          clear hul
          induction ls with
          | nil => simp at hin
          | cons e ls ih =>
            by_cases he : e = Event.lookup t
            · exact ⟨[], ls, by simp [he], by simp⟩
            · have hin' : Event.lookup t ∈ ls := by
                rcases List.mem_cons.1 hin with h1 | h1
                · exact absurd h1.symm he
                · exact h1
              obtain ⟨l₁, l₂, h1, h2⟩ := ih (fun e he => hls e (List.mem_cons_of_mem _ he))
                (by
                  have := hreg
                  obtain ⟨t', rfl⟩ := hls e (by simp)
                  simpa [registrations_append, registrations] using this) hin'
              refine ⟨e :: l₁, l₂, by simp [h1], ?_⟩
              intro hm
              rcases List.mem_cons.1 hm with h3 | h3
              · exact he h3.symm
              · exact h2 h3
        subst hsplit
        have hu1 : Unregistered t (rs ++ l₁) := by
          intro v hv
          rcases List.mem_append.1 hv with h1 | h1
          · exact hreg' v h1
          · exact hul t v (by simp [h1])
        have hl1 : Event.lookup t ∉ rs ++ l₁ := by
          intro hv
          rcases List.mem_append.1 hv with h1 | h1
          · exact hnl h1
          · exact hfirst h1
        have := (C11_first_lookup_partial sub (rs ++ l₁) l₂ t hu1 hl1).2
          (fun v hv => hul t v (by simp [hv]))
        rw [List.append_assoc] at this
        rw [this]
        have hc1 : dictGet (run sub (rs ++ l₁)).cache t = none :=
          foldl_uncached t _ _ hu1 hl1 rfl
        rw [answer_uncached hc1]
        have hr1 : registrations l₁ = [] := by
          have h2 := hreg
          rw [registrations_append, registrations_append] at h2
          have h3 : registrations l₁ ++ registrations (Event.lookup t :: l₂) = [] := by
            simpa using h2
          exact (List.append_eq_nil_iff.1 h3).1
        rw [registrations_append, hr1, List.append_nil]
      · have hu2 : Unregistered t (rs ++ ls) := by
          intro v hv
          rcases List.mem_append.1 hv with h1 | h1
          · exact hreg' v h1
          · exact hul t v h1
        have hl2 : Event.lookup t ∉ rs ++ ls := by
          intro hv
          rcases List.mem_append.1 hv with h1 | h1
          · exact hnl h1
          · exact hin h1
        rw [answer_uncached (foldl_uncached t _ _ hu2 hl2 rfl), hreg]
    rw [key]; exact scan_first t _
  · -- `t` is registered itself, once, and before all of its superclasses
    obtain ⟨v, hv⟩ : ∃ v, Event.register t v ∈ rs := by
      simpa [Unregistered] using hreg'
    obtain ⟨r₁, r₂, rfl⟩ := List.append_of_mem hv
    have hregs : registrations (r₁ ++ Event.register t v :: r₂) =
        registrations r₁ ++ (t, v) :: registrations r₂ := by
      rw [registrations_append]; rfl
    rw [hregs] at hs ⊢
    have hpair := List.pairwise_append.1 hs
    have hnot : Unregistered t r₂ := by
      intro w hw
      have hmem : (t, w) ∈ registrations r₂ := by
        clear hs hregs hpair hreg hrs hv hreg'
        induction r₂ with
        | nil => simp at hw
        | cons e r₂ ih =>
          rcases List.mem_cons.1 hw with rfl | hw
          · simp [registrations]
          · have := ih hw
            cases e <;> simp [registrations, this]
      have := (List.pairwise_cons.1 hpair.2.1).1 _ hmem
      simp [hrefl] at this
    refine .inl ⟨registrations r₁, t, v, registrations r₂, rfl, hrefl t, ?_, ?_⟩
    · have : (r₁ ++ Event.register t v :: r₂) ++ ls = r₁ ++ Event.register t v :: (r₂ ++ ls) := by
        simp
      rw [this]
      apply C11_own_registration
      intro w hw
      rcases List.mem_append.1 hw with h1 | h1
      · exact hnot w h1
      · exact hul t w h1
    · intro e he
      exact hpair.2.2 e he (t, v) (by simp)

/-- C11 does not hold of every interleaving: looking a class up before a superclass of it is
registered memoises the failure. -/
theorem C11_violated : ∃ (sub : Nat → Nat → Bool) (h : List (Event Nat String)) (t : Nat),
    (∀ a, sub a a = true) ∧
    IsFirstMatch sub t (registrations h) (some "int") ∧ answer sub h t = none := by
  refine ⟨fun a b => decide (b ≤ a), [.lookup 1, .register 0 "int"], 1, by simp, ?_,
    by decide +kernel⟩
  exact .inl ⟨[], 0, "int", [], rfl, by decide, rfl, by simp⟩

/-- Nor does it hold when a class is registered after its superclass: the class's own entry wins,
although it is not the first one. -/
theorem C11_order_violated : ∃ (sub : Nat → Nat → Bool) (h : List (Event Nat String)) (t : Nat),
    (∀ a, sub a a = true) ∧ RegistrationsFirst h ∧
    IsFirstMatch sub t (registrations h) (some "int") ∧ answer sub h t = some "bool" := by
  refine ⟨fun a b => decide (b ≤ a), [.register 0 "int", .register 1 "bool"], 1, by simp, ?_, ?_,
    by decide +kernel⟩
  · exact ⟨_, [], (List.append_nil _).symm, by simp, by simp⟩
  · exact .inl ⟨[], 0, "int", [(1, "bool")], rfl, by decide, rfl, by simp⟩

/-- C11 for `LITERAL_CONVERTER_MAP` as registered by the importer: in every class hierarchy in
which, among the registered classes, only `bool` is a proper subclass of another (`int`), and after
any look-ups, each class gets the first registered entry it is a subclass of; `name` maps the
registered classes into the hierarchy. -/
theorem C11_literal_map {T : Type} [DecidableEq T] (sub : T → T → Bool)
    (hrefl : ∀ t, sub t t = true) (name : LitClass → T)
    (hsub : ∀ a b, sub (name a) (name b) = true → a = b ∨ (a = .bool ∧ b = .int))
    (ls : List T) (t : T) :
    IsFirstMatch sub t (literalRegistrations.map fun c => (name c, c))
      (answer sub (literalRegistrations.map (fun c => Event.register (name c) c) ++
        ls.map Event.lookup) t) := by
  have hregs : registrations (literalRegistrations.map (fun c => Event.register (name c) c) ++
      ls.map Event.lookup) = literalRegistrations.map fun c => (name c, c) := by
    rw [registrations_append]
    have h1 : registrations (ls.map (Event.lookup (V := LitClass))) = [] := by
      induction ls with
      | nil => rfl
      | cons a l ih => simpa [registrations] using ih
    rw [h1]
    simp [literalRegistrations, registrations]
  have := C11_partial sub hrefl (literalRegistrations.map (fun c => Event.register (name c) c) ++
    ls.map Event.lookup) ⟨_, _, rfl, by simp, by simp⟩ (by
      rw [hregs]
      have hne : ∀ a b, a ≠ b → ¬ (a = .bool ∧ b = .int) → sub (name a) (name b) = false := by
        intro a b h1 h2
        cases hh : sub (name a) (name b) with
        | false => rfl
        | true =>
          rcases hsub a b hh with h | h
          · exact absurd h h1
          · exact absurd h h2
      have hp : literalRegistrations.Pairwise
          fun a b => b ≠ a ∧ ¬ (b = .bool ∧ a = .int) := by decide
      exact List.pairwise_map.2 (hp.imp fun h => hne _ _ h.1 h.2)) t
  rwa [hregs] at this

/-- Three registrations (a subclass before its superclass) and four look-ups. -/
example : answer (fun a b => decide (b ≤ a)) ([.register 5 "bool", .register 3 "int",
      .lookup 4, .lookup 5, .lookup 2, .lookup 7] : List (Event Nat String)) 4 = some "int" ∧
    answer (fun a b => decide (b ≤ a)) ([.register 5 "bool", .register 3 "int",
      .lookup 4, .lookup 5, .lookup 2, .lookup 7] : List (Event Nat String)) 7 = some "bool" := by
  decide +kernel

end Verif
