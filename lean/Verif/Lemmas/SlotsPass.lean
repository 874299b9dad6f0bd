import Verif.Lemmas.SlotsCode

namespace Verif.Slots

variable {D : Type}

/-! ## The analysis comes to an end -/

def Module.added (m : Module D) (bad : List Node) : List Node := m.nodes.filter fun n => decide (n ∉ bad) && !m.nodeOk bad n

def Module.out (m : Module D) (bad : List Node) : List Node := m.nodes.filter fun n => decide (n ∉ bad)

theorem visit_eq (m : Module D) (bad : List Node) : m.visit bad = bad ++ m.added bad := rfl

theorem filter_shrinks {α : Type} (p q : α → Bool) (hpq : ∀ x, q x = true → p x = true) : ∀ (l : List α),
    (l.filter q).length ≤ (l.filter p).length ∧ ((∃ x ∈ l, p x = true ∧ q x = false) → (l.filter q).length < (l.filter p).length) := by
  intro l
  induction l with
  | nil => simp
  | cons a l ih =>
    obtain ⟨i1, i2⟩ := ih
    by_cases hq : q a = true
    · rw [List.filter_cons_of_pos hq, List.filter_cons_of_pos (hpq a hq)]
      refine ⟨by simpa using i1, ?_⟩
      rintro ⟨x, hx, h1, h2⟩
      rcases List.mem_cons.1 hx with rfl | hx
      · rw [hq] at h2; cases h2
      · have := i2 ⟨x, hx, h1, h2⟩
        simpa using this
    · rw [List.filter_cons_of_neg (by simpa using hq)]
      by_cases hp : p a = true
      · rw [List.filter_cons_of_pos hp]
        simp only [List.length_cons]
        exact ⟨by omega, fun _ => by omega⟩
      · rw [List.filter_cons_of_neg (by simpa using hp)]
        refine ⟨i1, ?_⟩
        rintro ⟨x, hx, h1, h2⟩
        rcases List.mem_cons.1 hx with rfl | hx
        · exact absurd h1 hp
        · exact i2 ⟨x, hx, h1, h2⟩

theorem visit_progress (m : Module D) : ∀ k, m.added (m.visit^[k] []) = [] ∨ (m.out (m.visit^[k] [])).length + k ≤ m.nodes.length := by
  intro k
  induction k with
  | zero => right; simp only [Function.iterate_zero, id_eq, Nat.add_zero]; exact List.length_filter_le ..
  | succ k ih =>
    rw [Function.iterate_succ_apply']
    generalize m.visit^[k] [] = bad at ih
    by_cases ha : m.added bad = []
    · left; rw [visit_eq, ha, List.append_nil, ha]
    · rcases ih with h | h
      · exact absurd h ha
      · right
        obtain ⟨n, hn⟩ := List.exists_mem_of_ne_nil _ ha
        have hn' := hn
        unfold Module.added at hn'
        rw [List.mem_filter, Bool.and_eq_true, decide_eq_true_eq] at hn'
        have := (filter_shrinks (fun n => decide (n ∉ bad)) (fun n => decide (n ∉ m.visit bad)) (fun x hx => by
          rw [decide_eq_true_eq] at hx ⊢
          exact fun h => hx (by rw [visit_eq]; exact List.mem_append_left _ h)) m.nodes).2 ⟨n, hn'.1, by simpa using hn'.2.1, by
            rw [decide_eq_false_iff_not, not_not, visit_eq]; exact List.mem_append_right _ hn⟩
        unfold Module.out at h ⊢
        omega

/-- Values and slots that are not unsafe satisfy the conditions. -/
theorem unsafe_fix (m : Module D) {n : Node} (hn : n ∈ m.nodes) (hu : n ∉ m.unsafeNodes) : m.nodeOk m.unsafeNodes n = true := by
  have := visit_progress m m.nodes.length
  have hn' : n ∈ m.out m.unsafeNodes := by
    unfold Module.out
    rw [List.mem_filter, decide_eq_true_eq]
    exact ⟨hn, hu⟩
  rcases this with h | h
  · cases hk : m.nodeOk m.unsafeNodes n with
    | true => rfl
    | false =>
      have : n ∈ m.added m.unsafeNodes := by
        unfold Module.added
        rw [List.mem_filter, Bool.and_eq_true, decide_eq_true_eq]
        exact ⟨hn, hu, by simp [hk]⟩
      unfold Module.unsafeNodes at this
      rw [h] at this
      cases this
  · have h0 : (m.out (m.visit^[m.nodes.length] [])).length = 0 := by omega
    rw [List.length_eq_zero_iff] at h0
    unfold Module.unsafeNodes at hn'
    rw [h0] at hn'
    cases hn'

/-- Nothing is unsafe without a reason. -/
theorem unsafe_least (m : Module D) (good : Node → Prop) (h : ∀ n ∈ m.nodes, good n → ∀ bad, (∀ b ∈ bad, ¬ good b) → m.nodeOk bad n = true)
    {n : Node} (hg : good n) : n ∉ m.unsafeNodes := by
  have : ∀ k, ∀ b ∈ m.visit^[k] [], ¬ good b := by
    intro k
    induction k with
    | zero => intro b hb; cases hb
    | succ k ih =>
      intro b hb
      rw [Function.iterate_succ_apply', visit_eq] at hb
      rcases List.mem_append.1 hb with hb | hb
      · exact ih b hb
      · unfold Module.added at hb
        rw [List.mem_filter, Bool.and_eq_true] at hb
        intro g
        rw [h b hb.1 g _ ih] at hb
        simp at hb
  exact fun hn => this _ n hn hg

/-! ## What the analysis says -/

def Module.varSafe (m : Module D) (x : Var) : Prop := Holds m x ∧ Node.var x ∈ m.nodes ∧ Node.var x ∉ m.unsafeNodes

def Module.slotSafe (m : Module D) (s : Slot) : Prop := Node.slot s ∈ m.nodes ∧ Node.slot s ∉ m.unsafeNodes

theorem var_use {m : Module D} {x : Var} (hs : Node.var x ∈ m.nodes ∧ Node.var x ∉ m.unsafeNodes) (ht : m.trivial x = false) {u : Use}
    (hu : (x, u) ∈ m.uses) : u.ok m.unsafeNodes = true := by
  have := unsafe_fix m hs.1 hs.2
  unfold Module.nodeOk at this
  simp only [ht, Bool.false_or, List.all_eq_true, Bool.or_eq_true, decide_eq_true_eq] at this
  rcases this _ hu with h | h
  · exact absurd rfl h
  · exact h

theorem free_other {m : Module D} {a : Var} (h : (a, Use.other) ∈ m.uses) : Free m.trivial m.varSafe a := fun s => by
  cases ht : m.trivial a with
  | true => rfl
  | false => exact absurd (var_use s.2 ht h) (by simp [Use.ok])

theorem passes_ok {m : Module D} {a r : Var} (h : (a, Use.readOnly [r]) ∈ m.uses) (hr : Node.var r ∈ m.nodes)
    (hh : Holds m a → m.trivial a = false → Holds m r) : m.varSafe a → m.trivial a = false → m.varSafe r := fun s ht => by
  have := var_use s.2 ht h
  simp only [Use.ok, List.all_eq_true, decide_eq_true_eq] at this
  exact ⟨hh s.1 ht, hr, this r (by simp)⟩

theorem sop_sound {m : Module D} {o : SOp D} (hu : ∀ u ∈ o.uses, u ∈ m.uses) (hr : Node.var o.res ∈ m.nodes)
    (hh : o.Passes → ∀ a ∈ o.args, Holds m a → m.trivial a = false → Holds m o.res) : o.Sound m.trivial m.varSafe := by
  cases o with
  | fresh => trivial
  | value => trivial
  | same a r => exact passes_ok (hu _ (by simp [SOp.uses, SOp.args, SOp.res])) hr (hh trivial a (by simp [SOp.args]))
  | item i a as r => exact passes_ok (hu _ (by simp [SOp.uses, SOp.args, SOp.res])) hr (hh trivial a (by simp [SOp.args]))
  | list d as r =>
    intro a ha
    exact passes_ok (hu _ (by simp [SOp.uses, SOp.args, SOp.res, ha])) hr (hh trivial a (by simp [SOp.args, ha]))

theorem init_sound {m : Module D} {o : SOp D} (ho : o ∈ m.init) : o.Sound m.trivial m.varSafe :=
  sop_sound (fun u hu => by
      unfold Module.uses
      exact List.mem_append_left _ (List.mem_append_left _ (List.mem_flatMap.2 ⟨o, ho, hu⟩)))
    (by unfold Module.nodes; exact List.mem_append_left _ (List.mem_append_left _ (List.mem_map.2 ⟨o, ho, rfl⟩)))
    (fun _ _ _ _ _ => .init o ho)

/-- What a block of the module needs of it. -/
structure Within (m : Module D) (f : Fn D) (k : Code D) : Prop where
  uses : ∀ u ∈ k.uses, u ∈ m.uses
  results : ∀ r ∈ k.results, Node.var r ∈ m.nodes
  gets : ∀ g ∈ k.gets, g ∈ f.body.gets
  sets : ∀ s ∈ k.sets, s ∈ f.body.sets
  simples : ∀ o ∈ k.simples, o ∈ f.body.simples
  ends : ∀ a ∈ k.ends, a ∈ f.body.ends
  source : k.Source

theorem within_self {m : Module D} (w : WellFormed m) {f : Fn D} (hf : f ∈ m.fns) : Within m f f.body where
  uses := fun u hu => by unfold Module.uses; exact List.mem_append_right _ (List.mem_flatMap.2 ⟨f, hf, hu⟩)
  results := fun r hr => by
    unfold Module.nodes
    exact List.mem_append_left _ (List.mem_append_right _ (List.mem_map.2 ⟨r, List.mem_flatMap.2 ⟨f, hf, hr⟩, rfl⟩))
  gets := fun _ h => h
  sets := fun _ h => h
  simples := fun _ h => h
  ends := fun _ h => h
  source := w.source f hf

theorem Within.tail {m : Module D} {f : Fn D} {o : Flat D} {k : Code D} (w : Within m f (.op o k)) : Within m f k where
  uses := fun u h => w.uses u (by simp [Code.uses, h])
  results := fun r h => w.results r (by simp [Code.results, h])
  gets := fun g h => w.gets g (by cases o <;> simp [Code.gets, h])
  sets := fun g h => w.sets g (by cases o <;> simp [Code.sets, h])
  simples := fun g h => w.simples g (by cases o <;> simp [Code.simples, h])
  ends := fun g h => w.ends g (by simp [Code.ends, h])
  source := by
    have := w.source
    cases o <;> simpa [Code.Source] using this

theorem Within.parts {m : Module D} {f : Fn D} {test : D → Bool} {c : Var} {t e k : Code D} {res : List Var}
    (w : Within m f (.iff test c t e res k)) : Within m f t ∧ Within m f e ∧ Within m f k := by
  have hs := w.source
  unfold Code.Source at hs
  refine ⟨⟨?_, ?_, ?_, ?_, ?_, ?_, hs.1⟩, ⟨?_, ?_, ?_, ?_, ?_, ?_, hs.2.1⟩, ⟨?_, ?_, ?_, ?_, ?_, ?_, hs.2.2⟩⟩
  all_goals first
    | exact fun u h => w.uses u (by simp [Code.uses, h])
    | exact fun u h => w.results u (by simp [Code.results, h])
    | exact fun u h => w.gets u (by simp [Code.gets, h])
    | exact fun u h => w.sets u (by simp [Code.sets, h])
    | exact fun u h => w.simples u (by simp [Code.simples, h])
    | exact fun u h => w.ends u (by simp [Code.ends, h])

theorem slot_ok {m : Module D} {s : Slot} (hs : m.slotSafe s) :
    m.isPublic s = false ∧ (∀ f ∈ m.fns, s ∉ f.body.sets) ∧ ∀ f ∈ m.fns, ∀ r, (s, r) ∈ f.body.gets → Node.var r ∉ m.unsafeNodes := by
  have := unsafe_fix m hs.1 hs.2
  unfold Module.nodeOk at this
  simp only [Bool.and_eq_true, Bool.not_eq_true', List.all_eq_true, decide_eq_true_eq, Bool.or_eq_true] at this
  obtain ⟨⟨h1, h2⟩, h3⟩ := this
  refine ⟨h1, h2, fun f hf r hr => ?_⟩
  rcases h3 f hf _ hr with h | h
  · exact absurd rfl h
  · exact h

theorem code_sound {m : Module D} (ks : KeepsSlots m) {c : Ctx D} (ht : c.trivial = m.trivial) (hs : c.safe = m.varSafe)
    (hss : c.slotSafe = m.slotSafe) {f : Fn D} (hf : f ∈ m.fns) (k : Code D) : Within m f k → k.Sound c := by
  induction k with
  | ret as =>
    intro w a ha s
    rw [ht]
    rw [hs] at s
    exact ks f hf a (w.ends a (by simpa [Code.ends] using ha)) s.1
  | op o k ih =>
    intro w
    refine ⟨?_, ih w.tail⟩
    cases o with
    | simple o =>
      show o.Sound c.trivial c.safe
      rw [ht, hs]
      refine sop_sound (fun u hu => w.uses u (by simp [Code.uses, Flat.uses, hu])) (w.results _ (by simp [Code.results, Flat.results])) ?_
      intro hp a ha hh hta
      exact .op f o a hf (w.simples o (by simp [Code.simples])) hp ha hh hta
    | get s r =>
      show c.slotSafe s → c.safe r
      rw [hs, hss]
      intro h
      have hg := w.gets (s, r) (by simp [Code.gets])
      exact ⟨.get f s r hf hg, w.results r (by simp [Code.results, Flat.results]), (slot_ok h).2.2 f hf r hg⟩
    | set s a =>
      show ¬ c.slotSafe s ∧ Free c.trivial c.safe a
      rw [hs, hss, ht]
      exact ⟨fun h => (slot_ok h).2.1 f hf (w.sets s (by simp [Code.sets])), free_other (w.uses _ (by simp [Code.uses, Flat.uses]))⟩
    | mutate g a as =>
      show Free c.trivial c.safe a
      rw [hs, ht]
      exact free_other (w.uses _ (by simp [Code.uses, Flat.uses]))
    | append a x =>
      show Free c.trivial c.safe a ∧ Free c.trivial c.safe x
      rw [hs, ht]
      exact ⟨free_other (w.uses _ (by simp [Code.uses, Flat.uses])), free_other (w.uses _ (by simp [Code.uses, Flat.uses]))⟩
    | emit as => trivial
    | cloned ops y r => exact w.source.elim
  | iff test x t e res k iht ihe ihk =>
    intro w
    obtain ⟨w1, w2, w3⟩ := w.parts
    exact ⟨iht w1, ihe w2, ihk w3⟩

/-! ## Slices -/

theorem mem_needed_cons {y : Var} {o : SOp D} {os : List (SOp D)} {x : Var} (h : x ∈ needed y (o :: os)) :
    x ∈ needed y os ∨ (o.res ∈ needed y os ∧ x ∈ o.args) := by
  unfold needed at h ⊢
  rw [List.foldr_cons] at h
  split at h
  · rcases List.mem_append.1 h with h | h
    · right; exact ⟨by assumption, h⟩
    · left; exact h
  · left; exact h

theorem needed_mono {y : Var} {o : SOp D} {os : List (SOp D)} {x : Var} (h : x ∈ needed y os) : x ∈ needed y (o :: os) := by
  unfold needed at h ⊢
  rw [List.foldr_cons]
  split
  · exact List.mem_append_right _ h
  · exact h

/-- The operands of what is needed are needed. -/
theorem needed_closed (y : Var) : ∀ (ops : List (SOp D)), (ops.Pairwise fun o o' => o'.res ∉ o.args) → (∀ o ∈ ops, o.res ∉ o.args) →
    ∀ o ∈ ops, o.res ∈ needed y ops → ∀ a ∈ o.args, a ∈ needed y ops := by
  intro ops
  induction ops with
  | nil => intro _ _ o ho; cases ho
  | cons p ps ih =>
    intro hp hi o ho hr a ha
    rw [List.pairwise_cons] at hp
    have hr' : o.res ∈ needed y ps := by
      rcases mem_needed_cons hr with h | ⟨-, h⟩
      · exact h
      · exfalso
        rcases List.mem_cons.1 ho with rfl | ho
        · exact hi o (List.mem_cons_self ..) h
        · exact hp.1 o ho h
    rcases List.mem_cons.1 ho with rfl | ho
    · unfold needed at hr' ⊢
      rw [List.foldr_cons, if_pos hr']
      exact List.mem_append_left _ ha
    · exact needed_mono (ih hp.2 (fun o' h' => hi o' (List.mem_cons_of_mem _ h')) o ho hr' a ha)

/-! ## The start -/

theorem lookup_filter_mem {s : Slot} {y : Var} {l : List (Slot × Var)} (h : l.lookup s = some y) : (s, y) ∈ l := by
  induction l with
  | nil => cases h
  | cons p l ih =>
    obtain ⟨s', y'⟩ := p
    rw [List.lookup_cons] at h
    by_cases e : s = s'
    · subst e
      simp at h
      subst h
      exact List.mem_cons_self ..
    · have : (s == s') = false := by simpa using e
      rw [this] at h
      exact List.mem_cons_of_mem _ (ih h)

theorem lookup_of_mem {s : Slot} {y : Var} {l : List (Slot × Var)} (hn : (l.map Prod.fst).Nodup) (h : (s, y) ∈ l) : l.lookup s = some y := by
  induction l with
  | nil => cases h
  | cons p l ih =>
    obtain ⟨s', y'⟩ := p
    rw [List.map_cons, List.nodup_cons] at hn
    rw [List.lookup_cons]
    rcases List.mem_cons.1 h with e | h
    · cases e
      simp
    · have : s ≠ s' := fun e => hn.1 (List.mem_map.2 ⟨(s, y), h, e⟩)
      have : (s == s') = false := by simpa using this
      rw [this]
      exact ih hn.2 h

theorem lookup_kept {s : Slot} (p : Slot → Bool) (hp : p s = true) (l : List (Slot × Var)) :
    (l.filter fun x => p x.1).lookup s = l.lookup s := by
  induction l with
  | nil => rfl
  | cons q l ih =>
    obtain ⟨s', y'⟩ := q
    by_cases hq : p s' = true
    · rw [List.filter_cons_of_pos (by simpa using hq), List.lookup_cons, List.lookup_cons, ih]
    · rw [List.filter_cons_of_neg (by simpa using hq), ih, List.lookup_cons]
      have : s ≠ s' := fun e => hq (e ▸ hp)
      have : (s == s') = false := by simpa using this
      rw [this]

theorem inlined_mem {m : Module D} {s : Slot} {y : Var} (h : m.safeToInline.lookup s = some y) :
    (s, y) ∈ m.slots ∧ m.slotSafe s ∧ ∀ o ∈ m.init, o.res ∈ needed y m.init → Node.var o.res ∉ m.unsafeNodes := by
  have := lookup_filter_mem h
  unfold Module.safeToInline at this
  rw [List.mem_filter, Bool.and_eq_true, decide_eq_true_eq, List.all_eq_true] at this
  obtain ⟨h1, h2, h3⟩ := this
  refine ⟨h1, ⟨?_, h2⟩, fun o ho hr => ?_⟩
  · unfold Module.nodes
    exact List.mem_append_right _ (List.mem_map.2 ⟨_, h1, rfl⟩)
  · simpa using h3 o (by unfold slice; rw [List.mem_filter]; exact ⟨ho, by simpa using hr⟩)

theorem val_map_id (v : Val D) : v.map (fun l => l) = v := by cases v <;> rfl

structure WRel (c : Ctx D) (φ : Nat → Nat) (w w' : World D) : Prop where
  st : SRel c φ w.st w'.st
  has : w.has = w'.has.map (Val.map φ)
  fine : ∀ v ∈ w'.has, Valid w'.st.heap v ∧ ¬ Taint c.P w.st.heap (v.map φ)

theorem start_rel {m : Module D} (wf : WellFormed m) :
    (m.start = none ∧ m.inline.start = none) ∨ ∃ c : Ctx D, c.Good ∧ c.trivial = m.trivial ∧ c.safe = m.varSafe ∧
      c.slotSafe = m.slotSafe ∧ c.init = m.init ∧ c.inlined = m.safeToInline ∧ ∃ φ w w', m.start = some w ∧ m.inline.start = some w' ∧
        WRel c φ w w' := by
  unfold Module.start
  have h1 : m.inline.trivial = m.trivial := rfl
  have h2 : m.inline.init = m.init := rfl
  rw [h1, h2]
  cases hr : runSimple m.trivial m.init Env.empty [] with
  | none => exact .inl ⟨rfl, rfl⟩
  | some r =>
    obtain ⟨env0, H0⟩ := r
    right
    have I0 : Init (D := D) (fun _ => False) (fun x => ∃ s y, m.safeToInline.lookup s = some y ∧ x ∈ needed y m.init) m.trivial m.varSafe
        Env.empty [] :=
      ⟨fun x v h => (by cases h), fun _ _ v h => (by cases h), fun _ h => h.elim, fun l o h => (by simp at h), fun x v h => (by cases h)⟩
    obtain ⟨P, -, I, -, -, rep⟩ := init_run m.init Env.empty [] _ I0 (fun o ho => init_sound ho)
      (fun o ho ⟨s, y, hs, hy⟩ a ha => ⟨s, y, hs, needed_closed y m.init wf.ordered wf.irreflexive o ho hy a ha⟩)
      (fun o ho ⟨s, y, hs, hy⟩ => ⟨.init o ho, by
        unfold Module.nodes
        exact List.mem_append_left _ (List.mem_append_left _ (List.mem_map.2 ⟨o, ho, rfl⟩)), (inlined_mem hs).2.2 o ho hy⟩) env0 H0 hr
    refine ⟨⟨P, H0, m.trivial, m.varSafe, m.slotSafe, m.init, m.safeToInline, env0⟩, ⟨?_, ?_⟩, rfl, rfl, rfl, rfl, rfl, fun l => l, _, _,
      rfl, rfl, ⟨⟨?_, ?_, ?_, ?_, rfl⟩, rfl, by simp⟩⟩
    · intro s y hs
      refine rep _ (fun x hx => ⟨s, y, hs, by simpa using hx⟩) (fun o ho hm a ha => ?_)
      rw [decide_eq_true_eq] at hm ⊢
      exact needed_closed y m.init wf.ordered wf.irreflexive o ho hm a ha
    · exact fun s y hs => (inlined_mem hs).2.1
    · refine ⟨fun l o h => ?_, fun _ _ _ _ e => .inl e, I.ok, I.ok, fun l p => ⟨I.lt l p, rfl⟩, Nat.le_refl _⟩
      have : o.kids.map (Val.map fun l => l) = o.kids := by
        rw [List.map_congr_left (fun v _ => val_map_id v), List.map_id']
      show H0[l]? = _
      rw [this]
      exact h
    · intro s hs
      have e : initial m.inline.slots env0 s = initial m.slots env0 s := by
        unfold initial
        rw [show m.inline.slots = m.slots.filter fun x => (fun s => (m.safeToInline.lookup s).isNone) x.1 from rfl,
          lookup_kept (fun s => (m.safeToInline.lookup s).isNone) (by simp only at hs; simp [hs])]
      show initial m.slots env0 s = Option.map _ (initial m.inline.slots env0 s) ∧ ∀ v, initial m.inline.slots env0 s = some v → Valid H0 v
      rw [e]
      constructor
      · cases initial m.slots env0 s with
        | none => rfl
        | some v => rw [Option.map_some, val_map_id]
      · intro v hv
        unfold initial at hv
        cases hl : m.slots.lookup s with
        | none => simp [hl] at hv
        | some x => rw [hl] at hv; exact I.valid x v hv
    · intro s y hs
      show initial m.slots env0 s = env0 y
      unfold initial
      rw [lookup_of_mem wf.slots (inlined_mem hs).1]
    · intro s v _ hv t
      change initial m.slots env0 s = some v at hv
      unfold initial at hv
      cases hl : m.slots.lookup s with
      | none => simp [hl] at hv
      | some x =>
        rw [hl] at hv
        obtain ⟨s1, s2⟩ := I.safe x v hv t
        have hm := lookup_filter_mem hl
        have := var_use s1.2 s2 (u := .init s) (by
          unfold Module.uses
          exact List.mem_append_left _ (List.mem_append_right _ (List.mem_map.2 ⟨_, hm, rfl⟩)))
        simp only [Use.ok, decide_eq_true_eq] at this
        refine ⟨?_, this⟩
        unfold Module.nodes
        exact List.mem_append_right _ (List.mem_map.2 ⟨_, hm, rfl⟩)

/-! ## The user -/

theorem pick_rel {φ : Nat → Nat} {has' : List (Val D)} (is : List Nat) :
    (pick (has'.map (Val.map φ)) is = none ∧ pick has' is = none) ∨
      ∃ vs, pick has' is = some vs ∧ pick (has'.map (Val.map φ)) is = some (vs.map (Val.map φ)) ∧ ∀ v ∈ vs, v ∈ has' := by
  induction is with
  | nil => exact .inr ⟨[], rfl, rfl, by simp⟩
  | cons i is ih =>
    unfold pick
    rw [List.getElem?_map]
    cases hi : has'[i]? with
    | none => left; simp
    | some v =>
      rcases ih with ⟨h1, h2⟩ | ⟨vs, h1, h2, h3⟩
      · left; simp [h1, h2]
      · right
        refine ⟨v :: vs, by simp [h1], by simp [h2], fun w hw => ?_⟩
        rcases List.mem_cons.1 hw with rfl | hw
        · exact List.mem_of_getElem? hi
        · exact h3 w hw

theorem WRel.add {c : Ctx D} {φ φ1 : Nat → Nat} {w w' : World D} (W : WRel c φ w w') {st st' : State D} (R : SRel c φ1 st st')
    (a : Step c.P φ w.st.heap w'.st.heap φ1 st.heap st'.heap) (vs : List (Val D))
    (hv : ∀ v ∈ vs, Valid st'.heap v ∧ ¬ Taint c.P st.heap (v.map φ1)) :
    WRel c φ1 ⟨w.has ++ vs.map (Val.map φ1), st⟩ ⟨w'.has ++ vs, st'⟩ where
  st := R
  has := by
    show w.has ++ _ = (w'.has ++ vs).map (Val.map φ1)
    rw [List.map_append, W.has]
    congr 1
    exact List.map_congr_left fun v hm => (a.map (W.fine v hm).1).symm
  fine := fun v hm => by
    rcases List.mem_append.1 hm with hm | hm
    · obtain ⟨f1, f2⟩ := W.fine v hm
      refine ⟨f1.mono a.len', fun t => f2 ?_⟩
      rw [a.map f1] at t
      exact a.taint _ (f1.map W.st.rel) t
    · exact hv v hm

theorem act_rel {m : Module D} (wf : WellFormed m) (ks : KeepsSlots m) {c : Ctx D} (g : c.Good) (ht : c.trivial = m.trivial)
    (hs : c.safe = m.varSafe) (hss : c.slotSafe = m.slotSafe) (hi : c.init = m.init) (hin : c.inlined = m.safeToInline) {φ : Nat → Nat}
    {w w' : World D} (W : WRel c φ w w') (a : Act D) :
    (m.act w a = none ∧ m.inline.act w' a = none) ∨ ∃ φ1 w1 w1', m.act w a = some w1 ∧ m.inline.act w' a = some w1' ∧ WRel c φ1 w1 w1' := by
  have hpub : ∀ s, m.isPublic s = true → ¬ c.slotSafe s := fun s h h' => by
    rw [hss] at h'
    rw [(slot_ok h').1] at h
    cases h
  have hpubl : ∀ s, m.isPublic s = true → c.inlined.lookup s = none := fun s h => by
    cases hl : c.inlined.lookup s with
    | none => rfl
    | some y => exact absurd (g.safe s y hl) (hpub s h)
  cases a with
  | object d =>
    right
    refine ⟨upd φ w'.st.heap.length w.st.heap.length, _, _, rfl, rfl, ?_⟩
    have notP : ¬ c.P w.st.heap.length := fun p => by
      have := (W.st.rel.frozen _ p).1
      have := W.st.rel.len
      omega
    have st := step_alloc c.P φ (h := w.st.heap) (h' := w'.st.heap) W.st.rel.ok ⟨d, []⟩ ⟨d, []⟩
    have := W.add (W.st.heap (W.st.rel.alloc d [] (by simp)) st) st [.ref w'.st.heap.length] (by
      intro v hv
      rw [List.mem_singleton.1 hv]
      refine ⟨valid_ref.2 (by simp), ?_⟩
      rintro ⟨l, r, p⟩
      simp only [Val.map, upd, if_true] at r
      cases r with
      | here => exact notP p
      | step _ o k _ e hk _ =>
        simp only [List.map_nil] at e
        rw [get_append_self] at e
        cases e
        cases hk)
    simp only [List.map_cons, List.map_nil, Val.map, upd, if_true] at this
    exact this
  | number d =>
    right
    exact ⟨φ, _, _, rfl, rfl, W.add W.st (Step.refl ..) [.imm d] (by
      intro v hv
      rw [List.mem_singleton.1 hv]
      exact ⟨valid_imm, not_taint_imm⟩)⟩
  | read s =>
    show ((if m.isPublic s then _ else none) = none ∧ (if m.isPublic s then _ else none) = none) ∨ ∃ φ1 w1 w1',
      (if m.isPublic s then _ else none) = some w1 ∧ (if m.isPublic s then _ else none) = some w1' ∧ WRel c φ1 w1 w1'
    cases hp : m.isPublic s with
    | false => exact .inl ⟨by simp, by simp⟩
    | true =>
      obtain ⟨e1, e2⟩ := W.st.kept s (hpubl s hp)
      simp only [if_true]
      cases hx : w'.st.slots s with
      | none => rw [hx] at e1; exact .inl ⟨by simp [e1], by simp⟩
      | some v =>
        rw [hx, Option.map_some] at e1
        right
        refine ⟨φ, _, _, by simp only [e1]; rfl, rfl, W.add W.st (Step.refl ..) [v] ?_⟩
        intro u hu
        rw [List.mem_singleton.1 hu]
        exact ⟨e2 v hx, fun t => hpub s hp (W.st.taint s _ (hpubl s hp) e1 t)⟩
  | write s i =>
    show ((if m.isPublic s then _ else none) = none ∧ (if m.isPublic s then _ else none) = none) ∨ ∃ φ1 w1 w1',
      (if m.isPublic s then _ else none) = some w1 ∧ (if m.isPublic s then _ else none) = some w1' ∧ WRel c φ1 w1 w1'
    cases hp : m.isPublic s with
    | false => exact .inl ⟨by simp, by simp⟩
    | true =>
      simp only [if_true]
      cases hx : w'.has[i]? with
      | none => exact .inl ⟨by simp [W.has, hx], by simp⟩
      | some v =>
        have hx' : w.has[i]? = some (v.map φ) := by simp [W.has, hx]
        obtain ⟨f1, f2⟩ := W.fine v (List.mem_of_getElem? hx)
        right
        simp only [hx']
        refine ⟨φ, _, _, rfl, rfl, ⟨⟨W.st.rel, ?_, ?_, ?_, W.st.trace⟩, W.has, W.fine⟩⟩
        · intro s' hs'
          by_cases e : s' = s
          · simp only [if_pos e, Option.map_some]
            exact ⟨trivial, fun u hu => by cases hu; exact f1⟩
          · simp only [if_neg e]
            exact W.st.kept s' hs'
        · intro s' y hy
          have : s' ≠ s := fun e => by rw [e, hpubl s hp] at hy; cases hy
          simp only [if_neg this]
          exact W.st.gone s' y hy
        · intro s' u hs' hu t
          by_cases e : s' = s
          · simp only [if_pos e] at hu
            cases hu
            exact absurd t f2
          · simp only [if_neg e] at hu
            exact W.st.taint s' u hs' hu t
  | call f args =>
    have hfn : m.inline.fns[f]? = (m.fns[f]?).map fun f => { f with body := f.body.inline m.init m.safeToInline } := by
      simp [Module.inline]
    unfold Module.act
    dsimp only
    rw [hfn]
    cases hf : m.fns[f]? with
    | none => exact .inl ⟨by simp, by simp⟩
    | some fn =>
      have hfm := List.mem_of_getElem? hf
      rw [Option.map_some, W.has]
      rcases pick_rel (φ := φ) (has' := w'.has) args with ⟨p1, p2⟩ | ⟨vs, p1, p2, p3⟩
      · exact .inl ⟨by simp [p1], by simp [p2]⟩
      · simp only [p1, p2]
        have key : OkC c φ w.st w'.st (fn.call m.trivial (vs.map (Val.map φ)) w.st)
            (Fn.call m.inline.trivial { fn with body := fn.body.inline m.init m.safeToInline } vs w'.st) := by
          show OkC c φ w.st w'.st _ (Fn.call m.trivial { fn with body := fn.body.inline m.init m.safeToInline } vs w'.st)
          unfold Fn.call
          dsimp only
          rcases bindAll_rel (P := c.P) (h := w.st.heap) (safe := c.safe) (trivial := m.trivial) (φ := φ) (h' := w'.st.heap) fn.params vs
            Env.empty Env.empty (fun x => ⟨rfl, fun v hv => by cases hv⟩) (fun x v hv => by cases hv)
            (fun v hv => W.fine v (p3 v hv)) with ⟨b1, b2⟩ | ⟨env1, env1', b1, b2, b3, b4⟩
          · exact .inl ⟨by rw [b1], by rw [b2]⟩
          · rw [b1, b2]
            dsimp only
            rw [← ht, ← hi, ← hin]
            exact sim_code g fn.body W.st b3 (ht ▸ b4) (code_sound ks ht hs hss hfm fn.body (within_self wf hfm))
        rcases key with ⟨h1, h2⟩ | ⟨φ1, rs, st1, st1', h1, h2, R1, hv, a⟩
        · exact .inl ⟨by rw [h1], by rw [h2]⟩
        · rw [h1, h2]
          right
          refine ⟨φ1, _, _, rfl, rfl, ?_⟩
          have ht' : st1.trace ++ [(rs.map (Val.map φ1)).map (seen st1.heap)] = st1'.trace ++ [rs.map (seen st1'.heap)] := by
            rw [seen_rel R1.rel (fun v h => (hv v h).1), R1.trace]
          have := W.add (st := { st1 with trace := st1.trace ++ [(rs.map (Val.map φ1)).map (seen st1.heap)] })
            (st' := { st1' with trace := st1'.trace ++ [rs.map (seen st1'.heap)] })
            ⟨R1.rel, R1.kept, R1.gone, R1.taint, ht'⟩ a rs hv
          rw [W.has] at this
          exact this

theorem acts_rel {m : Module D} (wf : WellFormed m) (ks : KeepsSlots m) {c : Ctx D} (g : c.Good) (ht : c.trivial = m.trivial)
    (hs : c.safe = m.varSafe) (hss : c.slotSafe = m.slotSafe) (hi : c.init = m.init) (hin : c.inlined = m.safeToInline)
    (as : List (Act D)) : ∀ {φ : Nat → Nat} {w w' : World D}, WRel c φ w w' →
    (m.acts w as = none ∧ m.inline.acts w' as = none) ∨ ∃ φ1 w1 w1', m.acts w as = some w1 ∧ m.inline.acts w' as = some w1' ∧
      WRel c φ1 w1 w1' := by
  induction as with
  | nil => intro φ w w' W; exact .inr ⟨φ, w, w', rfl, rfl, W⟩
  | cons a as ih =>
    intro φ w w' W
    unfold Module.acts
    rcases act_rel wf ks g ht hs hss hi hin W a with ⟨h1, h2⟩ | ⟨φ1, w1, w1', h1, h2, W1⟩
    · exact .inl ⟨by rw [h1], by rw [h2]⟩
    · rw [h1, h2]
      exact ih W1

theorem inline_run {m : Module D} (wf : WellFormed m) (ks : KeepsSlots m) (as : List (Act D)) : m.inline.run as = m.run as := by
  unfold Module.run
  rcases start_rel wf with ⟨h1, h2⟩ | ⟨c, g, ht, hs, hss, hi, hin, φ, w, w', h1, h2, W⟩
  · rw [h1, h2]
  · rw [h1, h2]
    dsimp only
    rcases acts_rel wf ks g ht hs hss hi hin as W with ⟨h1, h2⟩ | ⟨φ1, w1, w1', h1, h2, W1⟩
    · rw [h1, h2]
    · rw [h1, h2]
      exact congrArg some W1.st.trace.symm

end Verif.Slots
