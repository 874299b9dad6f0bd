import Verif.Lemmas.SlotsPass

namespace Verif

open Slots

variable {D : Type}

/-- C82: whatever is done with a module, in whatever order, what is seen after inlining of global slots is what is seen before.
Partial: the objects of slots must not be returned by functions nor leave branches (`KeepsSlots`), see the violations below. -/
theorem C82_inline_partial (m : Module D) (wf : WellFormed m) (ks : KeepsSlots m) (acts : List (Act D)) :
    m.inline.run acts = m.run acts := inline_run wf ks acts

/-- C82: a slot that is private, never set, and only read with value semantics is inlined, if what its initial value is made from is
used for nothing else. -/
theorem C82_applies (m : Module D) (wf : WellFormed m) (s : Slot) (y : Var) (hm : (s, y) ∈ m.slots) (hp : m.isPublic s = false)
    (hset : ∀ f ∈ m.fns, s ∉ f.body.sets)
    (hget : ∀ f ∈ m.fns, ∀ r, (s, r) ∈ f.body.gets → ∀ u, (r, u) ∈ m.uses → u = .value)
    (hinit : ∀ x ∈ needed y m.init, ∀ u, (x, u) ∈ m.uses → u = .value ∨ u = .init s ∨ ∃ r ∈ needed y m.init, u = .readOnly [r]) :
    s ∉ m.inline.slots.map Prod.fst ∧ ∀ f ∈ m.inline.fns, ∀ r, (s, r) ∉ f.body.gets := by
  have least : ∀ n : Node, (n = .slot s ∨ (∃ f ∈ m.fns, ∃ r, (s, r) ∈ f.body.gets ∧ n = .var r) ∨ ∃ x ∈ needed y m.init, n = .var x) →
      n ∉ m.unsafeNodes := by
    intro n hn
    refine unsafe_least m (fun n => n = .slot s ∨ (∃ f ∈ m.fns, ∃ r, (s, r) ∈ f.body.gets ∧ n = .var r) ∨
      ∃ x ∈ needed y m.init, n = .var x) ?_ hn
    rintro n - (rfl | ⟨f, hf, r, hr, rfl⟩ | ⟨x, hx, rfl⟩) bad hb
    · unfold Module.nodeOk
      simp only [hp, Bool.not_false, Bool.true_and, Bool.and_eq_true, List.all_eq_true, decide_eq_true_eq, Bool.or_eq_true]
      refine ⟨hset, fun f hf g hg => ?_⟩
      by_cases e : g.1 = s
      · right
        exact fun h => hb _ h (.inr (.inl ⟨f, hf, g.2, e ▸ hg, rfl⟩))
      · exact .inl e
    · unfold Module.nodeOk
      simp only [Bool.or_eq_true, List.all_eq_true, decide_eq_true_eq]
      right
      intro u hu
      by_cases e : u.1 = r
      · right
        rw [hget f hf r hr u.2 (e ▸ hu)]
        rfl
      · exact .inl e
    · unfold Module.nodeOk
      simp only [Bool.or_eq_true, List.all_eq_true, decide_eq_true_eq]
      right
      intro u hu
      by_cases e : u.1 = x
      · right
        rcases hinit x hx u.2 (e ▸ hu) with h | h | ⟨r, hr, h⟩ <;> rw [h]
        · rfl
        · simp only [Use.ok, decide_eq_true_eq]
          exact fun h => hb _ h (.inl rfl)
        · simp only [Use.ok, List.all_eq_true, decide_eq_true_eq, List.mem_singleton]
          rintro r' rfl h
          exact hb _ h (.inr (.inr ⟨r', hr, rfl⟩))
      · exact .inl e
  have hsafe : (s, y) ∈ m.safeToInline := by
    unfold Module.safeToInline
    rw [List.mem_filter, Bool.and_eq_true, decide_eq_true_eq, List.all_eq_true]
    refine ⟨hm, least _ (.inl rfl), fun o ho => ?_⟩
    unfold slice at ho
    rw [List.mem_filter, decide_eq_true_eq] at ho
    rw [decide_eq_true_eq]
    exact least _ (.inr (.inr ⟨o.res, ho.2, rfl⟩))
  have hlook : m.safeToInline.lookup s = some y := by
    refine lookup_of_mem ?_ hsafe
    exact wf.slots.sublist (List.Sublist.map _ List.filter_sublist)
  constructor
  · intro h
    obtain ⟨p, hp, e⟩ := List.mem_map.1 h
    have : p ∈ m.slots.filter fun s => (m.safeToInline.lookup s.1).isNone := hp
    rw [List.mem_filter, e, hlook] at this
    simp at this
  · intro f hf r hr
    obtain ⟨f0, hf0, rfl⟩ := List.mem_map.1 hf
    revert hr
    show (s, r) ∉ (f0.body.inline m.init m.safeToInline).gets
    generalize f0.body = k
    induction k with
    | ret as => simp [Code.inline, Code.gets]
    | op o k ih =>
      cases o with
      | get s' r' =>
        show (s, r) ∉ (Code.op (Flat.inline m.init m.safeToInline (.get s' r')) (k.inline m.init m.safeToInline)).gets
        cases hl : m.safeToInline.lookup s' with
        | none =>
          have : (Flat.get s' r' : Flat D).inline m.init m.safeToInline = .get s' r' := by simp only [Flat.inline, hl]
          rw [this]
          simp only [Code.gets, List.mem_cons, not_or]
          refine ⟨fun e => ?_, ih⟩
          cases e
          rw [hlook] at hl
          cases hl
        | some y' =>
          have : (Flat.get s' r' : Flat D).inline m.init m.safeToInline = .cloned (slice y' m.init) y' r' := by simp only [Flat.inline, hl]
          rw [this]
          exact ih
      | _ => simpa [Code.inline, Flat.inline, Code.gets] using ih
    | iff test c t e res k iht ihe ihk =>
      simp only [Code.inline, Code.gets, List.mem_append, not_or]
      exact ⟨⟨iht, ihe⟩, ihk⟩

/-- C82: when a slot is defined before it is used, the first walk finds it unsafe exactly if it is public, set, or read unsafely. -/
theorem C82_walk_partial (isPublic : Bool) (fs : List Found) (h : ∀ f ∈ fs, ∀ p, f ≠ .slot p) :
    walk (.slot isPublic :: fs) = true ↔ isPublic = false ∧ Found.set ∉ fs ∧ Found.get false ∉ fs := by
  have : ∀ b, fs.foldl Found.state b = true ↔ b = true ∧ Found.set ∉ fs ∧ Found.get false ∉ fs := by
    induction fs with
    | nil => intro b; simp
    | cons f fs ih =>
      intro b
      rw [List.foldl_cons, ih (fun g hg => h g (List.mem_cons_of_mem _ hg))]
      cases f with
      | slot p => exact absurd rfl (h _ (List.mem_cons_self ..) p)
      | set => simp [Found.state]
      | get s => cases s <;> simp [Found.state]
  show fs.foldl Found.state (Found.state true (.slot isPublic)) = true ↔ _
  rw [this]
  cases isPublic <;> simp [Found.state]

/-- C82 violated: a slot defined after a function that sets it is taken as one that is not set (where assertions are enabled, the pass
stops). -/
theorem C82_violated_order : ∃ fs : List Found, Found.set ∈ fs ∧ walk fs = true :=
  ⟨[.set, .slot false], by simp, rfl⟩

/-! ## Cases -/

namespace Test82

/-- The number on top. -/
def top (t : Seen Nat) : Nat :=
  match t 1 with
  | .node d _ => d
  | .leaf d => d
  | .cut => 999

def show_ (r : Option (List (List (Seen Nat)))) : Option (List (List Nat)) := r.map (·.map (·.map top))

def next (ts : List (Seen Nat)) : Nat := (ts.map top).foldl (· + ·) 1

/-- Slot 0 is a tensor, slot 1 a list with this tensor, slot 2 is mutated.  The function reads the first two, makes a new tensor, and
counts its calls in slot 2. -/
def good : Module Nat where
  trivial := fun _ => false
  isPublic := fun _ => false
  init := [.fresh (fun _ => 5) [] 0, .list 1 [0] 1, .fresh (fun _ => 0) [] 2]
  slots := [(0, 0), (1, 1), (2, 2)]
  fns := [⟨[10], .op (.get 0 11) (.op (.get 1 12) (.op (.simple (.item (fun _ => 0) 12 [] 13)) (.op (.simple (.fresh next [10, 11, 13] 14))
    (.op (.get 2 15) (.op (.mutate next 15 [15]) (.op (.emit [15]) (.ret [14])))))))⟩]

theorem good_wf : WellFormed good := by
  refine ⟨by decide +kernel, by decide +kernel, by decide +kernel, ?_⟩
  intro f hf
  rw [List.mem_singleton.1 hf]
  trivial

theorem good_keeps : KeepsSlots good := by
  intro f hf a ha hh
  rw [List.mem_singleton.1 hf] at ha
  have ha : a = 14 := List.mem_singleton.1 ha
  subst ha
  exfalso
  generalize h14 : (14 : Var) = x at hh
  cases hh with
  | init o ho =>
    simp only [good, List.mem_cons, List.not_mem_nil, or_false] at ho
    rcases ho with rfl | rfl | rfl <;> simp [SOp.res] at h14
  | get f s r hf hr =>
    rw [List.mem_singleton.1 hf] at hr
    simp [Code.gets, ← h14] at hr
  | op f o a hf ho hp _ _ _ =>
    rw [List.mem_singleton.1 hf] at ho
    simp [Code.simples] at ho
    rcases ho with rfl | rfl
    · simp [SOp.res] at h14
    · exact hp

/-- Slots 0 and 1 are inlined, slot 2 is not. -/
example : good.inline.slots = [(2, 2)] := by decide +kernel

example : show_ (good.run [.object 3, .call 0 [0], .call 0 [1]]) = some [[1], [14], [2], [25]] := by decide +kernel

example (acts : List (Act Nat)) : good.inline.run acts = good.run acts := C82_inline_partial good good_wf good_keeps acts

/-- `x = w if c else w; x.fill_(7); print(w + 1)`. -/
def branchy : Module Nat where
  trivial := fun x => decide (x = 10)
  isPublic := fun _ => false
  init := [.fresh (fun _ => 5) [] 0]
  slots := [(0, 0)]
  fns := [⟨[10], .op (.get 0 11) (.iff (fun d => decide (d = 1)) 10 (.ret [11]) (.ret [11]) [12]
    (.op (.mutate (fun _ => 7) 12 []) (.op (.get 0 13) (.op (.simple (.fresh next [13] 14)) (.op (.emit [14]) (.ret []))))))⟩]

theorem branchy_wf : WellFormed branchy := by
  refine ⟨by decide +kernel, by decide +kernel, by decide +kernel, ?_⟩
  intro f hf
  rw [List.mem_singleton.1 hf]
  exact ⟨trivial, trivial, trivial⟩

/-- One function returns the tensor, another writes to its parameter, a third prints one more than the tensor. -/
def returned : Module Nat where
  trivial := fun _ => false
  isPublic := fun _ => false
  init := [.fresh (fun _ => 5) [] 0]
  slots := [(0, 0)]
  fns := [⟨[], .op (.get 0 11) (.ret [11])⟩, ⟨[10], .op (.mutate (fun _ => 7) 10 []) (.ret [])⟩, ⟨[], 
    .op (.get 0 12) (.op (.simple (.fresh next [12] 13)) (.op (.emit [13]) (.ret [])))⟩]

theorem returned_wf : WellFormed returned := by
  refine ⟨by decide +kernel, by decide +kernel, by decide +kernel, ?_⟩
  intro f hf
  simp only [returned, List.mem_cons, List.not_mem_nil, or_false] at hf
  rcases hf with rfl | rfl | rfl <;> trivial

end Test82

open Test82 in
/-- C82 violated: an object of a slot that leaves a branch (`prim.If.yield` is taken as an operation that only reads) can be mutated
after; the slot is inlined all the same, and the mutation is lost. -/
theorem C82_violated_branch : ∃ m : Module Nat, WellFormed m ∧ ∃ acts, m.inline.run acts ≠ m.run acts := by
  refine ⟨branchy, branchy_wf, [.number 1, .call 0 [0]], fun h => ?_⟩
  have := congrArg show_ h
  revert this
  decide +kernel

open Test82 in
/-- C82 violated: an object of a slot that a function returns (`func.return` is taken likewise) can be mutated by the user. -/
theorem C82_violated_return : ∃ m : Module Nat, WellFormed m ∧ (∀ f ∈ m.fns, ∃ (os : List (Flat Nat)) (as : List Var), f.body = os.foldr Code.op (.ret as)) ∧
    ∃ acts, m.inline.run acts ≠ m.run acts := by
  refine ⟨returned, returned_wf, ?_, [.call 0 [], .call 1 [0], .call 2 []], fun h => ?_⟩
  · intro f hf
    simp only [returned, List.mem_cons, List.not_mem_nil, or_false] at hf
    rcases hf with rfl | rfl | rfl
    · exact ⟨[_], _, rfl⟩
    · exact ⟨[_], _, rfl⟩
    · exact ⟨[_, _, _], _, rfl⟩
  · have := congrArg show_ h
    revert this
    decide +kernel

/-- A slot with a list of two tensors, read with value semantics. -/
def Test82.plain : Module Nat where
  trivial := fun _ => false
  isPublic := fun s => decide (s = 1)
  init := [.fresh (fun _ => 5) [] 0, .list 0 [0, 0] 1, .fresh (fun _ => 6) [] 2]
  slots := [(0, 1), (1, 2)]
  fns := [⟨[], .op (.get 0 11) (.op (.simple (.fresh Test82.next [11] 12)) (.ret [12]))⟩]

example : (0 : Slot) ∉ Test82.plain.inline.slots.map Prod.fst ∧ ∀ f ∈ Test82.plain.inline.fns, ∀ r, (0, r) ∉ f.body.gets := by
  refine C82_applies Test82.plain ⟨by decide +kernel, by decide +kernel, by decide +kernel, ?_⟩ 0 1 (by decide) rfl ?_ ?_ ?_
  · intro f hf
    rw [List.mem_singleton.1 hf]
    trivial
  · intro f hf
    rw [List.mem_singleton.1 hf]
    simp [Code.sets]
  · intro f hf r hr u hu
    rw [List.mem_singleton.1 hf] at hr
    simp [Code.gets] at hr
    subst hr
    simpa [Module.uses, Test82.plain, SOp.uses, Code.uses, Flat.uses, SOp.args, SOp.res] using hu
  · intro x hx u hu
    have hn : needed 1 Test82.plain.init = [0, 0, 1] := by decide +kernel
    rw [hn] at hx ⊢
    simp only [List.mem_cons, List.not_mem_nil, or_false, or_self_left] at hx
    rcases hx with rfl | rfl
    · have : u = .readOnly [1] := by
        simpa [Module.uses, Test82.plain, SOp.uses, Code.uses, Flat.uses, SOp.args, SOp.res] using hu
      exact .inr (.inr ⟨1, by simp, this⟩)
    · have : u = .init 0 := by
        simpa [Module.uses, Test82.plain, SOp.uses, Code.uses, Flat.uses, SOp.args, SOp.res] using hu
      exact .inr (.inl this)

example : walk [.slot false, .get true, .get true] = true ∧ walk [.slot false, .get true, .set] = false := ⟨rfl, rfl⟩

end Verif
