import Verif.Spec.RefTracker

/-!
# C10: tensor literals are never confused
-/

namespace Verif.Ref

/-- Every filled mapping belongs to a tensor that stays as it was, or to an address that no later
event imports from. -/
def Inv (st : State) (h : List Event) : Prop :=
  ∀ a v, dictGet st.refs a = some (some v) →
    (∃ t, st.heap a = some t ∧ v = ⟨t.dtype, t.shape, t.data⟩ ∧
      ∀ e ∈ h, e ≠ .free a ∧ ∀ d, e ≠ .write a d) ∨
    (∀ e ∈ h, e.via ≠ some a)

/-- All live tensors are well formed. -/
def HeapWF (st : State) : Prop := ∀ a t, st.heap a = some t → t.WF

theorem makeVtensorLiteral_spec {refs : List (Nat × Option Elements)} {a : Nat} {t : Tensor}
    (hv : ∀ v, dictGet refs a = some (some v) → v = ⟨t.dtype, t.shape, t.data⟩) :
    (∀ v, (makeVtensorLiteral refs a t).1 = .ok v → v = ⟨t.dtype, t.shape, t.data⟩) ∧
    (∀ b v, dictGet (makeVtensorLiteral refs a t).2 b = some (some v) →
      dictGet refs b = some (some v) ∨ (b = a ∧ v = ⟨t.dtype, t.shape, t.data⟩)) := by
  unfold makeVtensorLiteral track
  cases hg : dictGet refs a with
  | some o =>
    cases o with
    | some v =>
      simp only
      refine ⟨fun w hw => ?_, fun b w hw => .inl hw⟩
      cases hw; exact hv _ hg
    | none =>
      simp only
      split
      · refine ⟨fun w hw => by cases hw; rfl, fun b w hw => ?_⟩
        rw [dictGet_set] at hw
        split at hw
        · next h => cases hw; exact .inr ⟨h.symm, rfl⟩
        · exact .inl hw
      · exact ⟨fun w hw => by simp at hw, fun b w hw => .inl hw⟩
  | none =>
    simp only
    split
    · refine ⟨fun w hw => by cases hw; rfl, fun b w hw => ?_⟩
      rw [dictGet_set] at hw
      split at hw
      · next h => cases hw; exact .inr ⟨h.symm, rfl⟩
      · rw [dictGet_set_ne _ _ (by assumption)] at hw; exact .inl hw
    · refine ⟨fun w hw => by simp at hw, fun b w hw => ?_⟩
      rw [dictGet_set] at hw
      split at hw
      · simp at hw
      · exact .inl hw

theorem map_bool_id {l : List Int} (h : ∀ d ∈ l, d = 0 ∨ d = 1) :
    (l.map fun d => if d = 0 then (0 : Int) else 1) = l := by
  induction l with
  | nil => rfl
  | cons a l ih =>
    have h1 := h a (by simp)
    have h2 := ih (fun d hd => h d (List.mem_cons_of_mem _ hd))
    rw [List.map_cons, h2]
    rcases h1 with rfl | rfl <;> simp

theorem map_bool_idem (l : List Int) :
    ((l.map fun d => if d = 0 then (0 : Int) else 1).map fun d => if d = 0 then (0 : Int) else 1)
      = (l.map fun d => if d = 0 then (0 : Int) else 1) := by
  apply map_bool_id
  intro d hd
  obtain ⟨e, _, rfl⟩ := List.mem_map.1 hd
  split <;> simp

theorem run_right : ∀ (h : List Event) (st : State) (l : List (Tensor × Py Literal)),
    Inv st h → HeapWF st → Kept h → run st h = some l →
    ∀ p ∈ l, ∀ lit, p.2 = .ok lit → lit.denotes = some p.1
  | [], st, l, _, _, _, hr => by
    simp only [run, Option.some.injEq] at hr; subst hr; simp
  | e :: h, st, l, hi, hw, hk, hr => by
    have hk1 := (List.pairwise_cons.1 hk).1
    have hk2 : Kept h := (List.pairwise_cons.1 hk).2
    rw [run] at hr
    cases hs : step st e with
    | none => rw [hs] at hr; simp at hr
    | some p =>
      obtain ⟨st', o⟩ := p
      rw [hs] at hr
      simp only at hr
      obtain ⟨l', hr', rfl⟩ := Option.map_eq_some_iff.1 hr
      -- what remains: invariant after the step, and the step's own output
      suffices Inv st' h ∧ HeapWF st' ∧
          ∀ p ∈ o.toList, ∀ lit, p.2 = .ok lit → lit.denotes = some p.1 by
        intro p hp
        rcases List.mem_append.1 hp with h1 | h1
        · exact this.2.2 p h1
        · exact run_right h st' l' this.1 this.2.1 hk2 hr' p h1
      have hi' : ∀ a v, dictGet st.refs a = some (some v) →
          (∃ t, st.heap a = some t ∧ v = ⟨t.dtype, t.shape, t.data⟩ ∧
            ∀ e ∈ h, e ≠ .free a ∧ ∀ d, e ≠ .write a d) ∨
          (∀ e ∈ h, e.via ≠ some a) := fun a v hv =>
        (hi a v hv).imp
          (fun ⟨t, h1, h2, h3⟩ => ⟨t, h1, h2, fun e he => h3 e (List.mem_cons_of_mem _ he)⟩)
          (fun h3 e he => h3 e (List.mem_cons_of_mem _ he))
      cases e with
      | alloc a t =>
        simp only [step] at hs
        split at hs
        · next hc =>
          simp only [Option.some.injEq, Prod.mk.injEq] at hs
          obtain ⟨rfl, rfl⟩ := hs
          refine ⟨fun b v hv => ?_, fun b t' hb => ?_, by simp⟩
          · refine (hi' b v hv).imp (fun ⟨t', h1, h2⟩ => ⟨t', ?_, h2⟩) id
            simp only [setHeap]
            split
            · next hba => subst hba; simp [h1] at hc
            · exact h1
          · simp only [setHeap] at hb
            split at hb
            · cases hb; exact hc.2
            · exact hw b t' hb
        · simp at hs
      | free a =>
        simp only [step] at hs
        split at hs
        · simp only [Option.some.injEq, Prod.mk.injEq] at hs
          obtain ⟨rfl, rfl⟩ := hs
          refine ⟨fun b v hv => ?_, fun b t' hb => ?_, by simp⟩
          · rcases hi b v hv with ⟨t', h1, h2, h3⟩ | h3
            · have hne : b ≠ a := by
                rintro rfl; exact (h3 _ (by simp)).1 rfl
              exact .inl ⟨t', by simp [setHeap, hne, h1], h2,
                fun e he => h3 e (List.mem_cons_of_mem _ he)⟩
            · exact .inr fun e he => h3 e (List.mem_cons_of_mem _ he)
          · simp only [setHeap] at hb
            split at hb
            · simp at hb
            · exact hw b t' hb
        · simp at hs
      | write a d =>
        simp only [step] at hs
        split at hs
        · simp at hs
        · next t ht =>
          split at hs
          · next hwf =>
            simp only [Option.some.injEq, Prod.mk.injEq] at hs
            obtain ⟨rfl, rfl⟩ := hs
            refine ⟨fun b v hv => ?_, fun b t' hb => ?_, by simp⟩
            · rcases hi b v hv with ⟨t', h1, h2, h3⟩ | h3
              · have hne : b ≠ a := by
                  rintro rfl; exact (h3 _ (by simp)).2 d rfl
                exact .inl ⟨t', by simp [setHeap, hne, h1], h2,
                  fun e he => h3 e (List.mem_cons_of_mem _ he)⟩
              · exact .inr fun e he => h3 e (List.mem_cons_of_mem _ he)
            · simp only [setHeap] at hb
              split at hb
              · cases hb; exact hwf
              · exact hw b t' hb
          · simp at hs
      | «import» a tmp =>
        simp only [step] at hs
        split at hs
        · simp at hs
        · next t ht =>
          cases tmp with
          | none =>
            simp only at hs
            split at hs
            · simp at hs
            · simp only [importLiteral, Option.some.injEq, Prod.mk.injEq] at hs
              obtain ⟨rfl, rfl⟩ := hs
              have hv : ∀ v, dictGet st.refs a = some (some v) → v = ⟨t.dtype, t.shape, t.data⟩ := by
                intro v hv
                rcases hi a v hv with ⟨t', h1, h2, _⟩ | h3
                · rw [ht] at h1; cases h1; exact h2
                · exact absurd rfl (h3 (.import a none) (by simp))
              have hm := makeVtensorLiteral_spec hv
              refine ⟨fun b v hbv => ?_, hw, ?_⟩
              · rcases hm.2 b v hbv with h1 | ⟨rfl, h2⟩
                · exact hi' b v h1
                · exact .inl ⟨t, ht, h2, fun e he => hk1 e he⟩
              · intro p hp lit hlit
                simp only [Option.toList, List.mem_singleton] at hp
                subst hp
                simp only at hlit
                cases hr1 : (makeVtensorLiteral st.refs a t).1 with
                | error e => rw [hr1] at hlit; simp [Except.map] at hlit
                | ok v =>
                  rw [hr1] at hlit
                  simp only [Except.map, Except.ok.injEq] at hlit
                  subst hlit
                  have := hm.1 v hr1
                  subst this
                  simp [Literal.denotes]
          | some b =>
            simp only at hs
            split at hs
            · next hc =>
              simp only [importLiteral, Option.some.injEq, Prod.mk.injEq] at hs
              obtain ⟨rfl, rfl⟩ := hs
              have hv : ∀ v, dictGet st.refs b = some (some v) →
                  v = ⟨t.toUint8.dtype, t.toUint8.shape, t.toUint8.data⟩ := by
                intro v hv
                rcases hi b v hv with ⟨t', h1, _, _⟩ | h3
                · simp [h1] at hc
                · exact absurd rfl (h3 (.import a (some b)) (by simp))
              have hm := makeVtensorLiteral_spec hv
              refine ⟨fun b' v hbv => ?_, hw, ?_⟩
              · rcases hm.2 b' v hbv with h1 | ⟨rfl, h2⟩
                · exact hi' b' v h1
                · exact .inr fun e he => hk1 e he
              · intro p hp lit hlit
                simp only [Option.toList, List.mem_singleton] at hp
                subst hp
                simp only at hlit
                cases hr1 : (makeVtensorLiteral st.refs b t.toUint8).1 with
                | error e => rw [hr1] at hlit; simp [Except.map] at hlit
                | ok v =>
                  rw [hr1] at hlit
                  simp only [Except.map, Except.ok.injEq] at hlit
                  subst hlit
                  have := hm.1 v hr1
                  subst this
                  have hd := map_bool_id (hw a t ht hc.1)
                  have he : (t.toUint8.data.map fun d => if d = 0 then (0 : Int) else 1) = t.data := by
                    simp only [Tensor.toUint8]
                    rw [map_bool_idem, hd]
                  simp only [Literal.denotes, he]
                  simp [Tensor.toUint8]
            · simp at hs

end Verif.Ref

namespace Verif

open Ref

/-- C10 for histories in which imported tensors stay alive and unchanged and the addresses of the
temporaries made for Boolean tensors are not reused by later imports: every emitted literal
denotes the imported tensor.  (Missing: the other histories, for which it is false.) -/
theorem C10_partial (h : List Event) (l : List (Tensor × Py Literal)) (hk : Kept h)
    (hr : run State.empty h = some l) :
    ∀ p ∈ l, ∀ lit, p.2 = .ok lit → lit.denotes = some p.1 :=
  run_right h State.empty l (fun a v hv => by simp [State.empty] at hv)
    (fun a t ht => by simp [State.empty] at ht) hk hr

/-- C10 fails when an imported tensor is destroyed and its address reused: the second tensor's
literal holds the first tensor's contents. -/
theorem C10_violated : ∃ (h : List Event) (t₁ t₂ : Tensor) (l₁ l₂ : Literal),
    run State.empty h = some [(t₁, .ok l₁), (t₂, .ok l₂)] ∧ t₁ ≠ t₂ ∧ l₂.denotes = some t₁ := by
  let t₁ : Tensor := ⟨6, [2], [1, 2]⟩
  let t₂ : Tensor := ⟨6, [2], [3, 4]⟩
  refine ⟨[.alloc 100 t₁, .import 100 none, .free 100, .alloc 100 t₂, .import 100 none], t₁, t₂,
    ⟨⟨6, [2], [1, 2]⟩, (6, [2]), none⟩, ⟨⟨6, [2], [1, 2]⟩, (6, [2]), none⟩, ?_, ?_, ?_⟩ <;>
  decide +kernel

/-- C10 fails even if no tensor of the program is ever destroyed or changed: the copies made of two
Boolean tensors may live at the same address one after the other. -/
theorem C10_bool_violated : ∃ (h : List Event) (t₁ t₂ : Tensor) (l₁ l₂ : Literal),
    (∀ e ∈ h, (∀ a, e ≠ .free a) ∧ ∀ a d, e ≠ .write a d) ∧
    run State.empty h = some [(t₁, .ok l₁), (t₂, .ok l₂)] ∧ t₁ ≠ t₂ ∧ l₂.denotes = some t₁ := by
  let t₁ : Tensor := ⟨boolDtype, [2], [1, 0]⟩
  let t₂ : Tensor := ⟨boolDtype, [2], [0, 1]⟩
  refine ⟨[.alloc 100 t₁, .alloc 200 t₂, .import 100 (some 300), .import 200 (some 300)], t₁, t₂,
    ⟨⟨0, [2], [1, 0]⟩, (0, [2]), some (11, [2])⟩, ⟨⟨0, [2], [1, 0]⟩, (0, [2]), some (11, [2])⟩,
    by simp, ?_, ?_, ?_⟩ <;>
  decide +kernel

/-- And the emitted operation may be ill-typed when the two Boolean tensors differ in shape. -/
theorem C10_shape_violated : ∃ (h : List Event) (t₁ t₂ : Tensor) (l₁ l₂ : Literal),
    (∀ e ∈ h, (∀ a, e ≠ .free a) ∧ ∀ a d, e ≠ .write a d) ∧
    run State.empty h = some [(t₁, .ok l₁), (t₂, .ok l₂)] ∧ l₂.denotes = none := by
  let t₁ : Tensor := ⟨boolDtype, [2], [1, 0]⟩
  let t₂ : Tensor := ⟨boolDtype, [3], [0, 1, 1]⟩
  refine ⟨[.alloc 100 t₁, .alloc 200 t₂, .import 100 (some 300), .import 200 (some 300)], t₁, t₂,
    ⟨⟨0, [2], [1, 0]⟩, (0, [2]), some (11, [2])⟩, ⟨⟨0, [2], [1, 0]⟩, (0, [3]), some (11, [3])⟩,
    by simp, ?_, ?_⟩ <;>
  decide +kernel

/-- A kept history: a float tensor imported twice, a Boolean one, another tensor at a freed
address that was never imported, and a tensor of a dtype numpy lacks (complex32). -/
example :
    let t₁ : Tensor := ⟨6, [2], [1, 2]⟩
    let t₂ : Tensor := ⟨boolDtype, [2], [1, 0]⟩
    let t₃ : Tensor := ⟨4, [1], [7]⟩
    let t₄ : Tensor := ⟨8, [1], [7]⟩
    let h : List Event := [.alloc 1 t₁, .alloc 2 t₂, .alloc 3 t₄, .import 1 none,
      .import 2 (some 9), .free 3, .alloc 3 t₃, .import 3 none, .import 1 none, .alloc 4 t₄,
      .import 4 none]
    Kept h ∧ (run State.empty h).map (·.map fun p => p.2.toOption.bind (·.denotes)) =
      some [some t₁, some t₂, some t₃, some t₁, none] := by
  refine ⟨by simp [Kept, Event.via], ?_⟩
  decide +kernel

end Verif
