import Verif.Lemmas.FxInv

/-!
# Whole programs
-/

namespace Verif.Fx
open Spec

variable {env : Env} {sc : Scope} {nA : Nat} {s : St}

/-- A placeholder of the graph. -/
def IsPlaceholder (env : Env) (n : Nat) : Prop := ∃ node, env.nodes[n]? = some node ∧ node.op = .placeholder

theorem findIdx_spec {α : Type} {l : List α} {p : α → Bool} {j : Nat}
    (h : (if l.findIdx p < l.length then some (l.findIdx p) else none) = some j) :
    ∃ x, l[j]? = some x ∧ p x = true := by
  split at h
  · rename_i hl
    cases h
    exact ⟨l[l.findIdx p], by simp [hl], List.findIdx_getElem (w := hl)⟩
  · cases h

theorem placeholderIdx_spec {nodes : List Node} {name : String} {i : Nat} (h : placeholderIdx nodes name = some i) :
    ∃ node, nodes[i]? = some node ∧ node.name = name ∧ node.op = .placeholder := by
  obtain ⟨x, h1, h2⟩ := findIdx_spec h
  simp only [Bool.and_eq_true, decide_eq_true_eq] at h2
  exact ⟨x, h1, h2.1, h2.2⟩

theorem producerIdx_spec {nodes : List Node} {name : String} {i : Nat} (h : producerIdx nodes name = some i) :
    ∃ node, nodes[i]? = some node ∧ node.name = name ∧ isProducer node = true := by
  obtain ⟨x, h1, h2⟩ := findIdx_spec h
  simp only [Bool.and_eq_true, decide_eq_true_eq] at h2
  exact ⟨x, h1, h2.1, h2.2⟩

theorem need_ok {o : Option Nat} {i : Nat} : need o = .ok i ↔ o = some i := by
  cases o <;> simp [need]

/-- All indices are placeholders. -/
structure InputsOk (env : Env) (ins : Inputs) : Prop where
  users : ∀ p ∈ ins.users, IsPlaceholder env p.1
  consts : ∀ p ∈ ins.consts, IsPlaceholder env p.1
  constIns : ∀ p ∈ ins.constIns, IsPlaceholder env p.1
  params : ∀ p ∈ ins.params, IsPlaceholder env p.1
  buffers : ∀ p ∈ ins.buffers, IsPlaceholder env p.1

theorem collectInputs_ok {muts bufs : List (String × String)} : ∀ {sps : List InSpec} {ins : Inputs},
    collectInputs env.nodes muts bufs sps = .ok ins → InputsOk env ins := by
  intro sps
  induction sps with
  | nil => intro ins h; cases h; exact ⟨by simp, by simp, by simp, by simp, by simp⟩
  | cons sp sps ih =>
    intro ins h
    have ph : ∀ {name i}, need (placeholderIdx env.nodes name) = .ok i → IsPlaceholder env i := by
      intro name i hi
      obtain ⟨node, h1, _, h3⟩ := placeholderIdx_spec (need_ok.mp hi)
      exact ⟨node, h1, h3⟩
    cases sp with
    | user name =>
      obtain ⟨i, hi, h⟩ := bind_ok.mp h
      obtain ⟨r, hr, h⟩ := bind_ok.mp h
      cases h
      obtain ⟨a, b, c, d, e⟩ := ih hr
      exact ⟨by intro p hp; simp at hp; rcases hp with rfl | hp; exacts [ph hi, a p hp], b, c, d, e⟩
    | userConst name l =>
      obtain ⟨i, hi, h⟩ := bind_ok.mp h
      obtain ⟨r, hr, h⟩ := bind_ok.mp h
      cases h
      obtain ⟨a, b, c, d, e⟩ := ih hr
      exact ⟨a, b, by intro p hp; simp at hp; rcases hp with rfl | hp; exacts [ph hi, c p hp], d, e⟩
    | constTensor name l =>
      obtain ⟨i, hi, h⟩ := bind_ok.mp h
      obtain ⟨r, hr, h⟩ := bind_ok.mp h
      cases h
      obtain ⟨a, b, c, d, e⟩ := ih hr
      exact ⟨a, by intro p hp; simp at hp; rcases hp with rfl | hp; exacts [ph hi, b p hp], c, d, e⟩
    | param name l pers =>
      obtain ⟨_, _, h⟩ := bind_ok.mp h
      obtain ⟨i, hi, h⟩ := bind_ok.mp h
      obtain ⟨r, hr, h⟩ := bind_ok.mp h
      cases h
      obtain ⟨a, b, c, d, e⟩ := ih hr
      exact ⟨a, b, c, by intro p hp; simp at hp; rcases hp with rfl | hp; exacts [ph hi, d p hp], e⟩
    | buffer name target l =>
      obtain ⟨_, _, h⟩ := bind_ok.mp h
      obtain ⟨i, hi, h⟩ := bind_ok.mp h
      obtain ⟨r, hr, h⟩ := bind_ok.mp h
      cases h
      obtain ⟨a, b, c, d, e⟩ := ih hr
      exact ⟨a, b, c, d, by intro p hp; simp at hp; rcases hp with rfl | hp; exacts [ph hi, e p hp]⟩
    | unsupported => cases h

theorem IsPlaceholder.name {n : Nat} (h : IsPlaceholder env n) : NameIs env (.graph n) (nameOf env n) := by
  obtain ⟨node, h1, _⟩ := h
  exact ⟨node, h1, by simp [nameOf, h1]⟩

/-- Value of user input `u` at position `k`. -/
def UserOk (t : St) (k : Nat) (u : Nat × Bool × String) : Prop :=
  ∃ x, NodeIs t (.graph u.1) x ∧ if u.2.1 = true then Defines t.ops x .copyToVTensor [k] else x = k

theorem UserOk.mono {t t' : St} (h : Ext t t') {k u} (hu : UserOk t k u) : UserOk t' k u := by
  obtain ⟨x, h1, h2⟩ := hu
  refine ⟨x, NodeIs.mono h h1, ?_⟩
  split at h2
  · rename_i e; rw [if_pos e]; exact Defines.mono h h2
  · rename_i e; rw [if_neg e]; exact h2

theorem Good.importConstant {p : Nat × Lit} (hw : WF nA s) (hp : IsPlaceholder env p.1)
    (hown : sc.own (.graph p.1) 0) :
    Good env sc s (importConstant env p) (fun _ t => ∃ x, NodeIs t (.graph p.1) x ∧ LitIs t.ops p.2 x) := by
  unfold Fx.importConstant
  refine Good.bind hw (Good.importLiteral hw) fun x t wt rt hx => ?_
  refine (Good.bindNodeValue (b := .val x) wt hp.name (Or.inl hown) hx.1).weaken fun _ t' r h => ?_
  exact ⟨x, h.1, LitIs.mono r.ext hx.2⟩

theorem Good.bindUserInput {p : Nat × (Nat × Bool × String)} (hw : WF nA s) (hp : IsPlaceholder env p.2.1)
    (hlt : p.1 < nA) (hown : sc.own (.graph p.2.1) 0)
    (hh : p.2.2.1 = true → sc.hooks p.2.2.2 (.overwrite p.1)) :
    Good env sc s (bindUserInput env p) (fun _ t => UserOk t p.1 p.2) := by
  have hl := hw.len
  unfold Fx.bindUserInput
  split
  · rename_i hm
    unfold importMutable
    refine Good.bind hw (Good.emit1 rfl (by intro x hx; simp at hx; omega)) fun x t wt rt hx => ?_
    refine Good.bind wt (Good.bindNodeValue (b := .val x) wt hp.name (Or.inl hown) hx.1) fun _ t' wt' rt' h => ?_
    refine Good.of_step (a := ()) rfl (.single (.hook p.2.2.2 (.overwrite p.1) (hh hm) ?_)) ?_
    · intro m hm; cases hm; have := wt'.len; omega
    · refine ⟨x, h.1, ?_⟩
      rw [if_pos hm]
      exact Defines.mono rt'.ext hx.2.1
  · rename_i hm
    refine (Good.bindNodeValue (b := .val p.1) hw hp.name (Or.inl hown) (by show p.1 < _; omega)).weaken fun _ t' r h => ?_
    exact ⟨p.1, h.1, by rw [if_neg hm]⟩

theorem Good.lazyParameter {p : Nat × Lit} (hw : WF nA s) (hp : IsPlaceholder env p.1)
    (hown : sc.own (.graph p.1) 0) :
    Good env sc s (lazyParameter env p) (fun _ t => dictGet t.v (.ref (.graph p.1) 0) = some (.lazy p.1 p.2)) := by
  unfold Fx.lazyParameter
  exact (Good.bindNodeValue (b := .lazy p.1 p.2) hw hp.name (Or.inl hown) ⟨rfl, rfl⟩).weaken fun _ _ _ h => h.1

theorem Good.lazyBuffer {p : Nat × Lit × Option String} (hw : WF nA s) (hp : IsPlaceholder env p.1)
    (hown : sc.own (.graph p.1) 0) (hh : ∀ q, p.2.2 = some q → sc.hooks q (.store p.1)) :
    Good env sc s (lazyBuffer env p) (fun _ t => dictGet t.v (.ref (.graph p.1) 0) = some (.lazy p.1 p.2.1)) := by
  unfold Fx.lazyBuffer
  refine Good.bind hw (Good.bindNodeValue (b := .lazy p.1 p.2.1) hw hp.name (Or.inl hown) ⟨rfl, rfl⟩) fun _ t wt rt h => ?_
  split
  · exact Good.pure h.1
  · rename_i q e
    exact Good.of_step (a := ()) rfl (.single (.hook _ _ (hh q e) (by intro m hm; cases hm))) h.1

/-- `Good.mapM'` for facts that survive steps in scope. -/
theorem Good.mapM_reach {α β : Type} {f : α → M β} {P : α → St → Prop}
    (hmono : ∀ x t t', Reach env sc t t' → P x t → P x t') : ∀ (l : List α) (s : St), WF nA s →
    (∀ x ∈ l, ∀ t, WF nA t → Good env sc t (f x) (fun _ t' => P x t')) →
    Good env sc s (Fx.mapM' f l) (fun _ t => ∀ x ∈ l, P x t) := by
  intro l
  induction l with
  | nil => intro s hw _; exact Good.pure (by simp)
  | cons x xs ih =>
    intro s hw hf
    refine Good.bind hw (hf x (by simp) s hw) fun y t wt rt hx => ?_
    refine Good.bind wt (ih t wt fun z hz => hf z (by simp [hz])) fun ys t' wt' rt' h => Good.pure ?_
    intro z hz
    simp at hz
    rcases hz with rfl | hz
    · exact hmono _ _ _ rt' hx
    · exact h z hz

/-- What is bound when the nodes start to be imported. -/
structure SetupOk (ins : Inputs) (t : St) : Prop where
  users : ∀ k u, ins.users[k]? = some u → UserOk t k u
  consts : ∀ p ∈ ins.consts ++ ins.constIns, ∃ x, NodeIs t (.graph p.1) x ∧ LitIs t.ops p.2 x
  params : ∀ p ∈ ins.params, dictGet t.v (.ref (.graph p.1) 0) = some (.lazy p.1 p.2)
  buffers : ∀ p ∈ ins.buffers, dictGet t.v (.ref (.graph p.1) 0) = some (.lazy p.1 p.2.1)

/-- The producer callbacks that set-up registers. -/
inductive Registers (ins : Inputs) : String → Hook → Prop
  | user {k : Nat} {u : Nat × Bool × String} : ins.users[k]? = some u → u.2.1 = true → Registers ins u.2.2 (.overwrite k)
  | buffer {b : Nat × Lit × Option String} {q : String} : b ∈ ins.buffers → b.2.2 = some q → Registers ins q (.store b.1)

theorem Good.setupInputs {ins : Inputs} (hw : WF nA s) (hi : InputsOk env ins) (hn : ins.users.length ≤ nA)
    (hown : ∀ n, IsPlaceholder env n → sc.own (.graph n) 0) (hh : ∀ n h, Registers ins n h → sc.hooks n h)
    (hu : ∀ r, ¬ sc.uses r) :
    Good env sc s (setupInputs env ins) (fun _ t => SetupOk ins t) := by
  unfold Fx.setupInputs
  have lm : ∀ (p : Nat × Lit) (t t' : St), Reach env sc t t' → (∃ x, NodeIs t (.graph p.1) x ∧ LitIs t.ops p.2 x) →
      ∃ x, NodeIs t' (.graph p.1) x ∧ LitIs t'.ops p.2 x := by
    rintro p t t' r ⟨x, h1, h2⟩
    exact ⟨x, NodeIs.mono r.ext h1, LitIs.mono r.ext h2⟩
  refine Good.bind hw (Good.mapM_reach (P := fun (p : Nat × Lit) t => ∃ x, NodeIs t (.graph p.1) x ∧ LitIs t.ops p.2 x) lm
    ins.consts s hw fun p hp t wt => Good.importConstant wt (hi.consts p hp) (hown _ (hi.consts p hp))) fun _ t1 w1 r1 h1 => ?_
  refine Good.bind w1 (Good.mapM_reach (P := fun (p : Nat × Lit) t => ∃ x, NodeIs t (.graph p.1) x ∧ LitIs t.ops p.2 x) lm
    ins.constIns t1 w1 fun p hp t wt => Good.importConstant wt (hi.constIns p hp) (hown _ (hi.constIns p hp))) fun _ t2 w2 r2 h2 => ?_
  refine Good.bind w2 (Good.mapM_reach (P := fun (p : Nat × (Nat × Bool × String)) t => UserOk t p.1 p.2)
    (fun p t t' r h => h.mono r.ext) (enumFrom 0 ins.users) t2 w2 fun p hp t wt => ?_) fun _ t3 w3 r3 h3 => ?_
  · obtain ⟨_, h2, h3⟩ := mem_enumFrom hp
    have hm := hi.users _ (List.mem_of_getElem? h3)
    exact Good.bindUserInput wt hm (by omega) (hown _ hm) fun e => hh _ _ (.user (by simpa using h3) e)
  refine Good.bind w3 (Good.mapM_reach (P := fun (p : Nat × Lit) t => dictGet t.v (.ref (.graph p.1) 0) = some (.lazy p.1 p.2))
    (fun p t t' r h => r.stays_lazy (hu _) h) ins.params t3 w3 fun p hp t wt =>
      Good.lazyParameter wt (hi.params p hp) (hown _ (hi.params p hp))) fun _ t4 w4 r4 h4 => ?_
  refine Good.bind w4 (Good.mapM_reach (P := fun (p : Nat × Lit × Option String) t => dictGet t.v (.ref (.graph p.1) 0) = some (.lazy p.1 p.2.1))
    (fun p t t' r h => r.stays_lazy (hu _) h) ins.buffers t4 w4 fun p hp t wt =>
      Good.lazyBuffer wt (hi.buffers p hp) (hown _ (hi.buffers p hp)) fun q e => hh _ _ (.buffer hp e)) fun _ t5 w5 r5 h5 => Good.pure ?_
  refine ⟨fun k u hk => ?_, fun p hp => ?_, fun p hp => r5.stays_lazy (hu _) (h4 p hp), h5⟩
  · have := h3 (k, u) (by simpa using enumFrom_mem (n := 0) hk)
    exact (this.mono r4.ext).mono r5.ext
  · rcases List.mem_append.mp hp with hp | hp
    · exact lm p _ _ r5 (lm p _ _ r4 (lm p _ _ r3 (lm p _ _ r2 (h1 p hp))))
    · exact lm p _ _ r5 (lm p _ _ r4 (lm p _ _ r3 (h2 p hp)))

/-! ## Callbacks registered during set-up -/

abbrev Hooks := List (String × Hook)

theorem mapM'_hooks {α β : Type} {f : α → M β} {g : α → Hooks → Hooks}
    (h : ∀ x s y s', f x s = .ok (y, s') → s'.hooks = g x s.hooks) : ∀ (l : List α) (s : St) ys s',
    mapM' f l s = .ok (ys, s') → s'.hooks = l.foldl (fun d x => g x d) s.hooks := by
  intro l
  induction l with
  | nil => intro s ys s' hr; cases hr; rfl
  | cons x xs ih =>
    intro s ys s' hr
    obtain ⟨y, t, h1, h2⟩ := M.bind_ok.mp hr
    obtain ⟨zs, t', h3, h4⟩ := M.bind_ok.mp h2
    cases h4
    rw [ih t zs _ h3, h x s y t h1]
    rfl

theorem bindNodeValue_hooks {name : String} {r : Ref} {b : Binding} {i : Int} {y : Unit} {s' : St}
    (h : bindNodeValue env name r b i s = .ok (y, s')) : s'.hooks = s.hooks := by
  unfold bindNodeValue at h
  obtain ⟨_, _, h1, h⟩ := M.bind_ok.mp h
  cases h1
  obtain ⟨_, t, h1, h⟩ := M.bind_ok.mp h
  have ht : t = s := by
    unfold guardM at h1
    split at h1
    · cases h1; rfl
    · cases h1
  subst ht
  obtain ⟨_, _, h1, h⟩ := M.bind_ok.mp h
  cases h1
  cases hh : dictGet t.hooks name with
  | none => rw [hh] at h; cases h; rfl
  | some hk =>
    rw [hh] at h
    cases b with
    | val x =>
      cases hk with
      | overwrite m => cases h; rfl
      | store n =>
        obtain ⟨_, _, h1, h⟩ := M.bind_ok.mp h
        unfold guardM at h1
        split at h1
        · cases h1; cases h; rfl
        · cases h1
    | «lazy» n l => cases h
    | none => cases h

theorem importLiteral_hooks {l : Lit} {o : Option Nat} {x : Nat} {s' : St} (h : importLiteral l o s = .ok (x, s')) :
    s'.hooks = s.hooks := by
  cases l with
  | tensor obj b => cases b <;> (cases h; rfl)
  | enum c => cases c <;> cases h; rfl
  | unsupported => cases h
  | _ => cases h; rfl

theorem importConstant_hooks {p : Nat × Lit} {y : Unit} {s' : St} (h : importConstant env p s = .ok (y, s')) :
    s'.hooks = s.hooks := by
  obtain ⟨x, t, h1, h2⟩ := M.bind_ok.mp h
  rw [bindNodeValue_hooks h2, importLiteral_hooks h1]

theorem bindUserInput_hooks {p : Nat × (Nat × Bool × String)} {y : Unit} {s' : St}
    (h : bindUserInput env p s = .ok (y, s')) :
    s'.hooks = if p.2.2.1 = true then dictSet s.hooks p.2.2.2 (.overwrite p.1) else s.hooks := by
  unfold bindUserInput at h
  split at h
  · rename_i hm
    rw [if_pos hm]
    unfold importMutable at h
    obtain ⟨x, t, h1, h2⟩ := M.bind_ok.mp h
    obtain ⟨_, t', h3, h4⟩ := M.bind_ok.mp h2
    cases h4; cases h1
    show dictSet t'.hooks _ _ = _
    rw [bindNodeValue_hooks h3]
  · rename_i hm
    rw [if_neg hm]
    exact bindNodeValue_hooks h

theorem lazyBuffer_hooks {p : Nat × Lit × Option String} {y : Unit} {s' : St} (h : lazyBuffer env p s = .ok (y, s')) :
    s'.hooks = match p.2.2 with | none => s.hooks | some q => dictSet s.hooks q (.store p.1) := by
  unfold lazyBuffer at h
  obtain ⟨x, t, h1, h2⟩ := M.bind_ok.mp h
  have e := bindNodeValue_hooks h1
  cases hq : p.2.2 with
  | none => rw [hq] at h2; cases h2; exact e
  | some q => rw [hq] at h2; cases h2; show dictSet t.hooks _ _ = _; rw [e]

/-- The callbacks after set-up. -/
def setupHooks (ins : Inputs) : Hooks :=
  ins.buffers.foldl (fun d p => match p.2.2 with | none => d | some q => dictSet d q (.store p.1))
    ((enumFrom 0 ins.users).foldl (fun d p => if p.2.2.1 = true then dictSet d p.2.2.2 (.overwrite p.1) else d) [])

theorem setupInputs_hooks {ins : Inputs} {tys : List VTy} {y : Unit} {s' : St}
    (h : setupInputs env ins (St.init tys) = .ok (y, s')) : s'.hooks = setupHooks ins := by
  unfold setupInputs at h
  obtain ⟨_, t1, h1, h⟩ := M.bind_ok.mp h
  obtain ⟨_, t2, h2, h⟩ := M.bind_ok.mp h
  obtain ⟨_, t3, h3, h⟩ := M.bind_ok.mp h
  obtain ⟨_, t4, h4, h⟩ := M.bind_ok.mp h
  obtain ⟨_, t5, h5, h⟩ := M.bind_ok.mp h
  cases h
  have idf : ∀ {α : Type} (l : List α) (d : Hooks), l.foldl (fun d _ => d) d = d := by
    intro α l; induction l <;> simp_all
  have e1 := mapM'_hooks (g := fun _ d => d) (fun x s y s' h => importConstant_hooks h) _ _ _ _ h1
  have e2 := mapM'_hooks (g := fun _ d => d) (fun x s y s' h => importConstant_hooks h) _ _ _ _ h2
  have e3 := mapM'_hooks (g := fun p d => if p.2.2.1 = true then dictSet d p.2.2.2 (.overwrite p.1) else d)
    (fun x s y s' h => bindUserInput_hooks h) _ _ _ _ h3
  have e4 := mapM'_hooks (g := fun _ d => d) (fun x s y s' h => bindNodeValue_hooks h) _ _ _ _ h4
  have e5 := mapM'_hooks (g := fun p d => match p.2.2 with | none => d | some q => dictSet d q (.store p.1))
    (fun x s y s' h => lazyBuffer_hooks h) _ _ _ _ h5
  rw [e5, e4, idf, e3, e2, idf, e1, idf]
  rfl

/-! ## Returned values -/

/-- One returned value. -/
def RetOk (t : St) (constants : List (Nat × Lit)) (p : Nat × Option Nat) (x : Nat) : Prop :=
  match p.2 with
  | some n => NodeIs t (.graph n) x
  | none => ∃ l, constants.lookup p.1 = some l ∧ LitIs t.ops l x

theorem RetOk.mono {t t' : St} (h : Ext t t') {c p x} (hr : RetOk t c p x) : RetOk t' c p x := by
  unfold RetOk at hr ⊢
  split at hr
  · exact NodeIs.mono h hr
  · obtain ⟨l, h1, h2⟩ := hr; exact ⟨l, h1, LitIs.mono h h2⟩

theorem Good.returnOperand {c : List (Nat × Lit)} {p : Nat × Option Nat} (hw : WF nA s)
    (hu : ∀ n, p.2 = some n → sc.uses (.graph n)) :
    Good env sc s (returnOperand env c p) (fun x t => x < t.tys.length ∧ RetOk t c p x) := by
  unfold Fx.returnOperand RetOk
  cases hp : p.2 with
  | some n => exact Good.resolve hw (hu n hp)
  | none =>
    cases hl : c.lookup p.1 with
    | none => exact Good.raise
    | some l => exact (Good.importLiteral hw).weaken fun x t _ h => ⟨h.1, l, rfl, h.2⟩

theorem Good.returnNodeValues {outs : List (Option Nat)} {c : List (Nat × Lit)} (hw : WF nA s)
    (hu : ∀ n, some n ∈ outs → sc.uses (.graph n)) :
    Good env sc s (returnNodeValues env outs c) (fun _ t => ∃ pre xs, t.ops = pre ++ [⟨.ret, xs, []⟩] ∧
      List.Forall₂ (RetOk t c) (enumFrom 0 outs) xs) := by
  unfold Fx.returnNodeValues
  refine Good.bind hw (Good.mapM' (P := fun p x t => x < t.tys.length ∧ RetOk t c p x)
    (fun x y t t' h hp => ⟨by have := h.len; omega, hp.2.mono h⟩) _ s hw ?_) fun xs t wt rt hx => ?_
  · intro p hp t wt _
    obtain ⟨_, _, h3⟩ := mem_enumFrom hp
    refine Good.returnOperand wt fun n hn => hu n ?_
    have := List.mem_of_getElem? h3
    rw [hn] at this; exact this
  · have st : Step env sc t _ := .emit .ret xs [] rfl (forall₂_right hx fun _ _ h => h.1)
    refine Good.of_step (a := ()) rfl (.single st) ⟨t.ops, xs, rfl, ?_⟩
    exact hx.imp fun p x h => h.2.mono st.ext

/-! ## Taking `import_program` apart -/

theorem importProgram_ok {sig : Sig} {sym : Bool} {symbols : List String} {f : Func}
    (h : importProgram env sig sym symbols = .ok f) :
    ∃ outs ins s1 s2, userOutputs env.nodes sig.outs = .ok outs ∧
      collectInputs env.nodes (mutatedUserInputs sig.outs) (bufferProducers sig.outs) sig.ins = .ok ins ∧
      f.argTys = ins.users.map (argTy env) ∧ f.resTys = resTy env sig.outs ∧
      setupInputs env ins (St.init f.argTys) = .ok ((), s1) ∧
      importNodes env true sym symbols f.argTys.length (producers env.nodes) s1 = .ok ((), s2) ∧
      returnNodeValues env outs (constantOutputs 0 sig.outs) s2 = .ok ((), f.final) := by
  unfold importProgram at h
  obtain ⟨outs, h1, h⟩ := bind_ok.mp h
  obtain ⟨ins, h2, h⟩ := bind_ok.mp h
  obtain ⟨⟨u, s3⟩, h3, h⟩ := bind_ok.mp h
  cases h
  obtain ⟨_, s1, h4, h3⟩ := M.bind_ok.mp h3
  obtain ⟨_, s2, h5, h3⟩ := M.bind_ok.mp h3
  exact ⟨outs, ins, s1, s2, h1, h2, rfl, rfl, h4, h5, h3⟩

theorem mem_producers {nodes : List Node} {i : Nat} :
    i ∈ producers nodes ↔ ∃ n, nodes[i]? = some n ∧ isProducer n = true := by
  unfold producers
  simp only [List.mem_filterMap]
  constructor
  · rintro ⟨p, hp, h⟩
    obtain ⟨_, _, h3⟩ := mem_enumFrom hp
    split at h
    · rename_i hpr
      cases h
      exact ⟨p.2, by simpa using h3, hpr⟩
    · cases h
  · rintro ⟨n, hn, hp⟩
    exact ⟨(i, n), by simpa using enumFrom_mem (n := 0) hn, by simp [hp]⟩

/-- The scopes of the three phases. -/
structure Phases (env : Env) (a b c : Scope) (ins : Inputs) (outs : List (Option Nat)) : Prop where
  setupOwn : ∀ n, IsPlaceholder env n → a.own (.graph n) 0
  setupHooks : ∀ n h, Registers ins n h → a.hooks n h
  setupUses : ∀ r, ¬ a.uses r
  nodes : ∀ i ∈ producers env.nodes, ∀ node, env.nodes[i]? = some node → NodeScope env b i node
  ret : ∀ n, some n ∈ outs → c.uses (.graph n)

/-- Everything a successful import tells. -/
theorem importProgram_spec {sig : Sig} {sym : Bool} {symbols : List String} {f : Func}
    (h : importProgram env sig sym symbols = .ok f) :
    ∃ outs ins s1 s2, userOutputs env.nodes sig.outs = .ok outs ∧
      collectInputs env.nodes (mutatedUserInputs sig.outs) (bufferProducers sig.outs) sig.ins = .ok ins ∧
      f.argTys = ins.users.map (argTy env) ∧ f.resTys = resTy env sig.outs ∧ InputsOk env ins ∧
      s1.hooks = setupHooks ins ∧
      importNodes env true sym symbols f.argTys.length (producers env.nodes) s1 = .ok ((), s2) ∧
      ∀ a b c, Phases env a b c ins outs →
        WF f.argTys.length s1 ∧ Reach env a (St.init f.argTys) s1 ∧ SetupOk ins s1 ∧
        WF f.argTys.length s2 ∧ Reach env b s1 s2 ∧
          (∀ i ∈ producers env.nodes, ∀ node, env.nodes[i]? = some node → NodeOk env i node s2) ∧
        WF f.argTys.length f.final ∧ Reach env c s2 f.final ∧ (∃ pre xs, f.final.ops = pre ++ [⟨.ret, xs, []⟩] ∧
          List.Forall₂ (RetOk f.final (constantOutputs 0 sig.outs)) (enumFrom 0 outs) xs) := by
  obtain ⟨outs, ins, s1, s2, h1, h2, h3, h4, h5, h6, h7⟩ := importProgram_ok h
  have hi := collectInputs_ok h2
  refine ⟨outs, ins, s1, s2, h1, h2, h3, h4, hi, setupInputs_hooks h5, h6, fun a b c hp => ?_⟩
  have w0 := WF.init f.argTys
  obtain ⟨r1, o1⟩ := Good.setupInputs (sc := a) w0 hi (by rw [h3]; simp) hp.setupOwn hp.setupHooks hp.setupUses _ _ h5
  have w1 := r1.wf w0
  obtain ⟨r2, o2⟩ := Good.importNodes (sc := b) w1 (Nat.le_refl _) hp.nodes _ _ h6
  have w2 := r2.wf w1
  obtain ⟨r3, o3⟩ := Good.returnNodeValues (sc := c) w2 hp.ret _ _ h7
  exact ⟨w1, r1, o1, w2, r2, o2, r3.wf w2, r3, o3⟩

/-- No restriction at all, except that set-up does not dereference. -/
def setupScope : Scope := ⟨fun _ _ => True, fun _ => False, fun _ _ => True⟩
def freeScope : Scope := ⟨fun _ _ => True, fun _ => True, fun _ _ => False⟩

theorem freeScope_node {i : Nat} {node : Node} : NodeScope env freeScope i node :=
  ⟨fun _ => trivial, trivial, fun _ => trivial, fun _ _ => trivial, fun _ _ => trivial,
    fun _ _ _ _ _ _ _ _ => ⟨fun _ _ => trivial, fun _ _ => trivial⟩⟩

theorem freePhases {ins : Inputs} {outs : List (Option Nat)} : Phases env setupScope freeScope freeScope ins outs :=
  ⟨fun _ _ => trivial, fun _ _ _ => trivial, fun _ h => h, fun _ _ _ _ => freeScope_node, fun _ _ => trivial⟩

/-- `import_stateless_graph`. -/
theorem importStateless_spec {sym : Bool} {symbols : List String} {f : Func}
    (h : importStateless env sym symbols = .ok f) :
    f.argTys = placeholderTys env.nodes ∧
      importNodes env false sym symbols f.argTys.length (List.range env.nodes.length) (St.init f.argTys) = .ok ((), f.final) ∧
      ∀ b, (∀ i node, env.nodes[i]? = some node → NodeScope env b i node) →
        WF f.argTys.length f.final ∧ Reach env b (St.init f.argTys) f.final ∧
        (∀ i node, env.nodes[i]? = some node → NodeOk env i node f.final) := by
  unfold importStateless at h
  obtain ⟨⟨u, s3⟩, h3, h⟩ := bind_ok.mp h
  cases h
  refine ⟨rfl, h3, fun b hb => ?_⟩
  have w0 := WF.init (placeholderTys env.nodes)
  obtain ⟨r2, o2⟩ := Good.importNodes (sc := b) w0 (Nat.le_refl _) (fun i _ => hb i) _ _ h3
  exact ⟨r2.wf w0, r2, fun i node hn => o2 i (by simp; exact (List.getElem?_eq_some_iff.mp hn).1) node hn⟩

theorem collectInputs_lifted {muts bufs : List (String × String)} : ∀ {sps : List InSpec} {ins : Inputs},
    collectInputs env.nodes muts bufs sps = .ok ins → ∀ sp ∈ sps, ∀ name l, lifted sp = some (name, l) →
    ∃ i, placeholderIdx env.nodes name = some i ∧ ((i, l) ∈ ins.params ∨ ∃ q, (i, l, q) ∈ ins.buffers) := by
  intro sps
  induction sps with
  | nil => intro ins _ sp hsp; cases hsp
  | cons sp sps ih =>
    intro ins h sp' hsp name l hl
    cases sp with
    | user nm =>
      obtain ⟨i, hi, h⟩ := bind_ok.mp h
      obtain ⟨r, hr, h⟩ := bind_ok.mp h
      cases h
      rcases List.mem_cons.mp hsp with rfl | hsp
      · cases hl
      · exact ih hr sp' hsp name l hl
    | userConst nm l' =>
      obtain ⟨i, hi, h⟩ := bind_ok.mp h
      obtain ⟨r, hr, h⟩ := bind_ok.mp h
      cases h
      rcases List.mem_cons.mp hsp with rfl | hsp
      · cases hl
      · exact ih hr sp' hsp name l hl
    | constTensor nm l' =>
      obtain ⟨i, hi, h⟩ := bind_ok.mp h
      obtain ⟨r, hr, h⟩ := bind_ok.mp h
      cases h
      rcases List.mem_cons.mp hsp with rfl | hsp
      · cases hl
      · exact ih hr sp' hsp name l hl
    | param nm l' pers =>
      obtain ⟨_, _, h⟩ := bind_ok.mp h
      obtain ⟨i, hi, h⟩ := bind_ok.mp h
      obtain ⟨r, hr, h⟩ := bind_ok.mp h
      cases h
      rcases List.mem_cons.mp hsp with rfl | hsp
      · cases hl
        exact ⟨i, need_ok.mp hi, Or.inl (by simp)⟩
      · obtain ⟨j, h1, h2⟩ := ih hr sp' hsp name l hl
        exact ⟨j, h1, h2.imp_left fun h => List.mem_cons_of_mem _ h⟩
    | buffer nm target l' =>
      obtain ⟨_, _, h⟩ := bind_ok.mp h
      obtain ⟨i, hi, h⟩ := bind_ok.mp h
      obtain ⟨r, hr, h⟩ := bind_ok.mp h
      cases h
      rcases List.mem_cons.mp hsp with rfl | hsp
      · cases hl
        exact ⟨i, need_ok.mp hi, Or.inr ⟨dictGet bufs target, by simp⟩⟩
      · obtain ⟨j, h1, h2⟩ := ih hr sp' hsp name l hl
        exact ⟨j, h1, h2.imp_right fun ⟨q, h⟩ => ⟨q, List.mem_cons_of_mem _ h⟩⟩
    | unsupported => cases h

theorem findIdx_iff {α : Type} {l : List α} {p : α → Bool} {i : Nat} :
    (if l.findIdx p < l.length then some (l.findIdx p) else none) = some i ↔
      ∃ x, l[i]? = some x ∧ p x = true ∧ ∀ j y, j < i → l[j]? = some y → p y = false := by
  constructor
  · intro h
    obtain ⟨x, h1, h2⟩ := findIdx_spec h
    refine ⟨x, h1, h2, fun j y hj hy => ?_⟩
    split at h
    · cases h
      have := List.not_of_lt_findIdx hj
      obtain ⟨_, e⟩ := List.getElem?_eq_some_iff.mp hy
      rw [e] at this; simpa using this
    · cases h
  · rintro ⟨x, h1, h2, h3⟩
    obtain ⟨hl, e⟩ := List.getElem?_eq_some_iff.mp h1
    have : l.findIdx p = i := by
      rw [List.findIdx_eq hl]
      refine ⟨by rw [e]; exact h2, fun j hj => h3 j _ hj (by simp)⟩
    rw [this, if_pos hl]

theorem placeholderIdx_iff {nodes : List Node} {name : String} {i : Nat} :
    placeholderIdx nodes name = some i ↔ IsInput nodes name i := by
  unfold placeholderIdx IsInput
  simp only
  rw [findIdx_iff]
  constructor
  · rintro ⟨x, h1, h2, h3⟩
    simp only [Bool.and_eq_true, decide_eq_true_eq] at h2
    refine ⟨x, h1, h2.1, h2.2, fun j m hj hm hc => ?_⟩
    have := h3 j m hj hm
    simp [hc.1, hc.2] at this
  · rintro ⟨x, h1, h2, h3, h4⟩
    refine ⟨x, h1, by simp [h2, h3], fun j m hj hm => ?_⟩
    have := h4 j m hj hm
    simpa using this

theorem placeholderIdx_unique {nodes : List Node} {name : String} {i j : Nat} (h : placeholderIdx nodes name = some i)
    (hj : IsInput nodes name j) : i = j := by
  rw [placeholderIdx_iff.mpr hj] at h
  cases h; rfl

theorem isProducer_iff {n : Node} : isProducer n = true ↔ Produces n := by
  unfold isProducer Produces
  cases n.op <;> simp

theorem producerIdx_iff {nodes : List Node} {name : String} {i : Nat} :
    producerIdx nodes name = some i ↔ IsOutput nodes name i := by
  unfold producerIdx IsOutput
  simp only
  rw [findIdx_iff]
  constructor
  · rintro ⟨x, h1, h2, h3⟩
    simp only [Bool.and_eq_true, decide_eq_true_eq] at h2
    refine ⟨x, h1, h2.1, isProducer_iff.mp h2.2, fun j m hj hm hc => ?_⟩
    have := h3 j m hj hm
    simp [hc.1, isProducer_iff.mpr hc.2] at this
  · rintro ⟨x, h1, h2, h3, h4⟩
    refine ⟨x, h1, by simp [h2, isProducer_iff.mpr h3], fun j m hj hm => ?_⟩
    have := h4 j m hj hm
    rw [← isProducer_iff] at this
    simpa using this

theorem userOutputs_mem {n : Nat} : ∀ (os : List OutSpec) (outs : List (Option Nat)), userOutputs env.nodes os = .ok outs → some n ∈ outs →
    ∃ o, .user o ∈ os ∧ producerIdx env.nodes o = some n := by
  intro os
  induction os with
  | nil => intro outs h hm; cases h; cases hm
  | cons o os ih =>
    intro outs h hm
    cases o with
    | user nm =>
      obtain ⟨j, hj, h⟩ := bind_ok.mp h
      obtain ⟨r, hr, h⟩ := bind_ok.mp h
      cases h
      rcases List.mem_cons.mp hm with e | hm
      · cases e
        exact ⟨nm, by simp, need_ok.mp hj⟩
      · obtain ⟨o, h1, h2⟩ := ih r hr hm
        exact ⟨o, List.mem_cons_of_mem _ h1, h2⟩
    | userConst l =>
      obtain ⟨r, hr, h⟩ := bind_ok.mp h
      cases h
      rcases List.mem_cons.mp hm with e | hm
      · cases e
      · obtain ⟨o, h1, h2⟩ := ih r hr hm
        exact ⟨o, List.mem_cons_of_mem _ h1, h2⟩
    | userUnsupported => cases h
    | _ =>
      obtain ⟨o, h1, h2⟩ := ih outs h hm
      exact ⟨o, List.mem_cons_of_mem _ h1, h2⟩

theorem schemaFor_of_pick {sch sch' : Schema} {args : List Arg} (h : pickSchema env sch args = .ok sch') :
    SchemaFor env sch args sch' := by
  unfold pickSchema at h
  cases hs : env.scalarSchema sch.opName with
  | none =>
    rw [hs] at h; cases h
    exact Or.inr ⟨rfl, fun _ _ hn => absurd hs hn⟩
  | some c =>
    rw [hs] at h
    cases ha : args[1]? with
    | none => rw [ha] at h; cases h
    | some a =>
      rw [ha] at h
      simp only at h
      have iff : isScalarArg env a = true ↔ IsScalar env a := by
        unfold isScalarArg IsScalar
        cases a with
        | node r =>
          cases r with
          | graph i =>
            simp only [nodeOf]
            cases he : env.nodes[i]? <;> simp [he]
          | temp i => simp [nodeOf]
        | lit l => cases l <;> simp
        | _ => simp
      split at h
      · rename_i hb
        cases h
        exact Or.inl ⟨a, ha, iff.mp hb, hs⟩
      · rename_i hb
        cases h
        refine Or.inr ⟨rfl, fun a' ha' _ hc => ?_⟩
        rw [ha] at ha'; cases ha'
        exact hb (iff.mpr hc)

theorem opFor_of_nodeOk {s : St} {i : Nat} {node : Node} (hn : NodeOk env i node s)
    {sch : Schema} {args : List Arg} {kwargs : List (String × Arg)} (hop : node.op = .call (.overload sch) args kwargs)
    {sch' : Schema} {args' : List Arg} {kwargs' : List (String × Arg)}
    (hc : env.canon sch args kwargs = .ok (some (sch', args', kwargs'))) :
    ∃ sch'' o, SchemaFor env sch' args' sch'' ∧ OpFor s (.graph i) sch'' args' kwargs' o ∧
      ResultsAre s (resultTypes sch'' node) o := by
  obtain ⟨sch'', o, h1, h2, h3, _⟩ := hn _ _ _ hop sch' args' kwargs' hc
  exact ⟨sch'', o, schemaFor_of_pick h1, h2, by rw [← resultTys_eq]; exact h3⟩

theorem defined_of_wf {nA : Nat} {s : St} (w : WF nA s) {x : Nat} (hx : x < s.tys.length) :
    x < nA ∨ ∃ o ∈ s.ops, x ∈ o.results := by
  by_cases h : x < nA
  · exact Or.inl h
  · right
    have : x ∈ s.ops.flatMap (·.results) := by
      rw [w.results, List.mem_range'_1]
      have := w.len
      omega
    obtain ⟨o, h1, h2⟩ := List.mem_flatMap.mp this
    exact ⟨o, h1, h2⟩

/-! ## Order of inputs and outputs (C21) -/

theorem collectInputs_users {muts bufs : List (String × String)} : ∀ {sps : List InSpec} {ins : Inputs},
    collectInputs env.nodes muts bufs sps = .ok ins →
    List.Forall₂ (fun name (u : Nat × Bool × String) => placeholderIdx env.nodes name = some u.1 ∧
      u.2.1 = dictMem muts name ∧ u.2.2 = (dictGet muts name).getD "") (sps.filterMap userInput) ins.users := by
  intro sps
  induction sps with
  | nil => intro ins h; cases h; exact .nil
  | cons sp sps ih =>
    intro ins h
    cases sp with
    | user nm =>
      obtain ⟨i, hi, h⟩ := bind_ok.mp h
      obtain ⟨r, hr, h⟩ := bind_ok.mp h
      cases h
      exact .cons ⟨need_ok.mp hi, rfl, rfl⟩ (ih hr)
    | userConst nm l' =>
      obtain ⟨i, hi, h⟩ := bind_ok.mp h
      obtain ⟨r, hr, h⟩ := bind_ok.mp h
      cases h
      exact (ih hr :)
    | constTensor nm l' =>
      obtain ⟨i, hi, h⟩ := bind_ok.mp h
      obtain ⟨r, hr, h⟩ := bind_ok.mp h
      cases h
      exact (ih hr :)
    | param nm l' pers =>
      obtain ⟨_, _, h⟩ := bind_ok.mp h
      obtain ⟨i, hi, h⟩ := bind_ok.mp h
      obtain ⟨r, hr, h⟩ := bind_ok.mp h
      cases h
      exact (ih hr :)
    | buffer nm target l' =>
      obtain ⟨_, _, h⟩ := bind_ok.mp h
      obtain ⟨i, hi, h⟩ := bind_ok.mp h
      obtain ⟨r, hr, h⟩ := bind_ok.mp h
      cases h
      exact (ih hr :)
    | unsupported => cases h

theorem forall₂_getElem?_left {γ δ : Type} {P : γ → δ → Prop} {l : List γ} {m : List δ} (h : List.Forall₂ P l m)
    {i : Nat} {x : γ} (hx : l[i]? = some x) : ∃ y, m[i]? = some y ∧ P x y := by
  induction h generalizing i with
  | nil => simp at hx
  | cons h _ ih =>
    cases i with
    | zero => simp at hx; subst hx; exact ⟨_, rfl, h⟩
    | succ i => simp at hx; simpa using ih hx

/-- Values found through dicts come from the signature. -/
theorem dictGet_userInputsToMutate {outs : List OutSpec} : ∀ (d : List (String × String)),
    (∀ p i, dictGet d p = some i → (.userInputMutation i p) ∈ outs) → ∀ os : List OutSpec, (∀ o ∈ os, o ∈ outs) →
    ∀ p i, dictGet (os.foldl (fun d o => match o with
    | .userInputMutation input producer => dictSet d producer input
    | _ => d) d) p = some i → (.userInputMutation i p) ∈ outs := by
  intro d hd os
  induction os generalizing d with
  | nil => intro _ p i h; exact hd p i h
  | cons o os ih =>
    intro ho p i h
    have hrest : ∀ o' ∈ os, o' ∈ outs := fun o' h' => ho o' (List.mem_cons_of_mem _ h')
    cases o with
    | userInputMutation input producer =>
      refine ih _ ?_ hrest p i h
      intro p' i' h'
      rw [dictGet_set] at h'
      split at h'
      · rename_i e; subst e; cases h'
        exact ho _ (by simp)
      · exact hd p' i' h'
    | _ => exact ih d hd hrest p i h

theorem foldl_dictSet_mem {κ ν α : Type} [DecidableEq κ] (key : α → κ) (val : α → ν) :
    ∀ (l : List α) (d : List (κ × ν)) (k : κ) (v : ν), dictGet (l.foldl (fun d p => dictSet d (key p) (val p)) d) k = some v →
    dictGet d k = some v ∨ ∃ p ∈ l, key p = k ∧ val p = v := by
  intro l
  induction l with
  | nil => intro d k v h; exact Or.inl h
  | cons p l ih =>
    intro d k v h
    rcases ih _ k v h with h | ⟨q, hq, h1, h2⟩
    · rw [dictGet_set] at h
      split at h
      · rename_i e; cases h; exact Or.inr ⟨p, by simp, e, rfl⟩
      · exact Or.inl h
    · exact Or.inr ⟨q, by simp [hq], h1, h2⟩

theorem mem_dictItems {κ ν : Type} [DecidableEq κ] {d : List (κ × ν)} {p : κ × ν} (h : p ∈ dictItems d) :
    dictGet d p.1 = some p.2 := by
  unfold dictItems at h
  simp only [List.mem_filterMap, Option.map_eq_some_iff] at h
  obtain ⟨k, _, v, hv, e⟩ := h
  subst e; exact hv

/-- Every mutated user input is one of the signature, with its producer. -/
theorem mutatedUserInputs_sound {outs : List OutSpec} {i p : String} (h : dictGet (mutatedUserInputs outs) i = some p) :
    .userInputMutation i p ∈ outs := by
  unfold mutatedUserInputs at h
  rcases foldl_dictSet_mem (fun (q : String × String) => q.2) (fun q => q.1) _ _ _ _ h with h | ⟨q, hq, h1, h2⟩
  · cases h
  · have := mem_dictItems hq
    subst h1; subst h2
    exact dictGet_userInputsToMutate (outs := outs) [] (by simp) outs (fun _ h => h) _ _ this

/-- Number of user outputs among the first `n` specs. -/
def userPos (outs : List OutSpec) (n : Nat) : Nat := ((outs.take n).filterMap userOutput).length

theorem userOutputs_spec {nodes : List Node} : ∀ {os : List OutSpec} {outs : List (Option Nat)},
    userOutputs nodes os = .ok outs →
    List.Forall₂ (fun (o : String ⊕ Lit) (u : Option Nat) => match o with
      | .inl name => ∃ i, producerIdx nodes name = some i ∧ u = some i
      | .inr _ => u = none) (os.filterMap userOutput) outs := by
  intro os
  induction os with
  | nil => intro outs h; cases h; exact .nil
  | cons o os ih =>
    intro outs h
    cases o with
    | user nm =>
      obtain ⟨j, hj, h⟩ := bind_ok.mp h
      obtain ⟨r, hr, h⟩ := bind_ok.mp h
      cases h
      exact .cons ⟨j, need_ok.mp hj, rfl⟩ (ih hr)
    | userConst l =>
      obtain ⟨r, hr, h⟩ := bind_ok.mp h
      cases h
      exact .cons rfl (ih hr)
    | userUnsupported => cases h
    | _ => exact ih h

theorem lookup_constantOutputs : ∀ (os : List OutSpec) (n0 j : Nat) (l : Lit),
    (constantOutputs n0 os).lookup j = some l → n0 ≤ j ∧ os[j - n0]? = some (.userConst l) := by
  intro os
  induction os with
  | nil => intro n0 j l h; cases h
  | cons o os ih =>
    intro n0 j l h
    have step : ∀ n, n = n0 + 1 → (constantOutputs n os).lookup j = some l → n0 ≤ j ∧ (o :: os)[j - n0]? = some (.userConst l) := by
      intro n e h
      subst e
      obtain ⟨h1, h2⟩ := ih (n0 + 1) j l h
      refine ⟨by omega, ?_⟩
      have : j - n0 = (j - (n0 + 1)) + 1 := by omega
      rw [this]; simpa using h2
    cases o with
    | userConst l' =>
      unfold constantOutputs at h
      rw [List.lookup_cons] at h
      split at h
      · rename_i e
        have e : j = n0 := by simpa using e
        subst e; cases h
        exact ⟨Nat.le_refl _, by simp⟩
      · exact step _ rfl h
    | _ => exact step _ rfl h

theorem filterMap_take_pos {α β : Type} (g : α → Option β) : ∀ (l : List α) (n : Nat) (x : α) (y : β), l[n]? = some x → g x = some y →
    (l.filterMap g)[((l.take n).filterMap g).length]? = some y := by
  intro l
  induction l with
  | nil => intro n x y h; simp at h
  | cons a l ih =>
    intro n x y h hg
    cases n with
    | zero =>
      simp at h; subst h
      simp [hg]
    | succ n =>
      simp at h
      have := ih n x y h hg
      cases ha : g a with
      | none => simpa [ha] using this
      | some b => simpa [ha] using this

theorem exists_pos_of_filterMap {α β : Type} (g : α → Option β) : ∀ (l : List α) (j : Nat) (y : β), (l.filterMap g)[j]? = some y →
    ∃ n x, l[n]? = some x ∧ g x = some y ∧ ((l.take n).filterMap g).length = j := by
  intro l
  induction l with
  | nil => intro j y h; simp at h
  | cons a l ih =>
    intro j y h
    cases ha : g a with
    | none =>
      simp only [List.filterMap_cons, ha] at h
      obtain ⟨n, x, h1, h2, h3⟩ := ih j y h
      exact ⟨n + 1, x, by simpa using h1, h2, by simpa [ha] using h3⟩
    | some b =>
      simp only [List.filterMap_cons, ha] at h
      cases j with
      | zero => simp at h; subst h; exact ⟨0, a, by simp, ha, by simp⟩
      | succ j =>
        simp at h
        obtain ⟨n, x, h1, h2, h3⟩ := ih j y h
        exact ⟨n + 1, x, by simpa using h1, h2, by simpa [ha] using h3⟩

theorem userPos_le (outs : List OutSpec) (n : Nat) : userPos outs n ≤ n := by
  unfold userPos
  have h1 := List.length_filterMap_le userOutput (outs.take n)
  have h2 := List.length_take_le n outs
  omega

theorem userPos_lt {outs : List OutSpec} {m n : Nat} {o : OutSpec} (hm : outs[m]? = some o) (ho : (userOutput o).isSome = true)
    (h : m < n) : userPos outs m < userPos outs n := by
  unfold userPos
  have e : outs.take n = outs.take m ++ (outs.take n).drop m := by
    conv_lhs => rw [← List.take_append_drop m (outs.take n)]
    rw [List.take_take, Nat.min_eq_left (by omega)]
  rw [e, List.filterMap_append, List.length_append]
  have : ((outs.take n).drop m)[0]? = some o := by
    rw [List.getElem?_drop, Nat.add_zero, List.getElem?_take, if_pos h, hm]
  cases hd : (outs.take n).drop m with
  | nil => rw [hd] at this; cases this
  | cons a l =>
    rw [hd] at this
    cases this
    cases hu : userOutput o with
    | none => rw [hu] at ho; cases ho
    | some v => simp [hu]

/-- If every constant output can be found under its user position, then the positions agree. -/
theorem aligned {outs : List OutSpec}
    (h : ∀ n l, outs[n]? = some (.userConst l) → ∃ l', outs[userPos outs n]? = some (.userConst l')) :
    ∀ n l, outs[n]? = some (.userConst l) → userPos outs n = n := by
  intro n
  induction n using Nat.strongRecOn with
  | _ n ih =>
    intro l hn
    obtain ⟨l', h1⟩ := h n l hn
    have hle := userPos_le outs n
    by_contra hne
    have hlt : userPos outs n < n := by omega
    have h2 := ih _ hlt l' h1
    have := userPos_lt h1 (by rfl) hlt
    omega

end Verif.Fx
