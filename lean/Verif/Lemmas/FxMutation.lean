import Verif.Lemmas.FxGetitem
import Mathlib.Data.List.Nodup

/-!
# Write-back of mutated inputs and buffers
-/

namespace Verif.Fx
open Spec

variable {env : Env} {sc : Scope} {nA : Nat} {s : St}

/-! ## Dictionaries -/

theorem foldl_dictSet_all {κ ν α : Type} [DecidableEq κ] (key : α → κ) (val : α → ν) {k : κ} {v : ν} :
    ∀ (l : List α) (d : List (κ × ν)), (dictGet d k = some v ∨ ∃ p ∈ l, key p = k) → (∀ p ∈ l, key p = k → val p = v) →
    dictGet (l.foldl (fun d p => dictSet d (key p) (val p)) d) k = some v := by
  intro l
  induction l with
  | nil =>
    intro d h _
    rcases h with h | ⟨p, hp, _⟩
    · exact h
    · cases hp
  | cons a l ih =>
    intro d h hv
    refine ih _ ?_ fun p hp => hv p (by simp [hp])
    by_cases ha : key a = k
    · left
      rw [dictGet_set, if_pos ha, hv a (by simp) ha]
    · rcases h with h | ⟨p, hp, hk⟩
      · left; rw [dictGet_set, if_neg ha]; exact h
      · right
        rcases List.mem_cons.mp hp with rfl | hp
        · exact absurd hk ha
        · exact ⟨p, hp, hk⟩

theorem dictItems_complete {κ ν : Type} [DecidableEq κ] {d : List (κ × ν)} {k : κ} {v : ν} (h : dictGet d k = some v) :
    (k, v) ∈ dictItems d := by
  have keys : ∀ (l ks : List κ) (x : κ), x ∈ ks ∨ x ∈ l →
      x ∈ l.foldl (fun ks k => if ks.contains k then ks else ks ++ [k]) ks := by
    intro l
    induction l with
    | nil => intro ks x hx; simpa using hx
    | cons a l ih =>
      intro ks x hx
      refine ih _ x ?_
      rcases hx with hx | hx
      · left; beta_reduce; split
        · exact hx
        · simp [hx]
      · rcases List.mem_cons.mp hx with rfl | hx
        · left; beta_reduce; split
          · rename_i hc; simpa using hc
          · simp
        · exact Or.inr hx
  unfold dictItems
  simp only [List.mem_filterMap]
  refine ⟨k, keys _ _ _ (Or.inr ?_), by rw [h]; rfl⟩
  have := dictGet_mem h
  simp only [List.map_reverse, List.mem_reverse, List.mem_map]
  exact ⟨_, this, rfl⟩

/-- Input mutations as pairs of producer and input. -/
def inMut : OutSpec → Option (String × String)
  | .userInputMutation input producer => some (producer, input)
  | _ => none

def bufMut : OutSpec → Option (String × String)
  | .bufferMutation target producer => some (target, producer)
  | _ => none

theorem userInputsToMutate_eq (outs : List OutSpec) :
    userInputsToMutate outs = (outs.filterMap inMut).foldl (fun d p => dictSet d p.1 p.2) [] := by
  unfold userInputsToMutate
  rw [List.foldl_filterMap]
  congr 1
  funext d o
  cases o <;> rfl

theorem bufferProducers_eq (outs : List OutSpec) :
    bufferProducers outs = (outs.filterMap bufMut).foldl (fun d p => dictSet d p.1 p.2) [] := by
  unfold bufferProducers
  rw [List.foldl_filterMap]
  congr 1
  funext d o
  cases o <;> rfl

theorem mem_inMut {outs : List OutSpec} {p i : String} :
    (p, i) ∈ outs.filterMap inMut ↔ (.userInputMutation i p) ∈ outs := by
  simp only [List.mem_filterMap]
  constructor
  · rintro ⟨o, ho, h⟩
    cases o <;> simp [inMut] at h
    obtain ⟨rfl, rfl⟩ := h; exact ho
  · exact fun h => ⟨_, h, rfl⟩

theorem mem_bufMut {outs : List OutSpec} {t p : String} :
    (t, p) ∈ outs.filterMap bufMut ↔ (.bufferMutation t p) ∈ outs := by
  simp only [List.mem_filterMap]
  constructor
  · rintro ⟨o, ho, h⟩
    cases o <;> simp [bufMut] at h
    obtain ⟨rfl, rfl⟩ := h; exact ho
  · exact fun h => ⟨_, h, rfl⟩

theorem mem_mutation {outs : List OutSpec} {t : String ⊕ String} {p : String} :
    (t, p) ∈ outs.filterMap mutation ↔
      (∃ i, t = .inl i ∧ (.userInputMutation i p) ∈ outs) ∨ (∃ b, t = .inr b ∧ (.bufferMutation b p) ∈ outs) := by
  simp only [List.mem_filterMap]
  constructor
  · rintro ⟨o, ho, h⟩
    cases o <;> simp [mutation] at h
    · obtain ⟨rfl, rfl⟩ := h; exact Or.inr ⟨_, rfl, ho⟩
    · obtain ⟨rfl, rfl⟩ := h; exact Or.inl ⟨_, rfl, ho⟩
  · rintro (⟨i, rfl, h⟩ | ⟨i, rfl, h⟩)
    · exact ⟨_, h, rfl⟩
    · exact ⟨_, h, rfl⟩

theorem nodup_map_inj {α β : Type} {f : α → β} {l : List α} (h : (l.map f).Nodup) {x y : α} (hx : x ∈ l) (hy : y ∈ l)
    (e : f x = f y) : x = y :=
  List.inj_on_of_nodup_map h hx hy e

theorem bufferProducers_sound {outs : List OutSpec} {t p : String} (h : dictGet (bufferProducers outs) t = some p) :
    .bufferMutation t p ∈ outs := by
  rw [bufferProducers_eq] at h
  rcases foldl_dictSet_mem (fun (q : String × String) => q.1) (fun q => q.2) _ _ _ _ h with h | ⟨q, hq, h1, h2⟩
  · cases h
  · subst h1; subst h2; exact mem_bufMut.mp hq

/-- The mutated inputs are exactly those of the signature. -/
theorem mutatedUserInputs_complete {sig : Sig} (hm : OwnProducers env sig) {i p : String}
    (h : .userInputMutation i p ∈ sig.outs) : dictGet (mutatedUserInputs sig.outs) i = some p := by
  have hin : ∀ {i p}, .userInputMutation i p ∈ sig.outs → ((.inl i : String ⊕ String), p) ∈ sig.outs.filterMap mutation :=
    fun h => mem_mutation.mpr (Or.inl ⟨_, rfl, h⟩)
  have hd : dictGet (userInputsToMutate sig.outs) p = some i := by
    rw [userInputsToMutate_eq]
    refine foldl_dictSet_all (fun (q : String × String) => q.1) (fun q => q.2) _ _ (Or.inr ⟨(p, i), mem_inMut.mpr h, rfl⟩) ?_
    rintro ⟨p', i'⟩ hq rfl
    have := nodup_map_inj hm.producers (hin h) (hin (mem_inMut.mp hq)) rfl
    simp at this; exact this.symm
  unfold mutatedUserInputs
  refine foldl_dictSet_all (fun (q : String × String) => q.2) (fun q => q.1) _ _ (Or.inr ⟨(p, i), dictItems_complete hd, rfl⟩) ?_
  rintro ⟨p', i'⟩ hq rfl
  have h2 := mem_dictItems hq
  have h3 := dictGet_userInputsToMutate (outs := sig.outs) [] (by simp) sig.outs (fun _ h => h) _ _ h2
  have := nodup_map_inj hm.targets (hin h) (hin h3) rfl
  simp at this; exact this.symm

theorem bufferProducers_complete {sig : Sig} (hm : OwnProducers env sig) {t p : String}
    (h : .bufferMutation t p ∈ sig.outs) : dictGet (bufferProducers sig.outs) t = some p := by
  have hin : ∀ {i p}, .bufferMutation i p ∈ sig.outs → ((.inr i : String ⊕ String), p) ∈ sig.outs.filterMap mutation :=
    fun h => mem_mutation.mpr (Or.inr ⟨_, rfl, h⟩)
  rw [bufferProducers_eq]
  refine foldl_dictSet_all (fun (q : String × String) => q.1) (fun q => q.2) _ _ (Or.inr ⟨(t, p), mem_bufMut.mpr h, rfl⟩) ?_
  rintro ⟨t', p'⟩ hq rfl
  have := nodup_map_inj hm.targets (hin h) (hin (mem_bufMut.mp hq)) rfl
  simp at this; exact this.symm

theorem collectInputs_buffers {muts bufs : List (String × String)} : ∀ {sps : List InSpec} {ins : Inputs},
    collectInputs env.nodes muts bufs sps = .ok ins →
    List.Forall₂ (fun (nt : String × String) (b : Nat × Lit × Option String) => placeholderIdx env.nodes nt.1 = some b.1 ∧
      b.2.2 = dictGet bufs nt.2) (sps.filterMap bufferInput) ins.buffers := by
  intro sps
  induction sps with
  | nil => intro ins h; cases h; exact .nil
  | cons sp sps ih =>
    intro ins h
    cases sp with
    | user nm =>
      obtain ⟨i, hi, h⟩ := bind_ok.mp h
      obtain ⟨r, hr, h⟩ := bind_ok.mp h
      cases h
      exact (ih hr :)
    | userConst nm l' =>
      obtain ⟨i, hi, h⟩ := bind_ok.mp h
      obtain ⟨r, hr, h⟩ := bind_ok.mp h
      cases h
      exact (ih hr :)
    | constTensor nm l' =>
      obtain ⟨i, hi, h⟩ := bind_ok.mp h
      obtain ⟨r, hr, h⟩ := bind_ok.mp h
      cases h
      exact (ih hr :)
    | param nm l' pers =>
      obtain ⟨_, _, h⟩ := bind_ok.mp h
      obtain ⟨i, hi, h⟩ := bind_ok.mp h
      obtain ⟨r, hr, h⟩ := bind_ok.mp h
      cases h
      exact (ih hr :)
    | buffer nm target l' =>
      obtain ⟨_, _, h⟩ := bind_ok.mp h
      obtain ⟨i, hi, h⟩ := bind_ok.mp h
      obtain ⟨r, hr, h⟩ := bind_ok.mp h
      cases h
      exact .cons ⟨need_ok.mp hi, rfl⟩ (ih hr)
    | unsupported => cases h

theorem forall₂_getElem?_right {γ δ : Type} {P : γ → δ → Prop} {l : List γ} {m : List δ} (h : List.Forall₂ P l m)
    {i : Nat} {y : δ} (hy : m[i]? = some y) : ∃ x, l[i]? = some x ∧ P x y := by
  induction h generalizing i with
  | nil => simp at hy
  | cons h _ ih =>
    cases i with
    | zero => simp at hy; subst hy; exact ⟨_, rfl, h⟩
    | succ i => simp at hy; simpa using ih hy

/-! ## Callbacks -/

/-- All registrations in order. -/
def regs (ins : Inputs) : List (String × Hook) :=
  (enumFrom 0 ins.users).filterMap (fun p => if p.2.2.1 = true then some (p.2.2.2, .overwrite p.1) else none) ++
  ins.buffers.filterMap fun p => p.2.2.map fun q => (q, .store p.1)

theorem setupHooks_eq (ins : Inputs) : setupHooks ins = (regs ins).foldl (fun d p => dictSet d p.1 p.2) [] := by
  unfold setupHooks regs
  rw [List.foldl_append, List.foldl_filterMap, List.foldl_filterMap]
  congr 1
  · funext d p
    cases p.2.2 <;> rfl
  · congr 1
    funext d p
    cases p.2.2.1 <;> rfl

theorem mem_regs {ins : Inputs} {name : String} {h : Hook} : (name, h) ∈ regs ins ↔ Registers ins name h := by
  unfold regs
  rw [List.mem_append, List.mem_filterMap, List.mem_filterMap]
  constructor
  · rintro (⟨p, hp, h⟩ | ⟨p, hp, h⟩)
    · obtain ⟨_, _, h3⟩ := mem_enumFrom hp
      split at h
      · rename_i e
        simp at h
        obtain ⟨rfl, rfl⟩ := h
        exact .user (by simpa using h3) e
      · cases h
    · cases hq : p.2.2 with
      | none => rw [hq] at h; cases h
      | some q =>
        rw [hq] at h
        simp at h
        obtain ⟨rfl, rfl⟩ := h
        exact .buffer hp hq
  · rintro (⟨hk, hu⟩ | ⟨hb, hq⟩)
    · rename_i k u
      exact Or.inl ⟨(k, u), by simpa using enumFrom_mem (n := 0) hk, by simp [hu]⟩
    · exact Or.inr ⟨_, hb, by simp [hq]⟩

theorem setupHooks_sound {ins : Inputs} {name : String} {h : Hook} (hg : dictGet (setupHooks ins) name = some h) :
    Registers ins name h := by
  rw [setupHooks_eq] at hg
  rcases foldl_dictSet_mem (fun (q : String × Hook) => q.1) (fun q => q.2) _ _ _ _ hg with h | ⟨q, hq, h1, h2⟩
  · cases h
  · subst h1; subst h2; exact mem_regs.mp hq

theorem setupHooks_complete {ins : Inputs} {name : String} {h : Hook} (hr : Registers ins name h)
    (hu : ∀ h', Registers ins name h' → h' = h) : dictGet (setupHooks ins) name = some h := by
  rw [setupHooks_eq]
  refine foldl_dictSet_all (fun (q : String × Hook) => q.1) (fun q => q.2) _ _ (Or.inr ⟨_, mem_regs.mpr hr, rfl⟩) ?_
  rintro ⟨n, h'⟩ hq rfl
  exact hu _ (mem_regs.mp hq)

/-- What is mutated by a registered callback. -/
inductive TargetOf (env : Env) (sig : Sig) : Hook → (String ⊕ String) → Prop
  | input {k : Nat} {name : String} : (sig.ins.filterMap userInput)[k]? = some name →
      TargetOf env sig (.overwrite k) (.inl name)
  | buffer {n : Nat} {name target : String} : (name, target) ∈ sig.ins.filterMap bufferInput →
      placeholderIdx env.nodes name = some n → TargetOf env sig (.store n) (.inr target)

theorem registers_sound {sig : Sig} {ins : Inputs}
    (hci : collectInputs env.nodes (mutatedUserInputs sig.outs) (bufferProducers sig.outs) sig.ins = .ok ins)
    {name : String} {h : Hook} (hr : Registers ins name h) :
    ∃ t, TargetOf env sig h t ∧ (t, name) ∈ sig.outs.filterMap mutation := by
  cases hr with
  | user hk hu =>
    rename_i k u
    obtain ⟨nm, h1, h2, h3, h4⟩ := forall₂_getElem?_right (collectInputs_users hci) hk
    rw [hu] at h3
    unfold dictMem at h3
    cases hd : dictGet (mutatedUserInputs sig.outs) nm with
    | none => rw [hd] at h3; cases h3
    | some p =>
      rw [hd] at h4
      refine ⟨.inl nm, .input h1, mem_mutation.mpr (Or.inl ⟨nm, rfl, ?_⟩)⟩
      rw [h4]
      exact mutatedUserInputs_sound hd
  | buffer hb hq =>
    rename_i b
    obtain ⟨i, hi⟩ := List.getElem?_of_mem hb
    obtain ⟨nt, h1, h2, h3⟩ := forall₂_getElem?_right (collectInputs_buffers hci) hi
    rw [hq] at h3
    exact ⟨.inr nt.2, .buffer (List.mem_of_getElem? h1) h2, mem_mutation.mpr (Or.inr ⟨_, rfl, bufferProducers_sound h3.symm⟩)⟩

theorem registers_complete {sig : Sig} {ins : Inputs} (hm : OwnProducers env sig)
    (hci : collectInputs env.nodes (mutatedUserInputs sig.outs) (bufferProducers sig.outs) sig.ins = .ok ins)
    {p : String} {h : Hook} {t : String ⊕ String} (ht : TargetOf env sig h t) (hp : (t, p) ∈ sig.outs.filterMap mutation) :
    Registers ins p h := by
  rcases mem_mutation.mp hp with ⟨i, rfl, hp'⟩ | ⟨i, rfl, hp'⟩
  · cases ht with
    | input hk =>
      obtain ⟨u, h1, h2, h3, h4⟩ := forall₂_getElem?_left (collectInputs_users hci) hk
      have hd := mutatedUserInputs_complete hm hp'
      rw [hd] at h4
      have e : u.2.2 = p := h4
      rw [← e]
      exact .user h1 (by rw [h3]; unfold dictMem; rw [hd]; rfl)
  · cases ht with
    | buffer hb hn =>
      obtain ⟨j, hj⟩ := List.getElem?_of_mem hb
      obtain ⟨b, h1, h2, h3⟩ := forall₂_getElem?_left (collectInputs_buffers hci) hj
      rw [hn] at h2
      cases h2
      exact .buffer (List.mem_of_getElem? h1) (by rw [h3]; exact bufferProducers_complete hm hp')

theorem placeholderIdx_name {nodes : List Node} {a b : String} {n : Nat} (h1 : placeholderIdx nodes a = some n)
    (h2 : placeholderIdx nodes b = some n) : a = b := by
  obtain ⟨x, g1, g2, _⟩ := placeholderIdx_spec h1
  obtain ⟨y, k1, k2, _⟩ := placeholderIdx_spec h2
  rw [g1] at k1; cases k1
  rw [← g2, ← k2]

/-- A callback has one target, and a target one callback. -/
theorem TargetOf.target_unique {sig : Sig} (hm : OwnProducers env sig) {h : Hook} {t t' : String ⊕ String}
    (h1 : TargetOf env sig h t) (h2 : TargetOf env sig h t') : t = t' := by
  cases h1 with
  | input hk => cases h2 with | input hk' => rw [hk] at hk'; cases hk'; rfl
  | buffer hb hn =>
    cases h2 with
    | buffer hb' hn' =>
      have e := placeholderIdx_name hn hn'
      subst e
      have := nodup_map_inj hm.buffers hb hb' rfl
      simp at this; rw [this]

theorem TargetOf.hook_unique {sig : Sig} (hm : OwnProducers env sig) {h h' : Hook} {t : String ⊕ String}
    (h1 : TargetOf env sig h t) (h2 : TargetOf env sig h' t) : h = h' := by
  cases h1 with
  | input hk =>
    cases h2 with
    | input hk' =>
      have h3 := List.getElem?_eq_some_iff.mp hk
      have h4 := List.getElem?_eq_some_iff.mp hk'
      obtain ⟨l1, e1⟩ := h3
      obtain ⟨l2, e2⟩ := h4
      rw [(List.Nodup.getElem_inj_iff hm.inputs).mp (e1.trans e2.symm)]
  | buffer hb hn =>
    cases h2 with
    | buffer hb' hn' =>
      have := nodup_map_inj hm.bufferTargets hb hb' rfl
      simp at this; subst this
      rw [hn] at hn'; cases hn'; rfl

/-! ## Nothing happens during set-up -/

theorem Step.quiet {s' : St} (hs : Step env sc s s') {p : Nat} {name : String} {h : Hook}
    (hreg : ∀ n, sc.hooks n h → n = name) (hun : ∀ r, NameIs env r name → r = .graph p)
    (hown : ∀ i, ¬ sc.own (.graph p) i) (hatr : ¬ IsAttr env (.graph p))
    (hf : (∀ n, dictGet s.hooks n = some h → n = name) ∧ hits h s.ops = []) :
    (∀ n, dictGet s'.hooks n = some h → n = name) ∧ hits h s'.ops = [] := by
  cases hs with
  | emit k operands tys hk ho => exact ⟨hf.1, by show hits h (s.ops ++ _) = _; rw [hits_append, hits_plain h hk, hf.2]; rfl⟩
  | bind r i name b hname ho hfr hho hb => exact hf
  | bindHook r i nm x h' hname ho hfr hho hb =>
    refine ⟨hf.1, ?_⟩
    show hits h (s.ops ++ _) = _
    rw [hits_append, hits_hookOp, if_neg, hf.2]; rfl
    intro e; subst e
    have e := hf.1 _ hho
    subst e
    have e := hun _ hname
    subst e
    rcases ho with ho | ho
    · exact hown _ ho
    · exact hatr ho.1
  | force r i n l tys ops x hu hl hfo => exact ⟨hf.1, by show hits h (s.ops ++ _) = _; rw [hits_append, hits_forced h hfo, hf.2]; rfl⟩
  | unpack r x tys hx hf' hl htys => exact ⟨hf.1, by show hits h (s.ops ++ _) = _; rw [hits_append, hits_plain h rfl, hf.2]; rfl⟩
  | multi r _ => exact hf
  | sym name x hf' hx => exact hf
  | hook nm h' hc _ =>
    refine ⟨fun n hn => ?_, hf.2⟩
    rw [dictGet_set] at hn
    split at hn
    · rename_i e; cases hn; exact e ▸ hreg _ hc
    · exact hf.1 n hn

theorem Reach.quiet {s' : St} (hs : Reach env sc s s') {p : Nat} {name : String} {h : Hook}
    (hreg : ∀ n, sc.hooks n h → n = name) (hun : ∀ r, NameIs env r name → r = .graph p)
    (hown : ∀ i, ¬ sc.own (.graph p) i) (hatr : ¬ IsAttr env (.graph p))
    (hf : (∀ n, dictGet s.hooks n = some h → n = name) ∧ hits h s.ops = []) :
    (∀ n, dictGet s'.hooks n = some h → n = name) ∧ hits h s'.ops = [] := by
  induction hs with
  | refl => exact hf
  | tail _ h' ih => exact h'.quiet hreg hun hown hatr ih

/-- A callback that is never registered never fires. -/
theorem Reach.no_hits {s' : St} (hs : Reach env sc s s') {h : Hook} (hreg : ∀ n, ¬ sc.hooks n h)
    (hf : ∀ n, dictGet s.hooks n ≠ some h) : (∀ n, dictGet s'.hooks n ≠ some h) ∧ hits h s'.ops = hits h s.ops := by
  induction hs with
  | refl => exact ⟨hf, rfl⟩
  | tail hr h' ih =>
    refine ⟨fun n hn => ?_, (h'.no_hits ih.1).trans ih.2⟩
    cases h' <;> first | exact ih.1 n hn | skip
    rename_i hc _
    rw [dictGet_set] at hn
    split at hn
    · cases hn; exact hreg _ hc
    · exact ih.1 n hn

/-! ## The main lemma -/

theorem oneResult_call {n : Node} (h : OneResult env n) : ∃ t args kwargs, n.op = .call t args kwargs := by
  unfold OneResult at h
  split at h
  · exact ⟨_, _, _, by assumption⟩
  · exact ⟨_, _, _, by assumption⟩
  · exact h.elim

/-- Every registered mutation is written back exactly once, with the value of its producer. -/
theorem mutation_written {sig : Sig} {sym : Bool} {symbols : List String} {f : Func} (hm : OwnProducers env sig)
    (h : importProgram env sig sym symbols = .ok f) {t : String ⊕ String} {p : String}
    (ht : (t, p) ∈ sig.outs.filterMap mutation) {hk : Hook} (hto : TargetOf env sig hk t) :
    ∃ i x, IsOutput env.nodes p i ∧ NodeIs f.final (.graph i) x ∧ hits hk f.final.ops = [x] := by
  obtain ⟨outs, ins, s1, s2, _, hci, _, _, _, hho, him, hp⟩ := importProgram_spec h
  obtain ⟨node, hmem, hname, hone⟩ := hm.single _ ht
  obtain ⟨i, hi⟩ := List.getElem?_of_mem hmem
  obtain ⟨tg, args, kwargs, hop⟩ := oneResult_call hone
  simp only at hname
  have hreg : Registers ins p hk := registers_complete hm hci hto ht
  -- only this producer has this callback, and it has no other
  have honly : ∀ n, Registers ins n hk → n = p := by
    intro n hr
    obtain ⟨t', h1, h2⟩ := registers_sound hci hr
    have e := hto.target_unique hm h1
    subst e
    have := nodup_map_inj hm.targets ht h2 rfl
    simp at this; exact this.symm
  have huniq : ∀ h', Registers ins p h' → h' = hk := by
    intro h' hr
    obtain ⟨t', h1, h2⟩ := registers_sound hci hr
    have := nodup_map_inj hm.producers ht h2 rfl
    simp at this; subst this
    exact (hto.hook_unique hm h1).symm
  have hatr : ¬ IsAttr env (.graph i) := by
    rintro ⟨n, t, h1, h2⟩
    have h1' : env.nodes[i]? = some n := h1
    rw [hi] at h1'; cases h1'
    rw [hop] at h2; cases h2
  have hun : ∀ r, NameIs env r p → r = .graph i := by
    intro r hr
    cases r with
    | graph j =>
      obtain ⟨n, h1, h2⟩ := hr
      rw [hm.names j i n node h1 hi (h2.trans hname.symm)]
    | temp j =>
      obtain ⟨q, e⟩ := hr
      exact absurd e (hm.notTemp _ ht q)
  have hnp : ¬ IsPlaceholder env i := by
    rintro ⟨n, h1, h2⟩
    rw [hi] at h1; cases h1
    rw [hop] at h2; cases h2
  have hprod : i ∈ producers env.nodes := mem_producers.mpr ⟨node, hi, by simp [isProducer, hop]⟩
  obtain ⟨w1, r1, _, w2, r2, ok, w3, r3, _⟩ := hp
    ⟨fun r i => ∃ n, r = .graph n ∧ IsPlaceholder env n ∧ i = 0, fun _ => False, Registers ins⟩
    (onlyIdx env i node) ⟨fun _ _ => False, fun _ => True, fun _ _ => False⟩
    ⟨fun n h => ⟨n, rfl, h, rfl⟩, fun _ _ h => h, fun _ h => h, fun _ _ _ hn => onlyIdx_node hi hn, fun _ _ => trivial⟩
  have hown1 : ∀ j, ¬ (∃ n, Ref.graph i = .graph n ∧ IsPlaceholder env n ∧ j = (0 : Int)) := by
    rintro j ⟨n, e, h, _⟩
    cases e; exact hnp h
  have q1 := r1.quiet honly hun hown1 hatr (by simp [St.init, hits]; cases hk <;> rfl)
  have f1 : FiredOk s1 i hk := Or.inl ⟨r1.frame (hown1 _) hatr (by simp [St.init]), q1.2⟩
  have hreg1 : dictGet s1.hooks node.name = some hk := by
    rw [hho, hname]; exact setupHooks_complete hreg huniq
  have honly1 : ∀ name, dictGet s1.hooks name = some hk → name = node.name := by
    intro name hn
    rw [hname]; exact q1.1 name hn
  -- the producer binds exactly index 0
  have hnode := ok i hprod node hi
  have hidx : (∀ j, (onlyIdx env i node).own (.graph i) j → j = 0) ∧ ∃ x, NodeIs s2 (.graph i) x := by
    have hc := hnode _ _ _ hop
    unfold OneResult at hone
    rw [hop] at hone
    cases tg with
    | getitem =>
      constructor
      · intro j hj
        obtain ⟨n, e, hn⟩ := hj rfl
        unfold ownIdx at hn
        rw [hop] at hn
        simp only at hn
        subst hn; exact e
      · obtain ⟨r, k, _, x, hx, _⟩ := hc
        exact ⟨x, hx⟩
    | overload sch =>
      obtain ⟨sch', args', kwargs', hcan, hlen⟩ := hone
      obtain ⟨sch'', o, hs, hfor, hres, _⟩ := hc _ _ _ hcan
      have hl := hlen _ (schemaFor_of_pick hs)
      rw [← resultTys_eq] at hl
      constructor
      · intro j hj
        by_contra hne
        refine onlyIdx_not hop hcan hs ?_ hj
        omega
      · have h1 := hres.length_eq
        obtain ⟨y, hy⟩ : ∃ y, o.results[0]? = some y := ⟨_, List.getElem?_eq_getElem (by omega)⟩
        exact ⟨y, hfor.results 0 y hy⟩
    | _ => exact hone.elim
  obtain ⟨hidx, x, hx⟩ := hidx
  have f2 := r2.fired ⟨hi, hreg1, honly1, by rw [hname]; exact hun, hidx, hatr⟩ (fun _ _ h => h) f1
  have e2 := r2.hooks_eq (fun _ _ h => h)
  have f3 := r3.fired ⟨hi, by rw [e2]; exact hreg1, by rw [e2]; exact honly1, by rw [hname]; exact hun,
    fun _ h => h.elim, hatr⟩ (fun _ _ h => h) f2
  have hx3 : NodeIs f.final (.graph i) x := NodeIs.mono r3.ext hx
  refine ⟨i, x, ⟨node, hi, hname, Or.inr ⟨_, _, _, hop⟩, ?_⟩, hx3, ?_⟩
  · rintro j m hj hjm ⟨e, _⟩
    have := hm.names j i m node hjm hi (e.trans hname.symm)
    omega
  · unfold NodeIs at hx3
    rcases f3 with ⟨h1, _⟩ | ⟨y, h1, h2⟩
    · rw [h1] at hx3; cases hx3
    · rw [h1] at hx3; cases hx3; exact h2

/-- What is not mutated is not written. -/
theorem not_written {sig : Sig} {sym : Bool} {symbols : List String} {f : Func}
    (h : importProgram env sig sym symbols = .ok f) {hk : Hook}
    (ht : ∀ t, TargetOf env sig hk t → ∀ p, (t, p) ∉ sig.outs.filterMap mutation) : hits hk f.final.ops = [] := by
  obtain ⟨outs, ins, s1, s2, _, hci, _, _, _, hho, him, hp⟩ := importProgram_spec h
  obtain ⟨w1, r1, _, w2, r2, ok, w3, r3, _⟩ := hp ⟨fun _ _ => True, fun _ => False, Registers ins⟩ freeScope freeScope
    ⟨fun _ _ => trivial, fun _ _ h => h, fun _ h => h, fun _ _ _ _ => freeScope_node, fun _ _ => trivial⟩
  have q1 := r1.no_hits (h := hk) (fun n hr => by
    obtain ⟨t, h1, h2⟩ := registers_sound hci hr
    exact ht t h1 _ h2) (by simp [St.init])
  have q2 := r2.no_hits (h := hk) (fun _ h => h) q1.1
  have q3 := r3.no_hits (h := hk) (fun _ h => h) q2.1
  rw [q3.2, q2.2, q1.2]
  cases hk <;> rfl

/-! ## Module attributes -/

/-- Keys of the form `(str, int)` are never bound. -/
theorem noStr {sc : Scope} {s s' : St} (h : Reach env sc s s') (hs : ∀ t i, dictGet s.v (.str t i) = none) :
    ∀ t i, dictGet s'.v (.str t i) = none := by
  induction h with
  | refl => exact hs
  | tail _ h ih =>
    intro t i
    cases h <;> exact ih t i

end Verif.Fx
