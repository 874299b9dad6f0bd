import Verif.Lemmas.FxGood
import Verif.Lemmas.While

/-!
# Importing one node, a list of nodes, and whole programs
-/

namespace Verif.Fx
open Spec

variable {env : Env} {sc : Scope} {nA : Nat} {s : St} {α β : Type}

theorem mem_enumFrom {γ : Type} {n : Nat} {l : List γ} {p : Nat × γ} (h : p ∈ enumFrom n l) :
    n ≤ p.1 ∧ p.1 < n + l.length ∧ l[p.1 - n]? = some p.2 := by
  induction l generalizing n with
  | nil => simp [enumFrom] at h
  | cons x xs ih =>
    simp only [enumFrom, List.mem_cons] at h
    rcases h with rfl | h
    · simp
    · obtain ⟨h1, h2, h3⟩ := ih h
      refine ⟨by omega, by simp; omega, ?_⟩
      have : p.1 - n = (p.1 - (n + 1)) + 1 := by omega
      rw [this]; simpa using h3

theorem enumFrom_mem {γ : Type} {n : Nat} {l : List γ} {j : Nat} {x : γ} (h : l[j]? = some x) :
    (n + j, x) ∈ enumFrom n l := by
  induction l generalizing n j with
  | nil => simp at h
  | cons y ys ih =>
    cases j with
    | zero => simp at h; subst h; simp [enumFrom]
    | succ j =>
      simp at h
      have := ih (n := n + 1) h
      simp only [enumFrom, List.mem_cons]
      right
      have e : n + 1 + j = n + (j + 1) := by omega
      rw [← e]; exact this

theorem enumFrom_getElem? {γ : Type} (n : Nat) (l : List γ) (j : Nat) :
    (enumFrom n l)[j]? = (l[j]?).map fun x => (n + j, x) := by
  induction l generalizing n j with
  | nil => simp [enumFrom]
  | cons x xs ih =>
    cases j with
    | zero => simp [enumFrom]
    | succ j =>
      simp only [enumFrom, List.getElem?_cons_succ, ih]
      congr 1; funext y; congr 1; omega

theorem enumFrom_length {γ : Type} (n : Nat) (l : List γ) : (enumFrom n l).length = l.length := by
  induction l generalizing n with
  | nil => rfl
  | cons x xs ih => simp [enumFrom, ih]

theorem Good.bindResults {name : String} {r : Ref} {off : Nat} {xs : List Nat} (hw : WF nA s)
    (hname : NameIs env r name) (hown : ∀ j, off ≤ j → j < off + xs.length → sc.own r j)
    (hx : ∀ x ∈ xs, x < s.tys.length) :
    Good env sc s (bindResults env name r off xs) (fun _ t =>
      ∀ j y, xs[j]? = some y → dictGet t.v (.ref r ((off + j : Nat) : Int)) = some (.val y)) := by
  unfold Fx.bindResults
  refine Good.bind hw (Good.mapM' (P := fun (p : Nat × Nat) _ t => dictGet t.v (.ref r (p.1 : Int)) = some (.val p.2))
    (fun x y t t' h hp => h.v _ _ hp) _ s hw ?_) fun ys t wt rt h => ?_
  · intro p hp t wt ht
    obtain ⟨h1, h2, h3⟩ := mem_enumFrom hp
    have := ht.len
    have := hx _ (List.mem_of_getElem? h3)
    exact (Good.bindNodeValue (b := .val p.2) wt hname (Or.inl (hown _ h1 h2)) (by show p.2 < _; omega)).weaken fun _ _ _ h => h.1
  · refine Good.pure fun j y hj => ?_
    have hm := enumFrom_mem (n := off) hj
    obtain ⟨i, hi, hi'⟩ := List.mem_iff_getElem.mp hm
    have hl := h.length_eq
    have := List.Forall₂.get h hi (by omega)
    simp only [List.get_eq_getElem, hi'] at this
    exact this

theorem Good.addMultiIf {b : Bool} {r : Ref} (ho : b = true → sc.own r 1) :
    Good env sc s (addMultiIf b r) (fun _ t => b = true → r ∈ t.multi) := by
  intro a s' h
  unfold Fx.addMultiIf at h
  cases b with
  | true => cases h; exact ⟨.single (.multi r (ho rfl)), by simp⟩
  | false => cases h; exact ⟨.refl, by simp⟩

theorem Forall₂.getElem? {γ δ : Type} {P : γ → δ → Prop} {l : List γ} {m : List δ} (h : List.Forall₂ P l m)
    {i : Nat} {x : γ} {y : δ} (hx : l[i]? = some x) (hy : m[i]? = some y) : P x y := by
  induction h generalizing i with
  | nil => simp at hx
  | cons h _ ih =>
    cases i with
    | zero => simp at hx hy; subst hx; subst hy; exact h
    | succ i => simp at hx hy; exact ih hx hy

/-- Outcome of importing an op call. -/
def OpOk (env : Env) (r : Ref) (valTy : VTy) (valTys : List VTy) (schema : Schema) (args : List Arg)
    (kwargs : List (String × Arg)) (t : St) : Prop :=
  ∃ sch o, pickSchema env schema args = .ok sch ∧ OpFor t r sch args kwargs o ∧
    ResultsAre t (resultTys sch valTy valTys) o ∧ (1 < o.results.length → r ∈ t.multi)

theorem ResultsAre.mono {t t' : St} (h : Ext t t') {tys : List VTy} {o : Op} (hr : ResultsAre t tys o) :
    ResultsAre t' tys o := by
  refine List.Forall₂.imp (fun y ty hy => ?_) hr
  obtain ⟨l, e⟩ := h.tys
  rw [e, List.getElem?_append_left (List.getElem?_eq_some_iff.mp hy).1]
  exact hy

theorem resultTys_eq (sch : Schema) (n : Node) : resultTys sch n.valTy n.valTys = resultTypes sch n := by
  unfold resultTys resultTypes
  split
  · rename_i h; simp [h]
  · split
    · rename_i h; simp [h]
    · split <;> simp_all

theorem Good.importOp {name : String} {r : Ref} {valTy : VTy} {valTys : List VTy} {schema : Schema}
    {args : List Arg} {kwargs : List (String × Arg)} (hw : WF nA s) (hname : NameIs env r name)
    (hown : ∀ sch, pickSchema env schema args = .ok sch → ∀ j, j < (resultTys sch valTy valTys).length →
      sc.own r (j : Int))
    (hu : ∀ x ∈ callRefs args kwargs, sc.uses x) :
    Good env sc s (importOp env name r valTy valTys schema args kwargs)
      (fun _ t => OpOk env r valTy valTys schema args kwargs t) := by
  unfold Fx.importOp
  refine Good.bind_guard hw fun _ => Good.bind_lift hw fun sch hs => ?_
  refine Good.bind hw (Good.addMultiIf fun hb => by
    simp only [decide_eq_true_eq] at hb; exact hown sch hs 1 hb) fun _ t1 w1 r1 h1 => ?_
  refine Good.bind w1 (Good.mapM' (P := fun ip x t => OperandIs' t args kwargs ip x)
    (fun x y t t' h hp => OperandIs'.mono h hp) _ t1 w1 ?_) fun operands t2 w2 r2 h2 => ?_
  · intro ip hip t wt _
    exact Good.importParam wt hu
  refine Good.bind w2 (Good.emit rfl (forall₂_right h2 fun _ _ h => h.1)) fun results t3 w3 r3 h3 => ?_
  obtain ⟨hlen, hlt, hop, _, hmu, hty⟩ := h3
  refine (Good.bindResults w3 hname (fun j _ hj => hown sch hs j (by omega)) hlt).weaken fun _ t4 r4 h4 => ?_
  have he : Ext t2 t4 := r3.ext.trans r4.ext
  refine ⟨sch, ⟨.torchOp sch.opName, operands, results⟩, hs, ⟨r4.ext.mem hop, rfl, ?_, ?_, ?_⟩, ResultsAre.mono r4.ext hty, ?_⟩
  · have := h2.length_eq
    rw [enumFrom_length] at this
    exact this.symm
  · intro i p x hp hx
    have := Forall₂.getElem? h2 (x := (i, p)) (by rw [enumFrom_getElem?, hp]; simp) hx
    exact (OperandIs'.mono he this).operandIs
  · intro i y hy
    have := h4 i y hy
    simpa using this
  · intro hl
    have hb : decide ((resultTys sch valTy valTys).length > 1) = true := by
      simp only [decide_eq_true_eq]; simp only at hl; omega
    exact he.multi _ (r2.ext.multi _ (h1 hb))

/-! ## Scopes of a single node -/

/-- Result indices that importing a node may bind. -/
def ownIdx (env : Env) (node : Node) (j : Nat) : Prop :=
  match node.op with
  | .call (.overload sch) args kwargs => ∀ sch' args' kwargs' sch'',
      env.canon sch args kwargs = .ok (some (sch', args', kwargs')) → pickSchema env sch' args' = .ok sch'' →
      j < (resultTys sch'' node.valTy node.valTys).length
  | .call .getitem _ _ => j = 0
  | .placeholder => j = 0
  | _ => True

/-- What importing node `i` may bind and dereference. -/
structure NodeScope (env : Env) (sc : Scope) (i : Nat) (node : Node) : Prop where
  self : node.syms.isSome = true → sc.uses (.graph i)
  temp : sc.uses (.temp i)
  ownTemp : ∀ j : Nat, sc.own (.temp i) j
  own : ∀ j : Nat, ownIdx env node j → sc.own (.graph i) j
  refs : ∀ r ∈ nodeRefs node, sc.uses r
  canon : ∀ sch args kwargs, node.op = .call (.overload sch) args kwargs → ∀ sch' args' kwargs',
    env.canon sch args kwargs = .ok (some (sch', args', kwargs')) →
    (∀ r ∈ args'.flatMap argRefs, sc.uses r) ∧ (∀ r ∈ kwargs'.flatMap (fun p => argRefs p.2), sc.uses r)

theorem callRefs_uses {args : List Arg} {kwargs : List (String × Arg)}
    (h1 : ∀ r ∈ args.flatMap argRefs, sc.uses r) (h2 : ∀ r ∈ kwargs.flatMap (fun p => argRefs p.2), sc.uses r) :
    ∀ r ∈ callRefs args kwargs, sc.uses r := by
  intro r hr
  rcases List.mem_append.mp hr with hr | hr
  · exact h1 r hr
  · exact h2 r hr

theorem importInput_unpack {n : Nat} {l : Lit} {x : Nat} {t : St} (h : importInput env n l s = .ok (x, t)) :
    t.unpack = s.unpack := by
  unfold importInput at h
  cases hl : env.loadsInput n with
  | true => rw [if_pos hl] at h; cases h; rfl
  | false =>
    rw [if_neg (by simp [hl])] at h
    cases l with
    | tensor obj b => cases b <;> (cases h; rfl)
    | enum c => cases c <;> cases h; rfl
    | unsupported => cases h
    | _ => cases h; rfl

theorem resolve_unpack {r : Ref} {i : Int} {x : Nat} {t : St} (h : resolveNodeValue env r i s = .ok (x, t)) :
    t.unpack = s.unpack := by
  unfold resolveNodeValue at h
  obtain ⟨_, _, h1, h⟩ := M.bind_ok.mp h
  cases h1
  cases hv : dictGet s.v (.ref r i) with
  | none => rw [hv] at h; cases h
  | some b =>
    rw [hv] at h
    cases b with
    | val y => cases h; rfl
    | none => cases h
    | «lazy» n l =>
      obtain ⟨y, t', h1, h⟩ := M.bind_ok.mp h
      have e := importInput_unpack h1
      obtain ⟨_, _, h1, h⟩ := M.bind_ok.mp h
      cases h1; cases h; exact e

theorem Good.unpackList {r : Ref} (hw : WF nA s) (hu : sc.uses r) :
    Good env sc s (unpackList env r) (fun _ _ => True) := by
  unfold Fx.unpackList
  refine Good.bind_get hw ?_
  split
  · exact Good.pure trivial
  · rename_i hnone
    have : ∀ t, WF nA t → dictGet t.unpack r = none → ∀ x, x < t.tys.length → dictGet t.v (.ref r 0) = some (.val x) →
        Good env sc t (do
          let s ← MonadState.get
          match (s.tys[x]?).getD .other with
          | .list _ _ => do
            let ys ← Fx.emit .listUnpack [x] (match nodeOf env r with | some n => n.valTys | none => [])
            modify fun s => { s with unpack := dictSet s.unpack r ys }
          | _ => Pure.pure ()) (fun _ _ => True) := by
      intro t wt hn x hx hv
      refine Good.bind_get wt ?_
      split
      · exact Good.of_step rfl (.single (.unpack r x _ hv hn hx fun n hn' => by rw [hn'])) trivial
      · exact Good.pure trivial
    -- resolving does not touch the unpack table
    intro a s' h
    obtain ⟨x, t, h1, h2⟩ := M.bind_ok.mp h
    obtain ⟨r1, hx, hv⟩ := (Good.resolve (env := env) (sc := sc) hw hu) x t h1
    have hun : t.unpack = s.unpack := resolve_unpack h1
    obtain ⟨r2, _⟩ := this t (r1.wf hw) (by rw [hun]; exact hnone) x hx hv a s' h2
    exact ⟨r1.trans r2, trivial⟩

/-- Outcome of `getitem`. -/
def ItemOk (i : Nat) (r : Ref) (k : Int) (t : St) : Prop :=
  ∃ x, dictGet t.v (.ref (.graph i) 0) = some (.val x) ∧
    ((r ∈ t.multi ∧ dictGet t.v (.ref r k) = some (.val x)) ∨
     ∃ ys, dictGet t.unpack r = some ys ∧ pyGet ys k = .ok x)

/-- Outcome of `getitem` from state `s`. -/
def ItemFrom (s : St) (i : Nat) (r : Ref) (k : Int) (t : St) : Prop :=
  ∃ x, dictGet t.v (.ref (.graph i) 0) = some (.val x) ∧
    ((r ∈ s.multi ∧ (dictGet s.v (.ref r k)).isSome = true ∧ r ∈ t.multi ∧ dictGet t.v (.ref r k) = some (.val x)) ∨
     (r ∉ s.multi ∧ ((dictGet s.v (.ref r 0)).isSome = true ∨ (dictGet s.unpack r).isSome = true) ∧
       ∃ ys, dictGet t.unpack r = some ys ∧ pyGet ys k = .ok x))

theorem ItemFrom.ok {s : St} {i : Nat} {r : Ref} {k : Int} {t : St} (h : ItemFrom s i r k t) : ItemOk i r k t := by
  obtain ⟨x, h1, h2⟩ := h
  refine ⟨x, h1, ?_⟩
  rcases h2 with ⟨_, _, h3, h4⟩ | ⟨_, _, h3⟩
  · exact Or.inl ⟨h3, h4⟩
  · exact Or.inr h3

theorem resolve_bound {r : Ref} {i : Int} {x : Nat} {t : St} (h : resolveNodeValue env r i s = .ok (x, t)) :
    (dictGet s.v (.ref r i)).isSome = true := by
  unfold resolveNodeValue at h
  obtain ⟨_, _, h1, h⟩ := M.bind_ok.mp h
  cases h1
  cases hv : dictGet s.v (.ref r i) with
  | none => rw [hv] at h; cases h
  | some b => rfl

theorem unpackList_bound {r : Ref} {t : St} (h : unpackList env r s = .ok ((), t)) :
    (dictGet s.v (.ref r 0)).isSome = true ∨ (dictGet s.unpack r).isSome = true := by
  unfold unpackList at h
  obtain ⟨_, _, h1, h⟩ := M.bind_ok.mp h
  cases h1
  cases hu : dictGet s.unpack r with
  | some ys => exact Or.inr rfl
  | none =>
    rw [hu] at h
    obtain ⟨x, t', h1, h⟩ := M.bind_ok.mp h
    exact Or.inl (resolve_bound h1)

theorem Good.with {α : Type} {m : M α} {Q R : α → St → Prop} (h : Good env sc s m Q)
    (hr : ∀ a t, m s = .ok (a, t) → R a t) : Good env sc s m (fun a t => Q a t ∧ R a t) := by
  intro a t ht
  obtain ⟨h1, h2⟩ := h a t ht
  exact ⟨h1, h2, hr a t ht⟩

theorem Good.importGetitem {i : Nat} {node : Node} {args : List Arg} (hw : WF nA s)
    (hn : env.nodes[i]? = some node) (hown : sc.own (.graph i) 0) (hu : ∀ r ∈ args.flatMap argRefs, sc.uses r) :
    Good env sc s (importGetitem env i node args)
      (fun _ t => ∃ r k, args = [.node r, .lit (.int k)] ∧ ItemFrom s i r k t) := by
  unfold Fx.importGetitem
  have hname : NameIs env (.graph i) node.name := ⟨node, hn, rfl⟩
  split
  · rename_i r k
    have hur : sc.uses r := hu r (by simp [argRefs])
    refine Good.bind_get hw ?_
    split
    · rename_i hm
      refine Good.bind hw ((Good.resolve hw hur).with fun _ _ h => resolve_bound h) fun x t wt rt hx => ?_
      refine (Good.bindNodeValue (b := .val x) wt hname (Or.inl hown) hx.1.1).weaken fun _ t' r' h => ?_
      exact ⟨r, k, rfl, x, h.1, Or.inl ⟨by simpa using hm, hx.2, (rt.ext.trans r'.ext).multi _ (by simpa using hm), r'.ext.v _ _ hx.1.2⟩⟩
    · rename_i hm
      refine Good.bind hw ((Good.unpackList hw hur).with fun _ _ h => unpackList_bound h) fun _ t wt rt hb => ?_
      unfold bindUnpacked
      refine Good.bind_get wt ?_
      split
      · exact Good.raise
      · rename_i ys hys
        split
        · exact Good.raise
        · rename_i y hy
          have hlt : y < t.tys.length := by
            obtain ⟨n, hn, _⟩ := pyGet_ok_iff.mp hy
            exact wt.unpack r ys hys y (List.mem_of_getElem? hn)
          refine (Good.bindNodeValue (b := .val y) wt hname (Or.inl hown) hlt).weaken fun _ t' r' h => ?_
          exact ⟨r, k, rfl, y, h.1, Or.inr ⟨by simpa using hm, hb.2, ys, r'.ext.unpack _ _ hys, hy⟩⟩
  · exact Good.raise

/-- `b` is what the int argument `a` of a builtin is replaced with. -/
def Promoted (env : Env) (i : Nat) (a b : Arg) (t : St) : Prop :=
  (∃ r, a = .node r ∧ b = .node (.temp i) ∧ OpOk env (.temp i) .float [] env.floatScalar [.node r] [] t) ∨
  ∃ k : Int, a = .lit (.int k) ∧ b = .lit (.float k)

theorem Good.promoteArg {i : Nat} {a : Arg} (hw : WF nA s) (htemp : ∀ j : Nat, sc.own (.temp i) j)
    (hu : ∀ r ∈ argRefs a, sc.uses r) :
    Good env sc s (promoteArg env i a) (fun b t => Promoted env i a b t ∧ ∀ r ∈ argRefs b, r = .temp i) := by
  unfold Fx.promoteArg
  split
  · rename_i r
    unfold promoteToFloat
    refine Good.bind hw (Good.importOp hw ⟨_, rfl⟩ (fun _ _ j _ => htemp j) ?_) fun _ t wt rt h =>
      Good.pure ⟨Or.inl ⟨r, rfl, rfl, h⟩, by intro r' hr; simpa [argRefs] using hr⟩
    exact callRefs_uses (by intro x hx; apply hu x; simpa using hx) (by simp)
  · exact Good.pure ⟨Or.inr ⟨_, rfl, rfl⟩, by simp [argRefs]⟩
  · exact Good.raise

/-- Overload and arguments chosen for a builtin. -/
inductive Chosen (env : Env) (i : Nat) (name : String) (args : List Arg) (t : St) : String → List Arg → Prop
  | ints : (∀ a ∈ args, argPyTy env a = .int) → Chosen env i name args t "int" args
  | floats : (∀ a ∈ args, argPyTy env a ≠ .int) → Chosen env i name args t "float" args
  | mixed (a0 a1 : Arg) : args = [a0, a1] → name ∈ ["add", "lt", "ge", "ne", "gt"] →
      (argPyTy env a0 = .int ↔ argPyTy env a1 ≠ .int) →
      Chosen env i name args t "float_int" (if argPyTy env a1 = .float then [a1, a0] else [a0, a1])
  | left (a0 a1 b : Arg) : args = [a0, a1] → name ∉ ["add", "lt", "ge", "ne", "gt"] →
      argPyTy env a0 = .int → argPyTy env a1 ≠ .int → Promoted env i a0 b t →
      Chosen env i name args t "float" [b, a1]
  | right (a0 a1 b : Arg) : args = [a0, a1] → name ∉ ["add", "lt", "ge", "ne", "gt"] →
      argPyTy env a0 ≠ .int → argPyTy env a1 = .int → Promoted env i a1 b t →
      Chosen env i name args t "float" [a0, b]

theorem AdaptIs.mono_wf {t t' : St} (h : Ext t t') {y ty x} (hx : y < t.tys.length) (hd : AdaptIs t y ty x) :
    AdaptIs t' y ty x := AdaptIs.mono h hx hd

theorem RawIs.lt {t : St} (hw : WF nA t) {a ty y} (h : RawIs t a ty y) : y < t.tys.length := by
  have hres : ∀ o ∈ t.ops, ∀ x ∈ o.results, x < t.tys.length := by
    intro o ho x hx
    have : x ∈ t.ops.flatMap (·.results) := List.mem_flatMap.mpr ⟨o, ho, hx⟩
    rw [hw.results, List.mem_range'_1] at this
    have := hw.len
    omega
  have hdef : ∀ x k l, Defines t.ops x k l → x < t.tys.length := fun x k l h => hres _ h x (by simp)
  have hsc : ∀ l x, ScalarIs t.ops l x → x < t.tys.length := by
    intro l x h
    unfold ScalarIs at h
    split at h <;> first | exact hdef _ _ _ h | exact h.elim
  unfold RawIs at h
  split at h
  · exact hw.vals _ _ h
  · obtain ⟨ys, h1, _⟩ := h; exact hdef _ _ _ h1
  · exact h.elim
  · split at h
    · obtain ⟨_, _, h1⟩ := h; exact hdef _ _ _ h1
    · unfold LitIs at h
      split at h
      · obtain ⟨_, _, _, _, h1⟩ := h; exact hdef _ _ _ h1
      · exact hsc _ _ h

theorem OpFor.mono {t t' : St} (hw : WF nA t) (h : Ext t t') {r sch args kwargs o} (ho : OpFor t r sch args kwargs o) :
    OpFor t' r sch args kwargs o := by
  refine ⟨h.mem ho.emitted, ho.kind, ho.arity, ?_, fun i y hy => h.v _ _ (ho.results i y hy)⟩
  intro i p x hp hx
  obtain ⟨a, e, hpass, hv⟩ := ho.operands i p x hp hx
  refine ⟨a, e, hpass, ?_⟩
  split at hv
  · rename_i he
    rw [if_pos he]
    obtain ⟨y, h1, h2⟩ := hv
    exact ⟨y, RawIs.mono h h1, AdaptIs.mono h (RawIs.lt hw h1) h2⟩
  · rename_i he
    rw [if_neg he]
    exact DefaultIs.mono h hv

theorem OpOk.mono {t t' : St} (hw : WF nA t) (h : Ext t t') {r valTy valTys sch args kwargs}
    (ho : OpOk env r valTy valTys sch args kwargs t) : OpOk env r valTy valTys sch args kwargs t' := by
  obtain ⟨sch', o, h1, h2, h3, h4⟩ := ho
  exact ⟨sch', o, h1, OpFor.mono hw h h2, ResultsAre.mono h h3, fun hl => h.multi _ (h4 hl)⟩

theorem Promoted.mono {t t' : St} (hw : WF nA t) (h : Ext t t') {i a b} (hp : Promoted env i a b t) :
    Promoted env i a b t' := by
  rcases hp with ⟨r, h1, h2, h3⟩ | hp
  · exact Or.inl ⟨r, h1, h2, OpOk.mono hw h h3⟩
  · exact Or.inr hp

theorem Chosen.mono {t t' : St} (hw : WF nA t) (h : Ext t t') {i name args ov args'}
    (hc : Chosen env i name args t ov args') : Chosen env i name args t' ov args' := by
  cases hc with
  | ints h1 => exact .ints h1
  | floats h1 => exact .floats h1
  | mixed a0 a1 h1 h2 h3 => exact .mixed a0 a1 h1 h2 h3
  | left a0 a1 b h1 h2 h3 h4 h5 => exact .left a0 a1 b h1 h2 h3 h4 (h5.mono hw h)
  | right a0 a1 b h1 h2 h3 h4 h5 => exact .right a0 a1 b h1 h2 h3 h4 (h5.mono hw h)

theorem Good.builtinArgs {i : Nat} {name : String} {args : List Arg} (hw : WF nA s)
    (htemp : ∀ j : Nat, sc.own (.temp i) j) (hut : sc.uses (.temp i))
    (hu : ∀ r ∈ args.flatMap argRefs, sc.uses r) :
    Good env sc s (builtinArgs env i name args) (fun p t => Chosen env i name args t p.1 p.2 ∧
      ∀ r ∈ p.2.flatMap argRefs, sc.uses r) := by
  unfold Fx.builtinArgs
  simp only
  split
  · rename_i hall
    refine Good.pure ⟨.ints ?_, hu⟩
    simpa using hall
  · rename_i hall
    split
    · rename_i hany
      split
      · rename_i a0 a1 _ t1 htys
        simp only [List.map_cons, List.map_nil, List.cons.injEq] at htys
        obtain ⟨_, rfl, _⟩ := htys
        have hx : argPyTy env a0 = .int ↔ argPyTy env a1 ≠ .int := by
          simp at hall hany
          constructor
          · exact hall
          · intro h; rcases hany with h' | h'
            · exact h'
            · exact absurd h' h
        simp only [List.flatMap_cons, List.flatMap_nil, List.append_nil, List.mem_append] at hu
        split
        · rename_i hname
          refine Good.pure ⟨.mixed a0 a1 rfl (by simpa using hname) hx, ?_⟩
          intro r hr
          split at hr <;> simp at hr <;> rcases hr with hr | hr <;>
            first | exact hu r (Or.inl hr) | exact hu r (Or.inr hr)
        · rename_i hname
          split
          · rename_i hi
            have hi : argPyTy env a0 = .int := by simpa using hi
            refine Good.bind hw (Good.promoteArg hw htemp fun r hr => hu r (Or.inl hr)) fun b t wt rt hb => ?_
            refine Good.pure ⟨.left a0 a1 b rfl (by simpa using hname) hi (hx.mp hi) hb.1, ?_⟩
            intro r hr
            simp at hr
            rcases hr with hr | hr
            · rw [hb.2 r hr]; exact hut
            · exact hu r (Or.inr hr)
          · rename_i hi
            have hi : argPyTy env a0 ≠ .int := by simpa using hi
            have hi1 : argPyTy env a1 = .int := by
              cases h : argPyTy env a1 <;> first | rfl | exact absurd (hx.mpr (by simp [h])) hi
            refine Good.bind hw (Good.promoteArg hw htemp fun r hr => hu r (Or.inr hr)) fun b t wt rt hb => ?_
            refine Good.pure ⟨.right a0 a1 b rfl (by simpa using hname) hi hi1 hb.1, ?_⟩
            intro r hr
            simp at hr
            rcases hr with hr | hr
            · exact hu r (Or.inl hr)
            · rw [hb.2 r hr]; exact hut
      · exact Good.raise
    · rename_i hany
      exact Good.pure ⟨.floats (by simpa using hany), hu⟩

/-- Outcome of a builtin or symbolic operation on scalars. -/
def SymbolicOk (env : Env) (i : Nat) (node : Node) (t : Target) (args : List Arg)
    (kwargs : List (String × Arg)) (s : St) : Prop :=
  match t with
  | .builtin name => ∃ ov args' sch, Chosen env i name args s ov args' ∧ env.builtinOp name ov = some sch ∧
      OpOk env (.graph i) node.valTy node.valTys sch args' kwargs s
  | .symbolic name => ∃ sch, env.symbolicOp name = some sch ∧
      OpOk env (.graph i) node.valTy node.valTys sch args kwargs s
  | _ => True

theorem Good.importSymbolic {i : Nat} {node : Node} {t : Target} {args : List Arg}
    {kwargs : List (String × Arg)} (hw : WF nA s) (hn : env.nodes[i]? = some node)
    (hown : ∀ j : Nat, sc.own (.graph i) j) (htemp : ∀ j : Nat, sc.own (.temp i) j) (hut : sc.uses (.temp i))
    (hu : ∀ r ∈ args.flatMap argRefs, sc.uses r) (huk : ∀ r ∈ kwargs.flatMap (fun p => argRefs p.2), sc.uses r) :
    Good env sc s (importSymbolic env i node t args kwargs) (fun _ s' => SymbolicOk env i node t args kwargs s') := by
  have hname : NameIs env (.graph i) node.name := ⟨node, hn, rfl⟩
  unfold Fx.importSymbolic SymbolicOk
  split
  · refine Good.bind hw (Good.builtinArgs hw htemp hut hu) fun p t wt rt hp => ?_
    obtain ⟨ov, args'⟩ := p
    simp only
    split
    · exact Good.raise
    · rename_i sch hsch
      exact (Good.importOp wt hname (fun _ _ j _ => hown j) (callRefs_uses hp.2 huk)).weaken fun _ t' r' h =>
        ⟨ov, args', sch, Chosen.mono wt r'.ext hp.1, hsch, h⟩
  · split
    · exact Good.raise
    · rename_i sch hsch
      exact (Good.importOp hw hname (fun _ _ j _ => hown j) (callRefs_uses hu huk)).weaken fun _ _ _ h =>
        ⟨sch, hsch, h⟩
  · exact Good.raise

theorem SymbolicOk.mono {t t' : St} (hw : WF nA t) (h : Ext t t') {i node tg args kwargs}
    (ho : SymbolicOk env i node tg args kwargs t) : SymbolicOk env i node tg args kwargs t' := by
  unfold SymbolicOk at ho ⊢
  split
  · obtain ⟨ov, args', sch, h1, h2, h3⟩ := ho
    exact ⟨ov, args', sch, Chosen.mono hw h h1, h2, OpOk.mono hw h h3⟩
  · obtain ⟨sch, h2, h3⟩ := ho
    exact ⟨sch, h2, OpOk.mono hw h h3⟩
  · trivial

theorem Good.hopFunc {a : Arg} : Good env sc s (hopFunc env a) (fun f t => t = s ∧ FuncIs env a f) := by
  unfold Fx.hopFunc
  split
  · split
    · rename_i n hn
      split
      · rename_i tg hop
        split
        · rename_i f hf
          exact Good.pure ⟨rfl, _, n, tg, rfl, hn, hop, hf⟩
        · exact Good.raise
      · exact Good.raise
    · exact Good.raise
  · exact Good.raise

theorem Good.importArgument_lt {a : Arg} {ty : Option JitTy} (hw : WF nA s) (hu : ∀ r ∈ argRefs a, sc.uses r) :
    Good env sc s (Fx.importArgument env a ty) (fun x t => x < t.tys.length) :=
  (Good.importArgument hw hu).weaken fun _ _ _ h => h.1

/-- `x` is the value of `a`. -/
def CarryIs (a : Arg) (x : Nat) (t : St) : Prop := ArgIs' t a none x

theorem CarryIs.mono {t t' : St} (h : Ext t t') {a : Arg} {x : Nat} (hc : CarryIs a x t) : CarryIs a x t' :=
  ArgIs'.mono h hc

theorem Good.importCarry {a : Arg} (hw : WF nA s) (hu : ∀ r ∈ argRefs a, sc.uses r) :
    Good env sc s (importCarry env a) (fun xs t => List.Forall₂ (fun a x => CarryIs a x t) (flatCarries [a]) xs) := by
  unfold Fx.importCarry
  split
  · rename_i xs
    refine (Good.mapM' (P := fun e y t => CarryIs (elemArg e) y t)
      (fun x y t t' h hp => hp.mono h) _ s hw ?_).weaken fun ys t _ h => ?_
    · intro e he t wt _
      cases e with
      | node r => exact Good.importArgument (a := .node r) wt (fun r' hr' => hu r' (by
          simp [argRefs] at hr'; subst hr'
          exact List.mem_flatMap.mpr ⟨_, he, by simp [elemRefs]⟩))
      | lit l => exact Good.importArgument (a := .lit l) wt (by simp [argRefs])
      | nested => exact Good.raise
    · simpa [flatCarries, List.forall₂_map_left_iff] using h
  · rename_i ht
    refine Good.bind hw (Good.importArgument hw hu) fun x t wt rt hx => Good.pure ?_
    have : flatCarries [a] = [a] := by
      cases a with
      | tuple xs => exact absurd rfl (ht xs)
      | _ => rfl
    rw [this]
    exact .cons hx .nil

/-- Exact effect of emitting an op. -/
theorem Good.emitX {k : OpKind} {operands : List Nat} {tys : List VTy} (hk : k.plain = true)
    (ho : ∀ x ∈ operands, x < s.tys.length) :
    Good env sc s (Fx.emit k operands tys) (fun ys t => ys = List.range' s.tys.length tys.length ∧
      t.ops = s.ops ++ [⟨k, operands, ys⟩] ∧ t.tys = s.tys ++ tys) :=
  Good.of_step rfl (.single (Step.emit k operands tys hk ho)) ⟨rfl, rfl, rfl⟩

theorem Good.emit1X {k : OpKind} {operands : List Nat} {ty : VTy} (hk : k.plain = true)
    (ho : ∀ x ∈ operands, x < s.tys.length) :
    Good env sc s (Fx.emit1 k operands ty) (fun y t => y = s.tys.length ∧
      t.ops = s.ops ++ [⟨k, operands, [y]⟩] ∧ t.tys = s.tys ++ [ty]) :=
  Good.of_step rfl (.single (Step.emit k operands [ty] hk ho)) ⟨rfl, rfl, rfl⟩

/-- What importing a `while_loop` emits. -/
def WhileOk (env : Env) (i : Nat) (node : Node) (args : List Arg) (t : St) : Prop :=
  ∃ c b carries cn bn xs x0 pre post, args = c :: b :: carries ∧ FuncIs env c cn ∧ FuncIs env b bn ∧
    List.Forall₂ (fun a x => CarryIs a x t) (flatCarries carries) xs ∧ (∀ x ∈ xs, x < x0) ∧
    t.ops = pre ++ whileOps cn bn xs x0 (whileResults node) ++ post ∧
    ∀ j, j < whileResults node → dictGet t.v (.ref (.graph i) (j : Int)) = some (.val (x0 + 3 + j))

theorem WhileOk.mono {t t' : St} (h : Ext t t') {i node args} (hw : WhileOk env i node args t) :
    WhileOk env i node args t' := by
  obtain ⟨c, b, carries, cn, bn, xs, x0, pre, post, h1, h2, h3, h4, h5, h6, h7⟩ := hw
  obtain ⟨o, ho⟩ := h.ops
  exact ⟨c, b, carries, cn, bn, xs, x0, pre, post ++ o, h1, h2, h3, h4.imp fun _ _ => CarryIs.mono h, h5,
    by rw [ho, h6]; simp, fun j hj => h.v _ _ (h7 j hj)⟩

theorem flatCarries_cons (a : Arg) (l : List Arg) : flatCarries (a :: l) = flatCarries [a] ++ flatCarries l := by
  simp [flatCarries]

theorem carries_flatten {t : St} {carries : List Arg} {xss : List (List Nat)}
    (h : List.Forall₂ (fun a xs => List.Forall₂ (fun a x => CarryIs a x t) (flatCarries [a]) xs) carries xss) :
    List.Forall₂ (fun a x => CarryIs a x t) (flatCarries carries) xss.flatten := by
  induction h with
  | nil => exact .nil
  | cons h _ ih =>
    rw [flatCarries_cons, List.flatten_cons]
    exact List.rel_append h ih

theorem Good.importWhile {i : Nat} {node : Node} {args : List Arg} (hw : WF nA s)
    (hn : env.nodes[i]? = some node) (hown : ∀ j : Nat, sc.own (.graph i) j)
    (hu : ∀ r ∈ args.flatMap argRefs, sc.uses r) :
    Good env sc s (importWhile env i node args) (fun _ t => WhileOk env i node args t) := by
  have hname : NameIs env (.graph i) node.name := ⟨node, hn, rfl⟩
  unfold Fx.importWhile
  split
  · rename_i c b carries
    refine Good.bind hw Good.hopFunc fun cn t wt _ ht => ?_
    obtain ⟨ht, hc⟩ := ht
    subst ht
    refine Good.bind wt Good.hopFunc fun bn t wt _ ht => ?_
    obtain ⟨ht, hb⟩ := ht
    subst ht
    refine Good.bind wt (Good.mapM' (P := fun a ys t => List.Forall₂ (fun a x => CarryIs a x t) (flatCarries [a]) ys)
      (fun x ys t t' h hp => hp.imp fun _ _ => CarryIs.mono h) carries t wt ?_) fun xss t1 w1 r1 h1 => ?_
    · intro a ha t' wt' _
      exact Good.importCarry wt' fun r hr => hu r (by
        simp only [List.flatMap_cons, List.mem_append]
        exact Or.inr (Or.inr (List.mem_flatMap.mpr ⟨a, ha, hr⟩)))
    have h1 := carries_flatten h1
    have hxs : ∀ x ∈ xss.flatten, x < t1.tys.length := forall₂_right h1 fun _ _ h => h.1
    refine Good.bind w1 (Good.addMultiIf fun _ => hown 1) fun _ t2 w2 r2 _ => ?_
    have := r2.ext.len
    refine Good.bind w2 (Good.emit1X rfl (fun x hx => by have := hxs x hx; omega)) fun c0 t3 w3 r3 h3 => ?_
    obtain ⟨rfl, o3, y3⟩ := h3
    have l3 : t3.tys.length = t2.tys.length + 1 := by rw [y3]; simp
    refine Good.bind w3 (Good.emit1X rfl (by intro x hx; simp at hx; subst hx; omega)) fun b0 t4 w4 r4 h4 => ?_
    obtain ⟨rfl, o4, y4⟩ := h4
    have l4 : t4.tys.length = t2.tys.length + 2 := by rw [y4]; simp; omega
    refine Good.bind w4 (Good.emit1X rfl (by simp)) fun m t5 w5 r5 h5 => ?_
    obtain ⟨rfl, o5, y5⟩ := h5
    have l5 : t5.tys.length = t2.tys.length + 3 := by rw [y5]; simp; omega
    refine Good.bind w5 (Good.emitX rfl ?_) fun ys t6 w6 r6 h6 => ?_
    · intro x hx
      simp only [List.mem_cons] at hx
      rcases hx with rfl | rfl | hx
      · omega
      · omega
      · have := hxs x hx; omega
    obtain ⟨hys, o6, y6⟩ := h6
    have hres : (if node.valTys.length > 1 then node.valTys else [node.valTy]).length = whileResults node := by
      unfold whileResults; split <;> rfl
    rw [hres, l5] at hys
    have l6 : t6.tys.length = t2.tys.length + 3 + whileResults node := by rw [y6, List.length_append, hres, l5]
    refine (Good.bindResults w6 hname (fun j _ _ => hown j) ?_).weaken fun _ t7 r7 h7 => ?_
    · intro y hy
      rw [hys, List.mem_range'_1] at hy
      omega
    obtain ⟨o, ho⟩ := r7.ext.ops
    refine ⟨c, b, carries, cn, bn, xss.flatten, t2.tys.length, t2.ops, o, rfl, hc, hb, ?_, ?_, ?_, ?_⟩
    · have e := r2.ext.trans (r3.ext.trans (r4.ext.trans (r5.ext.trans (r6.ext.trans r7.ext))))
      exact h1.imp fun _ _ => CarryIs.mono e
    · intro x hx; have := hxs x hx; omega
    · rw [ho, o6, o5, o4, o3, hys, l3, l4]
      simp [whileOps]
    · intro j hj
      have := h7 j (t2.tys.length + 3 + j) (by rw [hys, List.getElem?_range' hj, Nat.one_mul])
      simpa using this
  · exact Good.raise

theorem Good.importAuto {i : Nat} {node : Node} {sch : Schema} {kwargs : List (String × Arg)} (hw : WF nA s)
    (hn : env.nodes[i]? = some node) (hown : ∀ j : Nat, sc.own (.graph i) j)
    (hu : ∀ r ∈ kwargs.flatMap (fun p => argRefs p.2), sc.uses r) :
    Good env sc s (importAutoFunctionalized env i node sch kwargs) (fun _ _ => True) := by
  have hname : NameIs env (.graph i) node.name := ⟨node, hn, rfl⟩
  unfold importAutoFunctionalized
  have h0 : Good env sc s (autoTys (decide (sch.nReturns = 0)) node.valTys) (fun _ t => t = s) := by
    unfold autoTys
    split
    · split
      · exact Good.pure rfl
      · exact Good.raise
    · exact Good.pure rfl
  refine Good.bind hw h0 fun tys t wt _ ht => ?_
  subst ht
  refine Good.bind wt (Good.mapM' (P := fun _ y t => y < t.tys.length)
      (fun x y t t' h hp => by have := h.len; omega) _ t wt ?_) fun operands t1 w1 r1 h1 => ?_
  · intro p hp t' wt' _
    split
    · rename_i a ha
      refine Good.importArgument_lt wt' fun r hr => hu r ?_
      obtain ⟨pre, post, e, _⟩ := (lookup_spec kwargs p.name).1 a ha
      exact List.mem_flatMap.mpr ⟨(p.name, a), by rw [e]; simp, hr⟩
    · exact Good.raise
  refine Good.bind w1 (Good.emit rfl (forall₂_right h1 fun _ _ h => h)) fun results t2 w2 r2 h2 => ?_
  refine Good.bind w2 (Good.addMultiIf fun _ => hown 1) fun _ t3 w3 r3 _ => ?_
  have hlt : ∀ x ∈ results, x < t3.tys.length := fun x hx => by
    have := h2.2.1 x hx; have := r3.ext.len; omega
  unfold autoBind
  split
  · refine Good.bind w3 (Good.bindNodeValue (b := .none) w3 hname (Or.inl (hown 0)) trivial) fun _ t4 w4 r4 _ => ?_
    exact (Good.bindResults w4 hname (fun j _ _ => hown j) (fun x hx => by have := hlt x hx; have := r4.ext.len; omega)).weaken fun _ _ _ _ => trivial
  · exact (Good.bindResults w3 hname (fun j _ _ => hown j) hlt).weaken fun _ _ _ _ => trivial

theorem Good.optFunc {r : Ref} : Good env sc s (optFunc env r) (fun _ t => t = s) := by
  unfold Fx.optFunc
  split
  · split
    · split
      · exact Good.pure rfl
      · exact Good.pure rfl
      · exact Good.raise
    · exact Good.raise
  · exact Good.raise

theorem Good.scoreFunc {a : Arg} : Good env sc s (scoreFunc env a) (fun _ t => t = s) := by
  unfold Fx.scoreFunc
  split
  · exact Good.optFunc
  · exact Good.pure rfl

theorem Good.maskFunc {a : Arg} : Good env sc s (maskFunc env a) (fun _ t => t = s) := by
  unfold Fx.maskFunc
  split
  · split
    · exact Good.raise
    · exact Good.optFunc
    · exact Good.pure rfl
  · exact Good.pure rfl

theorem Good.importScale {a : Arg} (hw : WF nA s) (hu : ∀ r ∈ argRefs a, sc.uses r) :
    Good env sc s (importScale env a) (fun x t => x < t.tys.length) := by
  unfold Fx.importScale
  split
  · exact (Good.emit1 rfl (by simp)).weaken fun _ _ _ h => h.1
  · exact (Good.emit1 rfl (by simp)).weaken fun _ _ _ h => h.1
  · exact (Good.emit1 rfl (by simp)).weaken fun _ _ _ h => h.1
  · exact (Good.emit1 rfl (by simp)).weaken fun _ _ _ h => h.1
  · exact Good.importArgument_lt hw hu

theorem Good.importFlex {i : Nat} {node : Node} {lse mx : Bool} {args : List Arg} (hw : WF nA s)
    (hn : env.nodes[i]? = some node) (hown : ∀ j : Nat, sc.own (.graph i) j)
    (hu : ∀ r ∈ args.flatMap argRefs, sc.uses r) :
    Good env sc s (importFlex env i node lse mx args) (fun _ _ => True) := by
  have hname : NameIs env (.graph i) node.name := ⟨node, hn, rfl⟩
  unfold Fx.importFlex
  split
  · rename_i q k v score mask scale _ _
    simp only [List.flatMap_cons, List.mem_append] at hu
    refine Good.bind hw (Good.importArgument_lt hw fun r hr => hu r (by simp [hr])) fun q' t1 w1 r1 h1 => ?_
    refine Good.bind w1 (Good.importArgument_lt w1 fun r hr => hu r (by simp [hr])) fun k' t2 w2 r2 h2 => ?_
    refine Good.bind w2 (Good.importArgument_lt w2 fun r hr => hu r (by simp [hr])) fun v' t3 w3 r3 h3 => ?_
    refine Good.bind w3 Good.scoreFunc fun sf t w _ ht => ?_
    subst ht
    refine Good.bind w Good.maskFunc fun mf t w _ ht => ?_
    subst ht
    refine Good.bind w (Good.importScale w fun r hr => hu r (by simp [hr])) fun s' t4 w4 r4 h4 => ?_
    refine Good.bind w4 (Good.addMultiIf fun _ => hown 1) fun _ t5 w5 r5 _ => ?_
    refine Good.bind w5 (Good.emit1 rfl (by simp)) fun a t6 w6 r6 h6 => ?_
    refine Good.bind w6 (Good.emit1 rfl (by simp)) fun b t7 w7 r7 h7 => ?_
    have e2 := r2.ext.len
    have e3 := r3.ext.len
    have e4 := r4.ext.len
    have e5 := r5.ext.len
    have e6 := r6.ext.len
    have e7 := r7.ext.len
    refine Good.bind w7 (Good.emit rfl ?_) fun ys t8 w8 r8 h8 => ?_
    · intro x hx
      have := h6.1
      have := h7.1
      simp at hx
      rcases hx with rfl | rfl | rfl | rfl | rfl | rfl <;> omega
    exact (Good.bindResults w8 hname (fun j _ _ => hown j) h8.2.1).weaken fun _ _ _ _ => trivial
  · exact Good.raise

/-- Outcome of a call to an overload. -/
def CallOk (env : Env) (i : Nat) (node : Node) (t : Target) (args : List Arg) (kwargs : List (String × Arg))
    (s : St) : Prop :=
  match t with
  | .overload sch => ∀ sch' args' kwargs', env.canon sch args kwargs = .ok (some (sch', args', kwargs')) →
      OpOk env (.graph i) node.valTy node.valTys sch' args' kwargs' s
  | .getitem => ∃ r k, args = [.node r, .lit (.int k)] ∧ ItemOk i r k s
  | .whileLoop => WhileOk env i node args s
  | t => SymbolicOk env i node t args kwargs s

theorem Good.importCall {i : Nat} {node : Node} {t : Target} {args : List Arg} {kwargs : List (String × Arg)}
    (hw : WF nA s) (hn : env.nodes[i]? = some node) (hop : node.op = .call t args kwargs)
    (hsc : NodeScope env sc i node) :
    Good env sc s (importCall env i node t args kwargs) (fun _ s' => CallOk env i node t args kwargs s') := by
  have hname : NameIs env (.graph i) node.name := ⟨node, hn, rfl⟩
  have hr := hsc.refs
  have hua : ∀ r ∈ args.flatMap argRefs, sc.uses r := fun r h => hr r (by
    unfold nodeRefs; rw [hop]; exact List.mem_append_left _ h)
  have huk : ∀ r ∈ kwargs.flatMap (fun p => argRefs p.2), sc.uses r := fun r h => hr r (by
    unfold nodeRefs; rw [hop]; exact List.mem_append_right _ h)
  unfold Fx.importCall CallOk
  split
  · exact (Good.importGetitem hw hn (hsc.own 0 (by unfold ownIdx; rw [hop])) hua).weaken fun _ _ _ ⟨r, k, h1, h2⟩ => ⟨r, k, h1, h2.ok⟩
  · exact Good.importSymbolic hw hn (fun j => hsc.own j (by unfold ownIdx; rw [hop]; trivial)) hsc.ownTemp hsc.temp hua huk
  · exact Good.importSymbolic hw hn (fun j => hsc.own j (by unfold ownIdx; rw [hop]; trivial)) hsc.ownTemp hsc.temp hua huk
  · rename_i sch
    unfold importOverload
    refine Good.bind_lift hw fun c hc => ?_
    split
    · refine Good.pure ?_
      intro sch' args' kwargs' h
      rw [hc] at h; cases h
    · rename_i sch' args' kwargs'
      obtain ⟨u1, u2⟩ := hsc.canon sch args kwargs hop sch' args' kwargs' hc
      refine (Good.importOp hw hname (fun _ hs j hj => hsc.own j (by
          unfold ownIdx; rw [hop]
          intro a b c d h1 h2
          rw [hc] at h1; cases h1
          rw [hs] at h2; cases h2
          exact hj))
        (callRefs_uses u1 u2)).weaken fun _ t _ h => ?_
      intro sch2 args2 kwargs2 h2
      rw [hc] at h2; cases h2; exact h
  · exact Good.importWhile hw hn (fun j => hsc.own j (by unfold ownIdx; rw [hop]; trivial)) hua
  · exact (Good.importAuto hw hn (fun j => hsc.own j (by unfold ownIdx; rw [hop]; trivial)) huk).weaken fun _ _ _ _ => trivial
  · exact (Good.importFlex hw hn (fun j => hsc.own j (by unfold ownIdx; rw [hop]; trivial)) hua).weaken fun _ _ _ _ => trivial
  · exact Good.raise
  · exact Good.raise

theorem Good.bindSymbolicShape {i : Nat} {node : Node} (hw : WF nA s)
    (hu : node.syms.isSome = true → sc.uses (.graph i)) :
    Good env sc s (bindSymbolicShape env i node) (fun _ _ => True) := by
  unfold Fx.bindSymbolicShape
  split
  · exact Good.pure trivial
  · rename_i names hs
    refine Good.bind hw (Good.resolve hw (hu (by simp [hs]))) fun x t1 w1 r1 h1 => ?_
    refine Good.bind w1 (Good.mapM' (P := fun _ y t => y < t.tys.length)
      (fun x y t t' h hp => by have := h.len; omega) _ t1 w1 ?_) fun ys t2 w2 r2 h2 => ?_
    · intro nm _ t wt _
      unfold resolveSymbol
      refine Good.bind_get wt ?_
      split
      · exact Good.raise
      · rename_i y hy
        exact Good.pure (wt.syms _ _ hy)
    refine Good.bind w2 (Good.emit rfl ?_) fun _ t3 w3 r3 h3 => Good.pure trivial
    intro y hy
    simp at hy
    rcases hy with rfl | hy
    · have := h1.1; have := r2.ext.len; omega
    · exact forall₂_right h2 (fun _ _ h => h) y hy

/-- What importing node `i` establishes. -/
def NodeOk (env : Env) (i : Nat) (node : Node) (s : St) : Prop :=
  ∀ t args kwargs, node.op = .call t args kwargs → CallOk env i node t args kwargs s

theorem ItemOk.mono {i : Nat} {r : Ref} {k : Int} {t t' : St} (h : Ext t t') (hi : ItemOk i r k t) : ItemOk i r k t' := by
  obtain ⟨x, h1, h2⟩ := hi
  refine ⟨x, h.v _ _ h1, ?_⟩
  rcases h2 with ⟨h2, h3⟩ | ⟨ys, h2, h3⟩
  · exact Or.inl ⟨h.multi _ h2, h.v _ _ h3⟩
  · exact Or.inr ⟨ys, h.unpack _ _ h2, h3⟩

theorem NodeOk.mono {t t' : St} (hw : WF nA t) (h : Ext t t') {i node} (hn : NodeOk env i node t) : NodeOk env i node t' := by
  intro tg args kwargs hop
  have := hn tg args kwargs hop
  unfold CallOk at this ⊢
  split at this
  · intro sch' args' kwargs' hc
    exact OpOk.mono hw h (this sch' args' kwargs' hc)
  · obtain ⟨r, k, h1, h2⟩ := this
    exact ⟨r, k, h1, ItemOk.mono h h2⟩
  · exact WhileOk.mono h this
  · exact SymbolicOk.mono hw h this

theorem Good.importNodeOp {skip : Bool} {nArgs ph i : Nat} {node : Node} (hw : WF nA s)
    (hA : nArgs ≤ nA) (hn : env.nodes[i]? = some node) (hsc : NodeScope env sc i node) :
    Good env sc s (importNodeOp env skip nArgs ph i node) (fun _ t => NodeOk env i node t) := by
  have hname : NameIs env (.graph i) node.name := ⟨node, hn, rfl⟩
  unfold Fx.importNodeOp
  split
  · rename_i hop
    have triv : ∀ t, NodeOk env i node t := by intro t tg args kwargs h; rw [hop] at h; cases h
    split
    · exact Good.pure (triv _)
    · refine Good.bind_guard hw fun hlt => ?_
      have hlt' : ph < s.tys.length := by have := hw.len; simp at hlt; omega
      exact Good.bind hw (Good.bindNodeValue (b := .val ph) hw hname (Or.inl (hsc.own 0 (by unfold ownIdx; rw [hop]))) hlt') fun _ t wt rt _ => Good.pure (triv _)
  · rename_i tg args kwargs hop
    refine Good.bind hw (Good.importCall hw hn hop hsc) fun _ t wt rt ht => Good.pure ?_
    intro tg' args' kwargs' h
    rw [hop] at h; cases h; exact ht
  · rename_i args hop
    have triv : ∀ t, NodeOk env i node t := by intro t tg args kwargs h; rw [hop] at h; cases h
    split
    · exact Good.pure (triv _)
    · refine Good.bind hw (Good.mapM' (P := fun _ y t => y < t.tys.length)
        (fun x y t t' h hp => by have := h.len; omega) _ s hw ?_) fun xs t wt rt hx => ?_
      · intro a ha t wt _
        exact Good.importArgument_lt wt fun r hr => hsc.refs r (by
          unfold nodeRefs; rw [hop]; exact List.mem_flatMap.mpr ⟨a, ha, hr⟩)
      · exact Good.bind wt (Good.emit rfl (forall₂_right hx fun _ _ h => h)) fun _ t' _ _ _ => Good.pure (triv _)
  · rename_i h1 h2 h3
    refine Good.pure ?_
    intro tg args kwargs h
    exact absurd h (h2 tg args kwargs)

theorem Good.importNode {skip sym : Bool} {nArgs ph i : Nat} (hw : WF nA s) (hA : nArgs ≤ nA)
    (hsc : ∀ node, env.nodes[i]? = some node → NodeScope env sc i node) :
    Good env sc s (importNode env skip sym nArgs ph i)
      (fun _ t => ∀ node, env.nodes[i]? = some node → NodeOk env i node t) := by
  unfold Fx.importNode
  split
  · rename_i h
    exact Good.pure (by intro node hn; rw [h] at hn; cases hn)
  · rename_i node hn
    refine Good.bind hw (Good.importNodeOp hw hA hn (hsc node hn)) fun ph' t wt rt ht => ?_
    split
    · refine Good.bind wt (Good.bindSymbolicShape wt (hsc node hn).self) fun _ t' wt' rt' _ => Good.pure ?_
      intro node' hn'
      rw [hn] at hn'; cases hn'
      exact NodeOk.mono wt rt'.ext ht
    · exact Good.pure (by intro node' hn'; rw [hn] at hn'; cases hn'; exact ht)

/-- The import of a node list splits at every node. -/
theorem loop_split {skip sym : Bool} {nArgs : Nat} : ∀ (pre : List Nat) (i : Nat) (post : List Nat) (ph : Nat) (s s' : St),
    importNodesLoop env skip sym nArgs ph (pre ++ i :: post) s = .ok ((), s') →
    ∃ ph1 s1 ph2 s2, importNodesLoop env skip sym nArgs ph pre s = .ok ((), s1) ∧
      importNode env skip sym nArgs ph1 i s1 = .ok (ph2, s2) ∧
      importNodesLoop env skip sym nArgs ph2 post s2 = .ok ((), s') := by
  intro pre
  induction pre with
  | nil =>
    intro i post ph s s' h
    obtain ⟨ph2, s2, h1, h2⟩ := M.bind_ok.mp h
    exact ⟨ph, s, ph2, s2, rfl, h1, h2⟩
  | cons j pre ih =>
    intro i post ph s s' h
    obtain ⟨ph1, s1, h1, h2⟩ := M.bind_ok.mp h
    obtain ⟨p1, t1, p2, t2, g1, g2, g3⟩ := ih i post ph1 s1 s' h2
    exact ⟨p1, t1, p2, t2, M.bind_ok.mpr ⟨ph1, s1, h1, g1⟩, g2, g3⟩

theorem Good.importNodesLoop {skip sym : Bool} {nArgs : Nat} (hA : nArgs ≤ nA) :
    ∀ (is : List Nat) (ph : Nat) (s : St), WF nA s →
    (∀ i ∈ is, ∀ node, env.nodes[i]? = some node → NodeScope env sc i node) →
    Good env sc s (importNodesLoop env skip sym nArgs ph is)
      (fun _ t => ∀ i ∈ is, ∀ node, env.nodes[i]? = some node → NodeOk env i node t) := by
  intro is
  induction is with
  | nil => intro ph s hw _; exact Good.pure (by simp)
  | cons i is ih =>
    intro ph s hw hsc
    refine Good.bind hw (Good.importNode hw hA (hsc i (by simp))) fun ph' t wt rt ht => ?_
    refine (ih ph' t wt fun j hj => hsc j (by simp [hj])).weaken fun _ t' r h => ?_
    intro j hj node hn
    simp at hj
    rcases hj with rfl | hj
    · exact NodeOk.mono wt r.ext (ht node hn)
    · exact h j hj node hn

theorem Good.importSymbol {name : String} (hw : WF nA s) : Good env sc s (importSymbol name) (fun _ _ => True) := by
  unfold Fx.importSymbol
  refine Good.bind hw (Good.emit1 rfl (by simp)) fun x t wt rt hx => ?_
  refine Good.bind_get wt (Good.bind_guard wt fun hf => ?_)
  refine Good.of_step (a := ()) rfl (.single (.sym name x ?_ hx.1)) trivial
  unfold dictMem at hf
  cases h : dictGet t.syms name with
  | none => rfl
  | some w => rw [h] at hf; simp at hf

theorem Good.importNodes {skip sym : Bool} {symbols : List String} {nArgs : Nat} {is : List Nat} (hw : WF nA s) (hA : nArgs ≤ nA)
    (hsc : ∀ i ∈ is, ∀ node, env.nodes[i]? = some node → NodeScope env sc i node) :
    Good env sc s (importNodes env skip sym symbols nArgs is)
      (fun _ t => ∀ i ∈ is, ∀ node, env.nodes[i]? = some node → NodeOk env i node t) := by
  unfold Fx.importNodes
  refine Good.bind hw (Good.mapM' (P := fun _ _ _ => True) (fun _ _ _ _ _ h => h) _ s hw
    fun _ _ t wt _ => Good.importSymbol wt) fun _ t wt rt _ => ?_
  exact Good.importNodesLoop hA is 0 t wt hsc

theorem WF.init (tys : List VTy) : WF tys.length (St.init tys) := by
  refine ⟨Nat.le_refl _, ⟨?_, ?_, ?_⟩, ?_, ?_, ?_, ?_, ?_⟩ <;> simp [St.init]

end Verif.Fx
