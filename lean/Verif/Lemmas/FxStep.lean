import Verif.Spec.Fx
import Mathlib.Logic.Relation

/-!
# The importer as a transition system

Every function of the importer only moves the state along `Step`s.  Invariants are proved once for
`Step` and then hold for everything.
-/

namespace Verif.Fx
open Spec

/-- Operations that neither materialise a lifted input nor write back a mutation. -/
def OpKind.plain : OpKind → Bool
  | .const _ (some _) => false
  | .load _ => false
  | .overwrite => false
  | .store _ => false
  | _ => true

/-- A `get_attr` node. -/
def IsAttr (env : Env) (r : Ref) : Prop :=
  ∃ n t, nodeOf env r = some n ∧ n.op = .getAttr t

/-- The name of the node object `r`. -/
def NameIs (env : Env) (r : Ref) (name : String) : Prop :=
  match r with
  | .graph i => ∃ n, env.nodes[i]? = some n ∧ n.name = name
  | .temp _ => ∃ p, name = tempName p

/-- Ops, types and value produced when the lifted input `n` is materialised. -/
inductive Forced (env : Env) (n : Nat) (l : Lit) (len : Nat) : List VTy → List Op → Nat → Prop
  | load : env.loadsInput n = true → Forced env n l len [.vtensor] [⟨.load n, [], [len]⟩] len
  | lit {ty : VTy} : env.loadsInput n = false →
      Forced env n l len [ty] [⟨.const (emitted l) (some n), [], [len]⟩] len
  | boolTensor {obj : Nat} : env.loadsInput n = false → l = .tensor obj true →
      Forced env n l len [.vtensor, .int, .vtensor]
        [⟨.const (.tensor obj true) (some n), [], [len]⟩, ⟨.const (.int 11) none, [], [len + 1]⟩,
         ⟨.convert "torch.prims.convert_element_type", [len, len + 1], [len + 2]⟩] (len + 2)

/-- What may be bound at a key. -/
def BindingOk (s : St) (r : Ref) (i : Int) : Binding → Prop
  | .val x => x < s.tys.length
  | .lazy n _ => r = .graph n ∧ i = 0
  | .none => True

/-- The op emitted by a producer callback. -/
def hookOp (h : Hook) (x : Nat) : Op :=
  match h with
  | .overwrite m => ⟨.overwrite, [x, m], []⟩
  | .store n => ⟨.store n, [x], []⟩

/-- What a piece of the importer may do: the keys it may bind, the nodes it may dereference, and
the producer callbacks it may register. -/
structure Scope where
  own : Ref → Int → Prop
  uses : Ref → Prop
  hooks : String → Hook → Prop

/-- One elementary change of the importer state. -/
inductive Step (env : Env) (sc : Scope) : St → St → Prop
  | emit {s : St} (k : OpKind) (operands : List Nat) (tys : List VTy) : k.plain = true →
      (∀ x ∈ operands, x < s.tys.length) →
      Step env sc s { s with
        tys := s.tys ++ tys
        ops := s.ops ++ [⟨k, operands, List.range' s.tys.length tys.length⟩] }
  | bind {s : St} (r : Ref) (i : Int) (name : String) (b : Binding) : NameIs env r name →
      (sc.own r i ∨ (IsAttr env r ∧ i = 0)) → dictGet s.v (.ref r i) = none → dictGet s.hooks name = none →
      BindingOk s r i b → Step env sc s { s with v := dictSet s.v (.ref r i) b }
  | bindHook {s : St} (r : Ref) (i : Int) (name : String) (x : Nat) (h : Hook) : NameIs env r name →
      (sc.own r i ∨ (IsAttr env r ∧ i = 0)) → dictGet s.v (.ref r i) = none →
      dictGet s.hooks name = some h → x < s.tys.length →
      Step env sc s { s with
        v := dictSet s.v (.ref r i) (.val x), ops := s.ops ++ [hookOp h x] }
  | force {s : St} (r : Ref) (i : Int) (n : Nat) (l : Lit) (tys : List VTy) (ops : List Op) (x : Nat) :
      sc.uses r → dictGet s.v (.ref r i) = some (.lazy n l) → Forced env n l s.tys.length tys ops x →
      Step env sc s { s with
        tys := s.tys ++ tys, ops := s.ops ++ ops, v := dictSet s.v (.ref r i) (.val x) }
  | unpack {s : St} (r : Ref) (x : Nat) (tys : List VTy) : dictGet s.v (.ref r 0) = some (.val x) →
      dictGet s.unpack r = none → x < s.tys.length → (∀ n, nodeOf env r = some n → tys = n.valTys) →
      Step env sc s { s with
        tys := s.tys ++ tys
        ops := s.ops ++ [⟨.listUnpack, [x], List.range' s.tys.length tys.length⟩]
        unpack := dictSet s.unpack r (List.range' s.tys.length tys.length) }
  | multi {s : St} (r : Ref) : sc.own r 1 → Step env sc s { s with multi := r :: s.multi }
  | sym {s : St} (name : String) (x : Nat) : dictGet s.syms name = none → x < s.tys.length →
      Step env sc s { s with syms := dictSet s.syms name x }
  | hook {s : St} (name : String) (h : Hook) : sc.hooks name h → (∀ m, h = .overwrite m → m < s.tys.length) →
      Step env sc s { s with hooks := dictSet s.hooks name h }

/-- Any number of steps. -/
abbrev Reach (env : Env) (sc : Scope) : St → St → Prop :=
  Relation.ReflTransGen (Step env sc)

/-- Values only refer to what exists, and the ops are in SSA form. -/
structure WF (nA : Nat) (s : St) : Prop where
  len : nA ≤ s.tys.length
  ssa : SSA nA s.ops
  results : s.ops.flatMap (·.results) = List.range' nA (s.tys.length - nA)
  vals : ∀ k x, dictGet s.v k = some (.val x) → x < s.tys.length
  unpack : ∀ r ys, dictGet s.unpack r = some ys → ∀ y ∈ ys, y < s.tys.length
  hooks : ∀ n m, dictGet s.hooks n = some (.overwrite m) → m < s.tys.length
  syms : ∀ n x, dictGet s.syms n = some x → x < s.tys.length

/-- Nothing that was emitted or bound is changed later. -/
structure Ext (s s' : St) : Prop where
  tys : ∃ t, s'.tys = s.tys ++ t
  ops : ∃ o, s'.ops = s.ops ++ o
  v : ∀ k x, dictGet s.v k = some (.val x) → dictGet s'.v k = some (.val x)
  bound : ∀ k, (dictGet s.v k).isSome = true → (dictGet s'.v k).isSome = true
  multi : ∀ r ∈ s.multi, r ∈ s'.multi
  unpack : ∀ r ys, dictGet s.unpack r = some ys → dictGet s'.unpack r = some ys
  syms : ∀ n x, dictGet s.syms n = some x → dictGet s'.syms n = some x

theorem Ext.refl (s : St) : Ext s s :=
  ⟨⟨[], by simp⟩, ⟨[], by simp⟩, fun _ _ h => h, fun _ h => h, fun _ h => h, fun _ _ h => h, fun _ _ h => h⟩

theorem Ext.trans {s s' s'' : St} (h : Ext s s') (h' : Ext s' s'') : Ext s s'' := by
  obtain ⟨t, ht⟩ := h.tys
  obtain ⟨t', ht'⟩ := h'.tys
  obtain ⟨o, ho⟩ := h.ops
  obtain ⟨o', ho'⟩ := h'.ops
  exact ⟨⟨t ++ t', by rw [ht', ht, List.append_assoc]⟩, ⟨o ++ o', by rw [ho', ho, List.append_assoc]⟩,
    fun k x hk => h'.v k x (h.v k x hk), fun k hk => h'.bound k (h.bound k hk), fun r hr => h'.multi r (h.multi r hr),
    fun r ys hr => h'.unpack r ys (h.unpack r ys hr), fun n x hn => h'.syms n x (h.syms n x hn)⟩

theorem Ext.len {s s' : St} (h : Ext s s') : s.tys.length ≤ s'.tys.length := by
  obtain ⟨t, ht⟩ := h.tys
  rw [ht]; simp

theorem Ext.mem {s s' : St} (h : Ext s s') {o : Op} (ho : o ∈ s.ops) : o ∈ s'.ops := by
  obtain ⟨t, ht⟩ := h.ops
  rw [ht]; exact List.mem_append_left _ ho

theorem Ext.ty {s s' : St} (h : Ext s s') {x : Nat} (hx : x < s.tys.length) :
    s'.tys[x]? = s.tys[x]? := by
  obtain ⟨t, ht⟩ := h.tys
  rw [ht, List.getElem?_append_left hx]

theorem dictGet_set_fresh {κ ν : Type} [DecidableEq κ] {d : List (κ × ν)} {k k' : κ} {v w : ν}
    (h : dictGet d k = none) (h' : dictGet d k' = some w) : dictGet (dictSet d k v) k' = some w := by
  rw [dictGet_set]
  split
  · rename_i e; subst e; rw [h] at h'; cases h'
  · exact h'

theorem Step.ext {env : Env} {sc : Scope} {s s' : St} (h : Step env sc s s') : Ext s s' := by
  have keep : ∀ (k : Key) (b : Binding) (k' : Key), (dictGet s.v k').isSome = true →
      (dictGet (dictSet s.v k b) k').isSome = true := by
    intro k b k' hk
    rw [dictGet_set]; split
    · rfl
    · exact hk
  cases h with
  | emit k operands tys hk ho => exact ⟨⟨_, rfl⟩, ⟨_, rfl⟩, fun _ _ h => h, fun _ h => h, fun _ h => h, fun _ _ h => h, fun _ _ h => h⟩
  | bind r i name b hn hown hf hh hb =>
    exact ⟨⟨[], by simp⟩, ⟨[], by simp⟩, fun _ _ h => dictGet_set_fresh hf h, keep _ _, fun _ h => h, fun _ _ h => h, fun _ _ h => h⟩
  | bindHook r i name x h hn hown hf hh hb =>
    exact ⟨⟨[], by simp⟩, ⟨_, rfl⟩, fun _ _ h => dictGet_set_fresh hf h, keep _ _, fun _ h => h, fun _ _ h => h, fun _ _ h => h⟩
  | force r i n l tys ops x hu hl hfo =>
    refine ⟨⟨_, rfl⟩, ⟨_, rfl⟩, ?_, keep _ _, fun _ h => h, fun _ _ h => h, fun _ _ h => h⟩
    intro k y hk
    show dictGet (dictSet s.v _ _) k = _
    rw [dictGet_set]
    split
    · rename_i e; subst e; rw [hl] at hk; cases hk
    · exact hk
  | unpack r x tys hx hf hl htys =>
    exact ⟨⟨_, rfl⟩, ⟨_, rfl⟩, fun _ _ h => h, fun _ h => h, fun _ h => h, fun _ _ h => dictGet_set_fresh hf h, fun _ _ h => h⟩
  | multi r _ => exact ⟨⟨[], by simp⟩, ⟨[], by simp⟩, fun _ _ h => h, fun _ h => h, fun _ h => List.mem_cons_of_mem _ h, fun _ _ h => h, fun _ _ h => h⟩
  | sym name x hf hx => exact ⟨⟨[], by simp⟩, ⟨[], by simp⟩, fun _ _ h => h, fun _ h => h, fun _ h => h, fun _ _ h => h, fun _ _ h => dictGet_set_fresh hf h⟩
  | hook name h _ hm => exact ⟨⟨[], by simp⟩, ⟨[], by simp⟩, fun _ _ h => h, fun _ h => h, fun _ h => h, fun _ _ h => h, fun _ _ h => h⟩

theorem Reach.ext {env : Env} {sc : Scope} {s s' : St} (h : Reach env sc s s') : Ext s s' := by
  induction h with
  | refl => exact Ext.refl _
  | tail _ h ih => exact ih.trans h.ext

/-- Appending an op with valid operands and fresh results keeps SSA form. -/
theorem SSA.append {nA : Nat} {ops : List Op} {n : Nat} (h : SSA nA ops)
    (hr : ops.flatMap (·.results) = List.range' nA n) {k : OpKind} {operands : List Nat} {m : Nat}
    (ho : ∀ x ∈ operands, x < nA + n) :
    SSA nA (ops ++ [(⟨k, operands, List.range' (nA + n) m⟩ : Op)]) ∧
      (ops ++ [(⟨k, operands, List.range' (nA + n) m⟩ : Op)]).flatMap (·.results) = List.range' nA (n + m) := by
  have hfm : (ops ++ [(⟨k, operands, List.range' (nA + n) m⟩ : Op)]).flatMap (·.results) = List.range' nA (n + m) := by
    simp only [List.flatMap_append, hr, List.flatMap_cons, List.flatMap_nil, List.append_nil]
    rw [List.range'_append_1]
  refine ⟨⟨?_, ?_, ?_⟩, hfm⟩
  · intro j o hj x hx
    rw [List.getElem?_append] at hj
    split at hj
    · rcases h.dominated j o hj x hx with h1 | ⟨i, o', h1, h2, h3⟩
      · exact Or.inl h1
      · refine Or.inr ⟨i, o', h1, ?_, h3⟩
        rw [List.getElem?_append_left]
        · exact h2
        · omega
    · rename_i hlen
      have hj0 : j = ops.length := by
        rcases Nat.lt_or_ge (j - ops.length) 1 with h1 | h1
        · omega
        · rw [List.getElem?_eq_none (by simpa using h1)] at hj; cases hj
      subst hj0
      simp at hj
      subst hj
      have hx' := ho x hx
      by_cases hxa : x < nA
      · exact Or.inl hxa
      · right
        have : x ∈ ops.flatMap (·.results) := by
          rw [hr, List.mem_range'_1]; omega
        rw [List.mem_flatMap] at this
        obtain ⟨o', ho', hxo⟩ := this
        obtain ⟨i, hi, hio⟩ := List.mem_iff_getElem.mp ho'
        refine ⟨i, o', hi, ?_, hxo⟩
        rw [List.getElem?_append_left hi, List.getElem?_eq_getElem hi, hio]
  · rw [hfm]; exact List.nodup_range'
  · intro o ho' x hx
    have : x ∈ (ops ++ [(⟨k, operands, List.range' (nA + n) m⟩ : Op)]).flatMap (·.results) :=
      List.mem_flatMap.mpr ⟨o, ho', hx⟩
    rw [hfm, List.mem_range'_1] at this
    exact this.1

/-- Emitting an op keeps the state well formed. -/
theorem WF.emit {nA : Nat} {s : St} (h : WF nA s) {k : OpKind} {operands : List Nat} {tys : List VTy}
    (ho : ∀ x ∈ operands, x < s.tys.length) :
    WF nA { s with tys := s.tys ++ tys, ops := s.ops ++ [⟨k, operands, List.range' s.tys.length tys.length⟩] } := by
  have hl := h.len
  obtain ⟨h1, h2⟩ := SSA.append (n := s.tys.length - nA) (k := k) (m := tys.length) h.ssa h.results
    (operands := operands) (fun x hx => by have := ho x hx; omega)
  have e : nA + (s.tys.length - nA) = s.tys.length := by omega
  rw [e] at h1 h2
  refine ⟨by simp; omega, h1, ?_, ?_, ?_, ?_, ?_⟩
  · simp only [List.length_append]
    rw [h2]; congr 1; omega
  · intro k x hx; simp; have := h.vals k x hx; omega
  · intro r ys hr y hy; simp; have := h.unpack r ys hr y hy; omega
  · intro n m hm; simp; have := h.hooks n m hm; omega
  · intro n x hx; simp; have := h.syms n x hx; omega

theorem WF.setV {nA : Nat} {s : St} (h : WF nA s) {k : Key} {b : Binding}
    (hb : ∀ x, b = .val x → x < s.tys.length) : WF nA { s with v := dictSet s.v k b } := by
  refine ⟨h.len, h.ssa, h.results, ?_, h.unpack, h.hooks, h.syms⟩
  intro k' x hx
  simp only [dictGet_set] at hx
  split at hx
  · exact hb x (by simpa using hx)
  · exact h.vals k' x hx

theorem Forced.wf {env : Env} {nA n : Nat} {l : Lit} {s : St} {tys : List VTy} {ops : List Op} {x : Nat}
    (h : WF nA s) (hf : Forced env n l s.tys.length tys ops x) :
    WF nA { s with tys := s.tys ++ tys, ops := s.ops ++ ops } ∧ x < (s.tys ++ tys).length := by
  cases hf with
  | load _ => exact ⟨h.emit (k := .load n) (operands := []) (tys := [.vtensor]) (by simp), by simp⟩
  | lit _ => exact ⟨h.emit (operands := []) (tys := [_]) (by simp), by simp⟩
  | boolTensor _ _ =>
    rename_i obj _ _
    have h1 := h.emit (k := .const (.tensor obj true) (some n)) (operands := []) (tys := [VTy.vtensor]) (by simp)
    have h2 := h1.emit (k := .const (.int 11) none) (operands := []) (tys := [VTy.int]) (by simp)
    have h3 := h2.emit (k := .convert "torch.prims.convert_element_type")
      (operands := [s.tys.length, s.tys.length + 1]) (tys := [VTy.vtensor]) (by simp)
    refine ⟨?_, by simp⟩
    simpa [List.append_assoc] using h3

theorem Step.wf {env : Env} {sc : Scope} {nA : Nat} {s s' : St} (h : Step env sc s s') (hw : WF nA s) :
    WF nA s' := by
  cases h with
  | emit k operands tys hk ho => exact hw.emit ho
  | bind r i name b hn hown hf hh hb => exact hw.setV (fun x e => by subst e; exact hb)
  | bindHook r i name x h hn hown hf hh hb =>
    have h1 : WF nA { s with v := dictSet s.v (.ref r i) (.val x) } := hw.setV (fun y e => by cases e; exact hb)
    cases h with
    | overwrite m =>
      have := h1.emit (k := .overwrite) (operands := [x, m]) (tys := [])
        (by intro y hy; simp at hy; rcases hy with rfl | rfl
            · exact hb
            · exact hw.hooks _ _ hh)
      simpa [hookOp] using this
    | store n =>
      have := h1.emit (k := .store n) (operands := [x]) (tys := [])
        (by intro y hy; simp at hy; subst hy; exact hb)
      simpa [hookOp] using this
  | force r i n l tys ops x hu hl hfo =>
    obtain ⟨h1, h2⟩ := Forced.wf hw hfo
    exact h1.setV (fun y e => by cases e; exact h2)
  | unpack r x tys hx hf hl htys =>
    have h1 := hw.emit (k := .listUnpack) (operands := [x]) (tys := tys)
      (by intro y hy; simp at hy; subst hy; exact hl)
    refine ⟨h1.len, h1.ssa, h1.results, h1.vals, ?_, h1.hooks, h1.syms⟩
    intro r' ys hr y hy
    simp only [dictGet_set] at hr
    split at hr
    · cases hr
      rw [List.mem_range'_1] at hy
      simpa using hy.2
    · exact h1.unpack r' ys hr y hy
  | multi r _ => exact ⟨hw.len, hw.ssa, hw.results, hw.vals, hw.unpack, hw.hooks, hw.syms⟩
  | sym name x hf hx =>
    refine ⟨hw.len, hw.ssa, hw.results, hw.vals, hw.unpack, hw.hooks, ?_⟩
    intro n y hy
    simp only [dictGet_set] at hy
    split at hy
    · cases hy; exact hx
    · exact hw.syms n y hy
  | hook name h _ hm =>
    refine ⟨hw.len, hw.ssa, hw.results, hw.vals, hw.unpack, ?_, hw.syms⟩
    intro n m hn
    simp only [dictGet_set] at hn
    split at hn
    · cases hn; exact hm m rfl
    · exact hw.hooks n m hn

theorem Reach.wf {env : Env} {sc : Scope} {nA : Nat} {s s' : St} (h : Reach env sc s s') (hw : WF nA s) :
    WF nA s' := by
  induction h with
  | refl => exact hw
  | tail _ h ih => exact h.wf ih

/-- Larger scopes allow more. -/
structure Scope.Le (a b : Scope) : Prop where
  own : ∀ r i, a.own r i → b.own r i
  uses : ∀ r, a.uses r → b.uses r
  hooks : ∀ n h, a.hooks n h → b.hooks n h

theorem Step.mono {env : Env} {a b : Scope} (hab : a.Le b) {s s' : St} (h : Step env a s s') : Step env b s s' := by
  cases h with
  | emit k operands tys hk ho => exact .emit k operands tys hk ho
  | bind r i name b' hn hown hf hh hb => exact .bind r i name b' hn (hown.imp_left (hab.own r i)) hf hh hb
  | bindHook r i name x h hn hown hf hh hb => exact .bindHook r i name x h hn (hown.imp_left (hab.own r i)) hf hh hb
  | force r i n l tys ops x hu hl hfo => exact .force r i n l tys ops x (hab.uses r hu) hl hfo
  | unpack r x tys hx hf hl htys => exact .unpack r x tys hx hf hl htys
  | multi r h => exact .multi r (hab.own r 1 h)
  | sym name x hf hx => exact .sym name x hf hx
  | hook name h hs hm => exact .hook name h (hab.hooks _ _ hs) hm

theorem Reach.mono {env : Env} {a b : Scope} (hab : a.Le b) {s s' : St} (h : Reach env a s s') : Reach env b s s' := by
  induction h with
  | refl => exact .refl
  | tail _ h ih => exact ih.tail (h.mono hab)

/-- Keys outside the scope stay unbound. -/
theorem Reach.frame {env : Env} {sc : Scope} {s s' : St} (h : Reach env sc s s') {r : Ref} {i : Int}
    (ho : ¬ sc.own r i) (ha : ¬ IsAttr env r) (hn : dictGet s.v (.ref r i) = none) :
    dictGet s'.v (.ref r i) = none := by
  induction h with
  | refl => exact hn
  | tail _ h ih =>
    have key : ∀ r' i', (sc.own r' i' ∨ (IsAttr env r' ∧ i' = 0)) → Key.ref r' i' ≠ Key.ref r i := by
      intro r' i' h e
      cases e
      rcases h with h | h
      · exact ho h
      · exact ha h.1
    cases h with
    | emit k operands tys hk ho => exact ih
    | bind r' i' name b hn hown hf hh hb => rw [dictGet_set_ne _ _ (key r' i' hown)]; exact ih
    | bindHook r' i' name x h hn hown hf hh hb => simp only; rw [dictGet_set_ne _ _ (key r' i' hown)]; exact ih
    | force r' i' n l tys ops x hu hl hfo =>
      simp only
      rw [dictGet_set]
      split
      · rename_i e; rw [e, ih] at hl; cases hl
      · exact ih
    | unpack r x tys hx hf hl htys => exact ih
    | multi r _ => exact ih
    | sym name x hf hx => exact ih
    | hook name h hs hm => exact ih

/-- Lazily bound inputs that are not dereferenced stay lazy. -/
theorem Reach.stays_lazy {env : Env} {sc : Scope} {s s' : St} (h : Reach env sc s s') {r : Ref} {i : Int}
    {n : Nat} {l : Lit} (hu : ¬ sc.uses r) (hn : dictGet s.v (.ref r i) = some (.lazy n l)) :
    dictGet s'.v (.ref r i) = some (.lazy n l) := by
  induction h with
  | refl => exact hn
  | tail _ h ih =>
    cases h with
    | emit k operands tys hk ho => exact ih
    | bind r' i' name b hn hown hf hh hb => exact dictGet_set_fresh hf ih
    | bindHook r' i' name x h hn hown hf hh hb => exact dictGet_set_fresh hf ih
    | force r' i' n l tys ops x hu' hl hfo =>
      simp only
      rw [dictGet_set]
      split
      · rename_i e; cases e; exact absurd hu' hu
      · exact ih
    | unpack r x tys hx hf hl htys => exact ih
    | multi r _ => exact ih
    | sym name x hf hx => exact ih
    | hook name h hs hm => exact ih

/-- Without setup steps the producer callbacks do not change. -/
theorem Reach.hooks_eq {env : Env} {sc : Scope} {s s' : St} (h : Reach env sc s s') (hs : ∀ n h, ¬ sc.hooks n h) :
    s'.hooks = s.hooks := by
  induction h with
  | refl => rfl
  | tail _ h ih =>
    cases h <;> first | exact ih | (rename_i h _; exact absurd h (hs _ _))

end Verif.Fx
