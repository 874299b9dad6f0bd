import Verif.Spec.Dynamo

/-!
# Lemmas on the TorchDynamo graph importer
-/

namespace Verif.Dyn

variable {T : Type} {I : Interp T} {inputs : List T}

theorem evalOps_append (res : List (List (V T))) (a b : List MOp) :
    evalOps I inputs res (a ++ b) = (evalOps I inputs res a).bind fun r => evalOps I inputs r b := by
  induction a generalizing res with
  | nil => rfl
  | cons op a ih =>
    simp only [List.cons_append, evalOps]
    cases evalOp I inputs res op with
    | none => rfl
    | some r => exact ih _

theorem evalOps_length {res r : List (List (V T))} {ops : List MOp}
    (h : evalOps I inputs res ops = some r) : r.length = res.length + ops.length := by
  induction ops generalizing res with
  | nil => simp only [evalOps, Option.some.injEq] at h; simp [h]
  | cons op ops ih =>
    simp only [evalOps] at h
    cases ho : evalOp I inputs res op with
    | none => simp [ho] at h
    | some x =>
      simp only [ho] at h
      have := ih h
      simp only [List.length_append, List.length_cons, List.length_nil] at this ⊢
      omega

theorem evalValue_mono {res : List (List (V T))} (suf : List (List (V T))) {v : Value} {m : V T}
    (h : evalValue inputs res v = some m) : evalValue inputs (res ++ suf) v = some m := by
  cases v with
  | arg k => exact h
  | res i j =>
    simp only [evalValue] at h ⊢
    cases hi : res[i]? with
    | none => simp [hi] at h
    | some r =>
      rw [List.getElem?_append_left (List.getElem?_eq_some_iff.mp hi).1, hi]
      simpa [hi] using h

/-- The operations of a state give results `R`. -/
def Ev (I : Interp T) (inputs : List T) (s : State) (R : List (List (V T))) : Prop :=
  evalOps I inputs [] s.ops = some R

theorem Ev.length {s : State} {R : List (List (V T))} (h : Ev I inputs s R) :
    R.length = s.ops.length := by
  have := evalOps_length h
  simpa using this

/-- A later state: more operations, the rest the same. -/
def Ext (I : Interp T) (inputs : List T) (s s' : State) (R R' : List (List (V T))) : Prop :=
  s'.env = s.env ∧ s'.seen = s.seen ∧ s'.returned = s.returned ∧ Ev I inputs s' R' ∧
    ∃ suf, R' = R ++ suf

theorem Ext.refl {s : State} {R : List (List (V T))} (h : Ev I inputs s R) : Ext I inputs s s R R :=
  ⟨rfl, rfl, rfl, h, [], by simp⟩

theorem Ext.trans {s s' s'' : State} {R R' R'' : List (List (V T))} (h : Ext I inputs s s' R R')
    (h' : Ext I inputs s' s'' R' R'') : Ext I inputs s s'' R R'' := by
  obtain ⟨a, b, c, -, u, rfl⟩ := h
  obtain ⟨a', b', c', e, u', rfl⟩ := h'
  exact ⟨a'.trans a, b'.trans b, c'.trans c, e, u ++ u', by rw [List.append_assoc]⟩

theorem Ext.mono {s s' : State} {R R' : List (List (V T))} (h : Ext I inputs s s' R R') {v : Value}
    {m : V T} (hv : evalValue inputs R v = some m) : evalValue inputs R' v = some m := by
  obtain ⟨-, -, -, -, u, rfl⟩ := h
  exact evalValue_mono u hv

theorem emit_ext {s : State} {R : List (List (V T))} {op : MOp} {r : List (V T)} (h : Ev I inputs s R)
    (ho : evalOp I inputs R op = some r) {v : Value} {s' : State} (e : s.emit op = (v, s')) {m : V T}
    (hm : r[0]? = some m) :
    Ext I inputs s s' R (R ++ [r]) ∧ evalValue inputs (R ++ [r]) v = some m := by
  simp only [State.emit, Prod.mk.injEq] at e
  obtain ⟨rfl, rfl⟩ := e
  refine ⟨⟨rfl, rfl, rfl, ?_, [r], rfl⟩, ?_⟩
  · unfold Ev at h ⊢
    rw [evalOps_append, h]
    simp [evalOps, ho]
  · simp only [evalValue]
    rw [← h.length]
    simp [hm]

/-- The environments agree. -/
def Rel (inputs : List T) (env : List ((Nat × Int) × Value)) (R : List (List (V T)))
    (ρ : List (Nat × NV T)) : Prop :=
  ∀ (n : Nat) (nv : NV T), dictGet ρ n = some nv →
    match nv with
    | .tensor t => ∃ v, dictGet env (n, 0) = some v ∧ evalValue inputs R v = some (.tensor t)
    | .tuple l => ∀ (j : Nat) (t : T), l[j]? = some t →
        ∃ v, dictGet env (n, (j : Int)) = some v ∧ evalValue inputs R v = some (.tensor t)

theorem Rel.ext {s s' : State} {R R' : List (List (V T))} {ρ : List (Nat × NV T)}
    (h : Rel inputs s.env R ρ) (he : Ext I inputs s s' R R') : Rel inputs s'.env R' ρ := by
  intro n nv hn
  have := h n nv hn
  rw [he.1]
  cases nv with
  | tensor t =>
    obtain ⟨v, h1, h2⟩ := this
    exact ⟨v, h1, he.mono h2⟩
  | tuple l =>
    intro j t hj
    obtain ⟨v, h1, h2⟩ := this j t hj
    exact ⟨v, h1, he.mono h2⟩

theorem dtype_table : ∀ p ∈ dtypeToInt, dtypeCode p.1 = some p.2 := by decide
theorem memoryFormat_table : ∀ p ∈ memoryFormatToInt, memoryFormatCode p.1 = some p.2 := by decide
theorem layout_table : ∀ p ∈ layoutToInt, layoutCode p.1 = some p.2 := by decide

theorem importCode_ok {s : State} {table : List (String × Int)} {key : String} {x : Expect}
    {r : Value × State} (h : importCode s table key x = .ok r) :
    ∃ i, (key, i) ∈ table ∧ s.emit (.const (.int i)) = r := by
  unfold importCode at h
  split at h
  · split at h
    · rename_i i hi
      exact ⟨i, dictGet_mem hi, Except.ok.inj h⟩
    · cases h
  · cases h

/-- A literal becomes a constant with its meaning. -/
theorem importLiteral_ok {s : State} {ρ : List (Nat × NV T)} {ty : Ty} {e : Elem} {x : Expect} {m : V T}
    {r : Value × State} (hn : ∀ n, e ≠ .node n) (hm : meanElem ρ ty e = some m) (hx : ExactElem ty e)
    (h : importLiteral s e x = .ok r) : ∃ c : Const, s.emit (.const c) = r ∧ c.value = m := by
  induction ty with
  | optional t ih =>
    cases e with
    | none =>
      simp only [meanElem, Option.some.injEq] at hm
      exact ⟨.none, Except.ok.inj h, hm⟩
    | node n => exact absurd rfl (hn n)
    | bool b => exact ih (by simpa [meanElem] using hm) (by simpa [ExactElem] using hx)
    | int b => exact ih (by simpa [meanElem] using hm) (by simpa [ExactElem] using hx)
    | float b => exact ih (by simpa [meanElem] using hm) (by simpa [ExactElem] using hx)
    | str b => exact ih (by simpa [meanElem] using hm) (by simpa [ExactElem] using hx)
    | dtype b => exact ih (by simpa [meanElem] using hm) (by simpa [ExactElem] using hx)
    | device a b => exact ih (by simpa [meanElem] using hm) (by simpa [ExactElem] using hx)
    | memoryFormat b => exact ih (by simpa [meanElem] using hm) (by simpa [ExactElem] using hx)
    | layout b => exact ih (by simpa [meanElem] using hm) (by simpa [ExactElem] using hx)
    | nested => exact ih (by simpa [meanElem] using hm) (by simpa [ExactElem] using hx)
    | other => exact ih (by simpa [meanElem] using hm) (by simpa [ExactElem] using hx)
  | list t => cases e <;> first | exact absurd rfl (hn _) | simp [meanElem] at hm
  | tensor => cases e <;> first | exact absurd rfl (hn _) | simp [meanElem] at hm
  | other => cases e <;> first | exact absurd rfl (hn _) | simp [meanElem] at hm
  | bool =>
    cases e with
    | node n => exact absurd rfl (hn n)
    | bool b => exact ⟨.bool b, Except.ok.inj h, by simpa [Const.value, meanElem] using hm⟩
    | _ => simp [meanElem] at hm
  | string =>
    cases e with
    | node n => exact absurd rfl (hn n)
    | str b => exact ⟨.str b, Except.ok.inj h, by simpa [Const.value, meanElem] using hm⟩
    | _ => simp [meanElem] at hm
  | device =>
    cases e with
    | node n => exact absurd rfl (hn n)
    | device t i =>
      simp only [ExactElem] at hx
      subst hx
      exact ⟨.device t, Except.ok.inj h, by simpa [Const.value, meanElem, deviceName] using hm⟩
    | _ => simp [meanElem] at hm
  | number =>
    cases e with
    | node n => exact absurd rfl (hn n)
    | bool b => exact ⟨.bool b, Except.ok.inj h, by simpa [Const.value, meanElem] using hm⟩
    | int b => exact ⟨.int b, Except.ok.inj h, by simpa [Const.value, meanElem] using hm⟩
    | float b => exact ⟨.float b, Except.ok.inj h, by simpa [Const.value, meanElem] using hm⟩
    | _ => simp [meanElem] at hm
  | float =>
    cases e with
    | node n => exact absurd rfl (hn n)
    | bool b => exact absurd hx (by simp [ExactElem])
    | int b => exact absurd hx (by simp [ExactElem])
    | float b => exact ⟨.float b, Except.ok.inj h, by simpa [Const.value, meanElem] using hm⟩
    | _ => simp [meanElem] at hm
  | int =>
    cases e with
    | node n => exact absurd rfl (hn n)
    | bool b => exact absurd hx (by simp [ExactElem])
    | int b => exact ⟨.int b, Except.ok.inj h, by simpa [Const.value, meanElem] using hm⟩
    | dtype d =>
      obtain ⟨i, h1, h2⟩ := importCode_ok h
      refine ⟨.int i, h2, ?_⟩
      simpa [Const.value, meanElem, dtype_table _ h1] using hm
    | memoryFormat d =>
      obtain ⟨i, h1, h2⟩ := importCode_ok h
      refine ⟨.int i, h2, ?_⟩
      simpa [Const.value, meanElem, memoryFormat_table _ h1] using hm
    | layout d =>
      obtain ⟨i, h1, h2⟩ := importCode_ok h
      refine ⟨.int i, h2, ?_⟩
      simpa [Const.value, meanElem, layout_table _ h1] using hm
    | _ => simp [meanElem] at hm

theorem meanElem_node {ρ : List (Nat × NV T)} {ty : Ty} {n : Nat} {m : V T}
    (h : meanElem ρ ty (.node n) = some m) : ∃ t, dictGet ρ n = some (.tensor t) ∧ m = .tensor t := by
  cases hd : dictGet ρ n with
  | none => cases ty <;> simp [meanElem, hd] at h
  | some nv =>
    cases nv with
    | tensor t => exact ⟨t, rfl, by cases ty <;> simpa [meanElem, hd] using h.symm⟩
    | tuple l => cases ty <;> simp [meanElem, hd] at h

theorem lookup_ok {s : State} {n : Nat} {i : Int} {v : Value} (h : s.lookup n i = .ok v) :
    dictGet s.env (n, i) = some v := by
  unfold State.lookup at h
  split at h
  · rename_i v' hv; rw [hv, Except.ok.inj h]
  · cases h

theorem importElem_ok {s : State} {R : List (List (V T))} {ρ : List (Nat × NV T)} {ty : Ty} {e : Elem}
    {x : Expect} {m : V T} {v : Value} {s' : State} (hE : Ev I inputs s R)
    (hR : Rel inputs s.env R ρ) (hm : meanElem ρ ty e = some m) (hx : ExactElem ty e)
    (h : importElem s e (some x) = .ok (v, s')) :
    ∃ R', Ext I inputs s s' R R' ∧ evalValue inputs R' v = some m := by
  by_cases hn : ∃ n, e = .node n
  · obtain ⟨n, rfl⟩ := hn
    obtain ⟨t, ht, rfl⟩ := meanElem_node hm
    obtain ⟨w, hw, hv⟩ := hR n _ ht
    unfold importElem at h
    obtain ⟨w', hw', h⟩ := bind_ok.mp h
    have := lookup_ok hw'
    rw [hw] at this
    cases this
    simp only [Except.ok.injEq, Prod.mk.injEq] at h
    obtain ⟨rfl, rfl⟩ := h
    exact ⟨R, Ext.refl hE, hv⟩
  · have hn : ∀ n, e ≠ .node n := fun n h => hn ⟨n, h⟩
    have h' : importLiteral s e x.strip = .ok (v, s') := by
      cases e <;> first | exact absurd rfl (hn _) | exact h
    obtain ⟨c, hc, rfl⟩ := importLiteral_ok hn hm hx h'
    have := emit_ext (r := [c.value]) (m := c.value) hE rfl hc rfl
    exact ⟨_, this.1, this.2⟩

theorem mapM_append {α β : Type} {f : α → Option β} {a b : List α} {x y : List β}
    (h1 : a.mapM f = some x) (h2 : b.mapM f = some y) : (a ++ b).mapM f = some (x ++ y) := by
  induction a generalizing x with
  | nil => simp only [List.mapM_nil] at h1; cases h1; exact h2
  | cons c a ih =>
    simp only [List.mapM_cons, List.cons_append] at h1 ⊢
    cases hc : f c with
    | none => simp [hc] at h1
    | some z =>
      cases ha : a.mapM f with
      | none => simp [hc, ha] at h1
      | some w =>
        simp [hc, ha] at h1
        subst h1
        simp [ih ha]

theorem mapM_mono {R R' : List (List (V T))} (h : ∃ suf, R' = R ++ suf) {vs : List Value}
    {ms : List (V T)} (hv : vs.mapM (evalValue inputs R) = some ms) :
    vs.mapM (evalValue inputs R') = some ms := by
  obtain ⟨suf, rfl⟩ := h
  induction vs generalizing ms with
  | nil => exact hv
  | cons v vs ih =>
    simp only [List.mapM_cons] at hv ⊢
    cases hc : evalValue inputs R v with
    | none => simp [hc] at hv
    | some z =>
      cases ha : vs.mapM (evalValue inputs R) with
      | none => simp [hc, ha] at hv
      | some w => simpa [evalValue_mono suf hc, ih ha, hc, ha] using hv

/-- A loop that imports one thing per item. -/
theorem fold_import {α : Type} (f : List Value × State → α → Py (List Value × State))
    (mean : α → Option (V T)) (ok : α → Prop) {ρ : List (Nat × NV T)}
    (hf : ∀ (s : State) (R : List (List (V T))) (vs : List Value) (a : α) (m : V T)
      (r : List Value × State), Ev I inputs s R → Rel inputs s.env R ρ → mean a = some m → ok a →
      f (vs, s) a = .ok r →
      ∃ v R', r.1 = vs ++ [v] ∧ Ext I inputs s r.2 R R' ∧ evalValue inputs R' v = some m)
    {l : List α} {s : State} {R : List (List (V T))} {vs : List Value} {ms0 ms : List (V T)}
    {r : List Value × State} (hE : Ev I inputs s R) (hR : Rel inputs s.env R ρ)
    (h0 : vs.mapM (evalValue inputs R) = some ms0)
    (hm : l.mapM mean = some ms) (hok : ∀ a ∈ l, ok a) (h : pyFold f (vs, s) l = .ok r) :
    ∃ R', Ext I inputs s r.2 R R' ∧ r.1.mapM (evalValue inputs R') = some (ms0 ++ ms) := by
  induction l generalizing s R vs ms0 ms with
  | nil =>
    simp only [pyFold, Except.ok.injEq] at h
    subst h
    simp only [List.mapM_nil] at hm
    cases hm
    exact ⟨R, Ext.refl hE, by rw [h0]; simp⟩
  | cons a l ih =>
    simp only [pyFold] at h
    cases hfa : f (vs, s) a with
    | error e => simp [hfa] at h
    | ok p =>
      simp only [hfa] at h
      simp only [List.mapM_cons] at hm
      cases hma : mean a with
      | none => simp [hma] at hm
      | some m =>
        cases hml : l.mapM mean with
        | none => simp [hma, hml] at hm
        | some ml =>
          simp [hma, hml] at hm
          subst hm
          obtain ⟨v, R', e1, e2, e3⟩ := hf s R vs a m p hE hR hma (hok a (by simp)) hfa
          have hvs : p.1.mapM (evalValue inputs R') = some (ms0 ++ [m]) := by
            rw [e1]
            exact mapM_append (mapM_mono e2.2.2.2.2 h0) (by simp [e3])
          obtain ⟨R'', e4, e5⟩ := ih (vs := p.1) (s := p.2) (R := R') e2.2.2.2.1 (hR.ext e2) hvs hml
            (fun x hx => hok x (by simp [hx])) (by simpa using h)
          exact ⟨R'', e2.trans e4, by rw [e5]; simp⟩

theorem importTensorEls {s : State} {R : List (List (V T))} {ρ : List (Nat × NV T)}
    (hR : Rel inputs s.env R ρ) {l : List Elem} {vs : List Value} {ms : List (V T)}
    (h : pyMap (importTensorEl s) l = .ok vs) (hm : l.mapM (meanElem ρ .tensor) = some ms) :
    vs.mapM (evalValue inputs R) = some ms := by
  induction l generalizing vs ms with
  | nil =>
    simp only [pyMap, Except.ok.injEq] at h
    subst h
    exact hm
  | cons e l ih =>
    simp only [pyMap] at h
    cases he : importTensorEl s e with
    | error _ => simp [he] at h
    | ok v =>
      cases hl : pyMap (importTensorEl s) l with
      | error _ => simp [he, hl] at h
      | ok vl =>
        simp only [he, hl, Except.ok.injEq] at h
        subst h
        simp only [List.mapM_cons] at hm
        cases hme : meanElem ρ .tensor e with
        | none => simp [hme] at hm
        | some m =>
          cases hml : l.mapM (meanElem ρ .tensor) with
          | none => simp [hme, hml] at hm
          | some ml =>
            simp [hme, hml] at hm
            subst hm
            unfold importTensorEl at he
            split at he
            · rename_i n
              obtain ⟨t, ht, rfl⟩ := meanElem_node hme
              obtain ⟨w, hw, hv⟩ := hR n _ ht
              have := lookup_ok he
              rw [hw] at this
              cases this
              simp [hv, ih hl hml]
            · cases he

theorem importArg_ok {s : State} {R : List (List (V T))} {ρ : List (Nat × NV T)} {ty : Ty} {a : Arg}
    {m : V T} {v : Value} {s' : State} (hE : Ev I inputs s R) (hR : Rel inputs s.env R ρ)
    (hm : meanArg ρ ty a = some m) (hx : ExactArg ty a)
    (h : importArg s a (some (.jit ty)) = .ok (v, s')) :
    ∃ R', Ext I inputs s s' R R' ∧ evalValue inputs R' v = some m := by
  cases a with
  | elem e => exact importElem_ok hE hR (by simpa [meanArg] using hm) (by simpa [ExactArg] using hx) h
  | list l =>
    simp only [importArg] at h
    induction ty with
    | optional t ih =>
      exact ih (by simpa [meanArg] using hm) (by simpa [ExactArg] using hx) h
    | list t _ =>
      simp only [meanArg] at hm
      cases hl : l.mapM (meanElem ρ t) with
      | none => simp [hl] at hm
      | some ms =>
        simp [hl] at hm
        subst hm
        unfold importList at h
        simp only [Expect.strip, Ty.strip] at h
        split at h
        · rename_i he
          cases he
          obtain ⟨vs, h1, h2⟩ := bind_ok.mp h
          have hv := importTensorEls hR h1 hl
          have := emit_ext (r := [.list ms]) (m := .list ms) hE (by simp [evalOp, hv])
            (Except.ok.inj h2) rfl
          exact ⟨_, this.1, this.2⟩
        · rename_i t' _ he
          cases he
          obtain ⟨u, -, h⟩ := bind_ok.mp h
          obtain ⟨r, h1, h2⟩ := bind_ok.mp h
          obtain ⟨R', e1, e2⟩ := fold_import (I := I) (inputs := inputs) importEl (meanElem ρ t) (ExactElem t)
            (ρ := ρ) (by
              intro s R vs a m r hE hR hm hx h
              unfold importEl at h
              obtain ⟨p, hp, h⟩ := bind_ok.mp h
              obtain ⟨R', e1, e2⟩ := importElem_ok (v := p.1) (s' := p.2) hE hR hm hx hp
              cases h
              exact ⟨p.1, R', rfl, e1, e2⟩) (vs := []) (ms0 := []) hE hR (by simp) hl
            (by simpa [ExactArg] using hx) h1
          have := emit_ext (r := [.list ms]) (m := .list ms) e1.2.2.2.1
            (by simp only [List.nil_append] at e2; simp [evalOp, e2]) (Except.ok.inj h2) rfl
          exact ⟨_, e1.trans this.1, this.2⟩
        · cases h
    | bool => simp [meanArg] at hm
    | int => simp [meanArg] at hm
    | float => simp [meanArg] at hm
    | string => simp [meanArg] at hm
    | tensor => simp [meanArg] at hm
    | number => simp [meanArg] at hm
    | device => simp [meanArg] at hm
    | other => simp [meanArg] at hm

theorem pick_passed {args : List Arg} {kwargs : List (String × Arg)} {i : Nat} {p : Param} {a : Arg}
    (h : passed args kwargs i p = some a) (hv : i < args.length → dictGet kwargs p.name = none)
    (hk : (dictGet kwargs p.name).isSome → p.kwargOnly = true) : pick args kwargs i p = a := by
  unfold passed at h
  unfold pick
  by_cases hi : i < args.length
  · rw [List.getElem?_eq_getElem hi] at h
    simp only [Option.some.injEq] at h
    simp [hv hi, hi, h]
  · rw [List.getElem?_eq_none (by omega)] at h
    simp only at h
    cases hd : dictGet kwargs p.name with
    | some b =>
      simp only [hd, Option.some.injEq] at h
      simp [hk (by simp [hd]), h]
    | none =>
      simp only [hd] at h
      simp [hi, h]

theorem foldl_bind (id op : Nat) (k : Nat) (env : List ((Nat × Int) × Value)) (n : Nat) (i : Int) :
    dictGet ((List.range k).foldl (bindResult id op) env) (n, i) =
      if n = id ∧ 0 ≤ i ∧ i < k then some (.res op i.toNat) else dictGet env (n, i) := by
  induction k with
  | zero =>
    simp only [List.range_zero, List.foldl_nil]
    rw [if_neg (by omega)]
  | succ k ih =>
    rw [List.range_succ, List.foldl_append, List.foldl_cons, List.foldl_nil, bindResult, dictGet_set]
    by_cases h : (n, i) = (id, (k : Int))
    · rw [if_pos (by first | exact h | exact h.symm)]
      cases h
      rw [if_pos (by omega)]
      simp
    · rw [if_neg (by first | exact h | exact fun e => h e.symm), ih]
      have h : ¬ (n = id ∧ i = k) := fun e => h (by rw [e.1, e.2])
      by_cases h' : n = id ∧ 0 ≤ i ∧ i < k
      · rw [if_pos h', if_pos (by omega)]
      · rw [if_neg h', if_neg (by omega)]

theorem fullName_eq (s : Schema) : fullName s = s.opName := by
  unfold fullName Schema.opName
  have h0 : "torch." = "torch" ++ "." := by decide
  by_cases h : s.overload = "" <;> simp [h, String.join, String.append_assoc] <;>
    rw [← String.append_assoc (s₁ := "torch"), ← h0]

end Verif.Dyn
