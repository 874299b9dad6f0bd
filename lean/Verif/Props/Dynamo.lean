import Verif.Lemmas.Dynamo

/-!
# C52, C67: importing TorchDynamo graphs
-/

namespace Verif

open Dyn

/-! ## C52: the argument used for each parameter -/

/-- C52: in a call that passes no parameter twice, and by keyword only keyword-only parameters, each parameter is
given the value passed for it, or its default. -/
theorem C52_arguments_partial (args : List Arg) (kwargs : List (String × Arg)) (ps : List Param)
    (hv : ValidCall args kwargs ps) (hk : KeywordOnly kwargs ps) (i : Nat) (p : Param) (a : Arg)
    (hp : ps[i]? = some p) (h : passed args kwargs i p = some a) : pick args kwargs i p = a :=
  pick_passed h (hv i p hp) (hk p (List.mem_of_getElem? hp))

/-- C52, exactly: in a valid call a parameter is given another value than the passed one if and only if it is not
keyword-only, is passed by keyword, and its default is not that value. -/
theorem C52_when_wrong (args : List Arg) (kwargs : List (String × Arg)) (ps : List Param)
    (hv : ValidCall args kwargs ps) (i : Nat) (p : Param) (a : Arg)
    (hp : ps[i]? = some p) (h : passed args kwargs i p = some a) :
    pick args kwargs i p ≠ a ↔
      p.kwargOnly = false ∧ dictGet kwargs p.name = some a ∧ p.default.getD (.elem .none) ≠ a := by
  by_cases hk : (dictGet kwargs p.name).isSome → p.kwargOnly = true
  · have := pick_passed h (hv i p hp) hk
    constructor
    · exact fun h => absurd this h
    · rintro ⟨h1, h2, -⟩
      have := hk (by simp [h2])
      rw [h1] at this
      cases this
  · simp only [Classical.not_imp, Bool.not_eq_true] at hk
    obtain ⟨hs, hk⟩ := hk
    have hi : ¬ i < args.length := fun hi => by rw [hv i p hp hi] at hs; cases hs
    obtain ⟨b, hb⟩ := Option.isSome_iff_exists.mp hs
    have hab : a = b := by
      unfold passed at h
      rw [List.getElem?_eq_none (by omega)] at h
      simpa [hb] using h.symm
    subst hab
    have : pick args kwargs i p = p.default.getD (.elem .none) := by
      unfold pick
      simp [hk, hi]
    rw [this]
    simp [hk, hb]

/-- C52: in an accepted graph every parameter of every call has a value: passed, or a default. -/
theorem C52_accepted (g : List Node) (h : verify g = .ok ()) (n : Node) (hn : n ∈ g) (s : Schema)
    (hs : n.op = .overload s) (i : Nat) (p : Param) (hp : s.params[i]? = some p) :
    ∃ a, passed n.args n.kwargs i p = some a := by
  have all : ∀ n ∈ g, verifyNode () n = .ok () := by
    unfold verify at h
    clear hn hs hp n
    induction g with
    | nil => intro n hn; cases hn
    | cons m g ih =>
      simp only [pyFold] at h
      cases hm : verifyNode () m with
      | error e => simp [hm] at h
      | ok u =>
        simp only [hm] at h
        intro n hn
        rcases List.mem_cons.mp hn with rfl | hn
        · exact hm
        · exact ih h n hn
  have h := all n hn
  unfold verifyNode at h
  simp only [hs] at h
  obtain ⟨_, -, h⟩ := bind_ok.mp h
  obtain ⟨_, -, h⟩ := bind_ok.mp h
  obtain ⟨_, -, h⟩ := bind_ok.mp h
  have hall : ∀ q ∈ s.params.drop n.args.length, checkParam n q = .ok () := by
    generalize s.params.drop n.args.length = l at h
    induction l with
    | nil => intro q hq; cases hq
    | cons m g ih =>
      simp only [pyFold] at h
      cases hm : checkParam n m with
      | error e => simp [hm] at h
      | ok u =>
        simp only [hm] at h
        intro q hq
        rcases List.mem_cons.mp hq with rfl | hq
        · exact hm
        · exact ih h q hq
  unfold passed
  cases ha : n.args[i]? with
  | some a => exact ⟨a, rfl⟩
  | none =>
    have hlen := List.getElem?_eq_none_iff.mp ha
    have hmem : p ∈ s.params.drop n.args.length := by
      rw [List.mem_iff_getElem?]
      exact ⟨i - n.args.length, by rw [List.getElem?_drop, show n.args.length + (i - n.args.length) = i by omega, hp]⟩
    have := hall p hmem
    unfold checkParam at this
    rw [pyGuard_ok] at this
    simp only [Bool.or_eq_true] at this
    cases hd : dictGet n.kwargs p.name with
    | some a => exact ⟨a, rfl⟩
    | none =>
      rcases this with h | h
      · obtain ⟨a, ha⟩ := Option.isSome_iff_exists.mp h
        exact ⟨a, ha⟩
      · rw [hd] at h; cases h

/-- `aten.relu(x, scale=2)`-like call: `scale` is an ordinary parameter with default 1. -/
def Dyn.demoSchema : Schema :=
  ⟨"aten", "f", "Tensor", [⟨"x", .tensor, false, none⟩, ⟨"scale", .int, false, some (.elem (.int 1))⟩,
    ⟨"dtype", .optional .int, true, some (.elem .none)⟩], [.tensor]⟩

/-- A placeholder, the call, and the output. -/
def Dyn.demoGraph (kwargs : List (String × Arg)) : List Node :=
  [⟨0, .placeholder, [], [], .tensor⟩,
    ⟨1, .overload demoSchema, [.elem (.node 0)], kwargs, .tensor⟩,
    ⟨2, .output [.elem (.node 1)], [], [], .missing⟩]

/-- C52 fails for ordinary parameters passed by keyword: the graph is accepted and the default is used. -/
theorem C52_violated : ∃ (g : List Node) (f : Func) (n : Node) (s : Schema) (p : Param),
    importGraph (fun _ => true) g = .ok f ∧ n ∈ g ∧ n.op = .overload s ∧ s.params[1]? = some p ∧
    ValidCall n.args n.kwargs s.params ∧
    passed n.args n.kwargs 1 p = some (.elem (.int 2)) ∧ .const (.int 2) ∉ f.ops ∧
    .const (.int 1) ∈ f.ops := by
  refine ⟨demoGraph [("scale", .elem (.int 2))], ⟨[.const (.int 1), .const .none,
    .call "torch.aten.f.Tensor" [.arg 0, .res 0 0, .res 1 0] 1], some [.res 2 0]⟩,
    ⟨1, .overload demoSchema, [.elem (.node 0)], [("scale", .elem (.int 2))], .tensor⟩, demoSchema,
    ⟨"scale", .int, false, some (.elem (.int 1))⟩, by decide +kernel, by simp [demoGraph], rfl, rfl, ?_,
    rfl, by decide, by decide⟩
  intro i p hp hi
  have : i = 0 := by simp at hi; omega
  subst this
  simp only [demoSchema, List.getElem?_cons_zero, Option.some.injEq] at hp
  subst hp
  rfl

/-! ## C67: what the imported function computes -/

namespace Dyn

variable {T : Type} {I : Interp T} {inputs : List T}

/-- Invariant of the loop over the nodes. -/
structure Inv (I : Interp T) (inputs : List T) (g : List Node) (s : State) (R : List (List (V T)))
    (σ : FxState T) : Prop where
  ev : Ev I inputs s R
  rel : Rel inputs s.env R σ.ρ
  rest : σ.inputs = inputs.drop s.seen
  outs : ∀ ts, σ.outs = some ts → ∃ vs, s.returned = some vs ∧
    vs.mapM (evalValue inputs R) = some (ts.map .tensor)
  nonneg : ∀ (m : Nat) (i : Int) (v : Value), dictGet s.env (m, i) = some v → 0 ≤ i
  single : ∀ (m : Nat) (t : T), dictGet σ.ρ m = some (.tensor t) →
    ∃ k ∈ g, k.id = m ∧ ¬ ((∃ c, k.val = .tensors c) ∧ ∃ s, k.op = .overload s)

theorem nonneg_set {env : List ((Nat × Int) × Value)} {n : Nat} {w : Value}
    (h : ∀ (m : Nat) (i : Int) (v : Value), dictGet env (m, i) = some v → 0 ≤ i) (m : Nat) (i : Int)
    (v : Value) (hm : dictGet (dictSet env (n, 0) w) (m, i) = some v) : 0 ≤ i := by
  rw [dictGet_set] at hm
  split at hm
  · rename_i e; cases e; omega
  · exact h m i v hm

theorem enumerate_mem {α : Type} {l : List α} {ip : Nat × α} (h : ip ∈ enumerate l) :
    l[ip.1]? = some ip.2 := by
  unfold enumerate at h
  obtain ⟨k, hk⟩ := List.mem_iff_getElem?.mp h
  rw [List.getElem?_zip_eq_some] at hk
  obtain ⟨h1, h2⟩ := hk
  have := List.getElem?_eq_some_iff.mp h1
  obtain ⟨h3, h4⟩ := this
  rw [List.getElem_range] at h4
  rw [← h4]
  exact h2

theorem step_call {reg : String → Bool} {g : List Node} {s s' : State} {R : List (List (V T))}
    {σ σ' : FxState T} {n : Node} {sch : Schema} (hg : n ∈ g) (hi : Inv I inputs g s R σ)
    (hop : n.op = .overload sch) (hok : NodeOk n) (hf : fxStep I σ n = some σ')
    (h : importCall reg s n sch = .ok s') : ∃ R', Inv I inputs g s' R' σ' := by
  unfold importCall at h
  obtain ⟨_, -, h⟩ := bind_ok.mp h
  obtain ⟨r, h1, h⟩ := bind_ok.mp h
  unfold fxStep at hf
  simp only [hop, Option.bind_eq_bind, Option.bind_eq_some_iff] at hf
  obtain ⟨vs, hvs, nv, hnv, hf⟩ := hf
  unfold NodeOk at hok
  simp only [hop] at hok
  obtain ⟨hv, hk, hx⟩ := hok
  obtain ⟨R', e1, e2⟩ := fold_import (I := I) (inputs := inputs) (importParam n) (meanParam σ.ρ n)
    (fun ip => sch.params[ip.1]? = some ip.2) (ρ := σ.ρ) (by
      intro s R ws ip m r hE hR hm hp h
      unfold importParam at h
      obtain ⟨q, hq, h⟩ := bind_ok.mp h
      unfold meanParam at hm
      obtain ⟨a, ha, hm⟩ := Option.bind_eq_some_iff.mp hm
      rw [pick_passed ha (hv ip.1 ip.2 hp) (hk ip.2 (List.mem_of_getElem? hp))] at hq
      obtain ⟨R', e1, e2⟩ := importArg_ok (v := q.1) (s' := q.2) hE hR hm (hx _ _ _ hp ha) hq
      cases h
      exact ⟨q.1, R', rfl, e1, e2⟩) (vs := []) (ms0 := []) hi.ev hi.rel (by simp) hvs
    (fun ip hip => enumerate_mem hip) h1
  simp only [List.nil_append] at e2
  cases h
  cases hf
  rw [fullName_eq] at hnv
  have hlen : (I.call sch.opName vs).length = n.results := by
    unfold asNode at hnv
    unfold Node.results
    split at hnv
    · rename_i t hv ht
      simp [hv, ht]
    · rename_i k hv
      split at hnv
      · rename_i hk
        simp [hv, hk]
      · cases hnv
    · cases hnv
  have hev : Ev I inputs { r.2 with
      ops := r.2.ops ++ [.call sch.opName r.1 n.results]
      env := (List.range n.results).foldl (bindResult n.id r.2.ops.length) r.2.env }
      (R' ++ [(I.call sch.opName vs).map .tensor]) := by
    have := e1.2.2.2.1
    unfold Ev at this ⊢
    simp only
    rw [evalOps_append, this]
    simp [evalOps, evalOp, e2, hlen]
  have hrl : R'.length = r.2.ops.length := e1.2.2.2.1.length
  have hres : ∀ (j : Nat) (t : T), (I.call sch.opName vs)[j]? = some t →
      evalValue inputs (R' ++ [(I.call sch.opName vs).map .tensor]) (.res r.2.ops.length j) =
        some (.tensor t) := by
    intro j t hj
    simp only [evalValue]
    rw [← hrl]
    simp [hj]
  refine ⟨R' ++ [(I.call sch.opName vs).map .tensor], hev, ?_, ?_, ?_, ?_, ?_⟩
  · intro m mv hm
    simp only at hm ⊢
    rw [dictGet_set] at hm
    by_cases hmn : m = n.id
    · subst hmn
      simp only [if_true, Option.some.injEq] at hm
      subst hm
      unfold asNode at hnv
      split at hnv
      · rename_i t hv' ht
        cases hnv
        refine ⟨.res r.2.ops.length 0, ?_, hres 0 t (by simp [ht])⟩
        rw [foldl_bind, if_pos ⟨rfl, by omega, by simp [Node.results, hv']⟩]
        rfl
      · rename_i k hv'
        split at hnv
        · rename_i hk'
          cases hnv
          intro j t hj
          have hjl : j < (I.call sch.opName vs).length := (List.getElem?_eq_some_iff.mp hj).1
          refine ⟨.res r.2.ops.length j, ?_, hres j t hj⟩
          rw [foldl_bind, if_pos ⟨rfl, by omega, by simp only [Node.results, hv']; omega⟩]
          simp
        · cases hnv
      · cases hnv
    · rw [if_neg (by first | exact hmn | exact fun e => hmn e.symm)] at hm
      have := hi.rel.ext e1 m mv hm
      cases mv with
      | tensor t =>
        obtain ⟨v, h1, h2⟩ := this
        refine ⟨v, ?_, evalValue_mono _ h2⟩
        rw [foldl_bind, if_neg (fun h => hmn h.1)]
        exact h1
      | tuple l =>
        intro j t hj
        obtain ⟨v, h1, h2⟩ := this j t hj
        refine ⟨v, ?_, evalValue_mono _ h2⟩
        rw [foldl_bind, if_neg (fun h => hmn h.1)]
        exact h1
  · simp only
    rw [e1.2.1]
    exact hi.rest
  · intro ts hts
    obtain ⟨ws, h1, h2⟩ := hi.outs ts hts
    refine ⟨ws, by simp only; rw [e1.2.2.1, h1], ?_⟩
    obtain ⟨suf, rfl⟩ := e1.2.2.2.2
    exact mapM_mono ⟨suf ++ [(I.call sch.opName vs).map .tensor], by rw [List.append_assoc]⟩ h2
  · intro m i v hm
    simp only at hm
    rw [foldl_bind] at hm
    split at hm
    · rename_i hc; exact hc.2.1
    · rw [e1.1] at hm; exact hi.nonneg m i v hm
  · intro m t hm
    simp only at hm
    rw [dictGet_set] at hm
    by_cases hmn : m = n.id
    · subst hmn
      simp only [if_true, Option.some.injEq] at hm
      subst hm
      refine ⟨n, hg, rfl, ?_⟩
      rintro ⟨⟨c, hc⟩, -⟩
      rw [hc] at hnv
      simp only [asNode] at hnv
      split at hnv <;> cases hnv
    · rw [if_neg (by first | exact hmn | exact fun e => hmn e.symm)] at hm
      exact hi.single m t hm

theorem importOuts {s : State} {R : List (List (V T))} {ρ : List (Nat × NV T)}
    (hR : Rel inputs s.env R ρ) {l : List Arg} {ts ts0 : List T} {vs : List Value}
    {r : List Value × State} (h0 : vs.mapM (evalValue inputs R) = some (ts0.map .tensor))
    (hl : l.mapM (outTensor ρ) = some ts) (h : pyFold importOut (vs, s) l = .ok r) :
    r.2 = s ∧ r.1.mapM (evalValue inputs R) = some ((ts0 ++ ts).map .tensor) := by
  induction l generalizing vs ts0 ts with
  | nil =>
    simp only [pyFold, Except.ok.injEq] at h
    subst h
    simp only [List.mapM_nil] at hl
    cases hl
    exact ⟨rfl, by simpa using h0⟩
  | cons a l ih =>
    simp only [pyFold] at h
    cases ha : importOut (vs, s) a with
    | error e => simp [ha] at h
    | ok p =>
      simp only [ha] at h
      simp only [List.mapM_cons] at hl
      cases hta : outTensor ρ a with
      | none => simp [hta] at hl
      | some t =>
        cases htl : l.mapM (outTensor ρ) with
        | none => simp [hta, htl] at hl
        | some tl =>
          simp [hta, htl] at hl
          subst hl
          unfold outTensor at hta
          split at hta
          · rename_i n
            split at hta
            · rename_i t' ht'
              cases hta
              obtain ⟨w, hw, hv⟩ := hR n _ ht'
              unfold importOut at ha
              obtain ⟨q, hq, ha⟩ := bind_ok.mp ha
              simp only [importArg, importElem] at hq
              obtain ⟨w', hw', hq⟩ := bind_ok.mp hq
              have := lookup_ok hw'
              rw [hw] at this
              cases this
              cases hq
              cases ha
              have := ih (vs := vs ++ [w]) (ts0 := ts0 ++ [t]) (ts := tl) (by
                rw [List.map_append]
                exact mapM_append h0 (by simp [hv])) htl h
              simpa using this
            · cases hta
          · cases hta

end Dyn

/-- C67: for every domain of tensors and meaning of the operators, the imported function returns the
values the graph computes, on all inputs for which the graph is defined, if no parameter is passed twice or by
keyword unless keyword-only, no literal needs a conversion, and items are taken only of nodes with several
results. -/
theorem C67_meaning_partial {T : Type} (I : Interp T) (reg : String → Bool) (g : List Node) (f : Func)
    (inputs : List T) (outs : List T) (hnode : ∀ n ∈ g, NodeOk n) (hget : GetitemOk g)
    (h : importGraph reg g = .ok f) (hf : fxEval I g inputs = some outs) :
    evalFunc I f inputs = some (outs.map .tensor) := by
  unfold importGraph at h
  obtain ⟨_, -, h⟩ := bind_ok.mp h
  obtain ⟨s', h1, h⟩ := bind_ok.mp h
  cases h
  unfold fxEval at hf
  obtain ⟨σ', h2, h3⟩ := Option.bind_eq_some_iff.mp hf
  have key : ∀ (l : List Node) (s : State) (R : List (List (V T))) (σ : FxState T), (∀ n ∈ l, n ∈ g) →
      Inv I inputs g s R σ → pyFold (importNode reg) s l = .ok s' → fxRun I σ l = some σ' →
      ∃ R', Inv I inputs g s' R' σ' := by
    intro l
    induction l with
    | nil =>
      intro s R σ _ hi h1 h2
      simp only [pyFold, Except.ok.injEq] at h1
      simp only [fxRun, Option.some.injEq] at h2
      subst h1 h2
      exact ⟨R, hi⟩
    | cons n l ih =>
      intro s R σ hsub hi h1 h2
      simp only [pyFold] at h1
      simp only [fxRun] at h2
      have hn := hsub n (by simp)
      cases hs : importNode reg s n with
      | error e => simp [hs] at h1
      | ok s1 =>
        simp only [hs] at h1
        cases hσ : fxStep I σ n with
        | none => simp [hσ] at h2
        | some σ1 =>
          simp only [hσ] at h2
          suffices hstep : ∃ R1, Inv I inputs g s1 R1 σ1 by
            obtain ⟨R1, hi1⟩ := hstep
            exact ih s1 R1 σ1 (fun k hk => hsub k (by simp [hk])) hi1 h1 h2
          unfold importNode at hs
          cases hop : n.op with
          | overload sch =>
            simp only [hop] at hs
            exact step_call hn hi hop (hnode n hn) hσ hs
          | placeholder =>
            simp only [hop, Except.ok.injEq] at hs
            unfold fxStep at hσ
            simp only [hop] at hσ
            split at hσ
            · rename_i t rest hin
              cases hσ
              subst hs
              have hdrop : inputs.drop s.seen = t :: rest := by rw [← hi.rest, hin]
              have hget0 : inputs[s.seen]? = some t := by
                have := congrArg (·[0]?) hdrop
                simpa using this
              refine ⟨R, hi.ev, ?_, ?_, hi.outs, nonneg_set hi.nonneg, ?_⟩
              · intro m mv hm
                simp only at hm ⊢
                rw [dictGet_set] at hm
                by_cases hmn : m = n.id
                · subst hmn
                  simp only [if_true, Option.some.injEq] at hm
                  subst hm
                  exact ⟨.arg s.seen, by rw [dictGet_set, if_pos rfl], by simp [evalValue, hget0]⟩
                · rw [if_neg (by first | exact hmn | exact fun e => hmn e.symm)] at hm
                  have := hi.rel m mv hm
                  cases mv with
                  | tensor t =>
                    obtain ⟨v, h1, h2⟩ := this
                    refine ⟨v, ?_, h2⟩
                    rw [dictGet_set, if_neg (by simp; first | exact hmn | exact fun e => hmn e.symm)]
                    exact h1
                  | tuple l =>
                    intro j t hj
                    obtain ⟨v, h1, h2⟩ := this j t hj
                    refine ⟨v, ?_, h2⟩
                    rw [dictGet_set, if_neg (by simp; first | exact fun e => absurd e hmn | exact fun e => absurd e.symm hmn)]
                    exact h1
              · simp only
                rw [← List.drop_drop, hdrop]
                rfl
              · intro m t' hm
                simp only at hm
                rw [dictGet_set] at hm
                by_cases hmn : m = n.id
                · subst hmn
                  refine ⟨n, hn, rfl, ?_⟩
                  rintro ⟨-, s, hs⟩
                  rw [hop] at hs
                  cases hs
                · rw [if_neg (by first | exact hmn | exact fun e => hmn e.symm)] at hm
                  exact hi.single m t' hm
            · cases hσ
          | getitem =>
            simp only [hop] at hs
            unfold fxStep at hσ
            simp only [hop] at hσ
            split at hσ
            · rename_i m i hargs
              simp only [Option.bind_eq_bind, Option.bind_eq_some_iff] at hσ
              obtain ⟨nv, hnv, t, ht, hσ⟩ := hσ
              cases hσ
              unfold importGetitem at hs
              simp only [hargs, indexKey] at hs
              obtain ⟨v, hv, hs⟩ := bind_ok.mp hs
              have hv := lookup_ok hv
              cases hs
              have hval : evalValue inputs R v = some (.tensor t) := by
                cases nv with
                | tensor t' =>
                  obtain ⟨k, hk, hkm, hno⟩ := hi.single m t' hnv
                  obtain ⟨c, hc, hks⟩ := hget n hn hop m i hargs k hk hkm
                  exact absurd ⟨⟨c, hc⟩, hks⟩ hno
                | tuple l =>
                  by_cases hi0 : 0 ≤ i
                  · simp only [item, hi0, if_true] at ht
                    obtain ⟨w, hw, hwv⟩ := hi.rel m _ hnv i.toNat t ht
                    rw [Int.toNat_of_nonneg hi0, hv] at hw
                    cases hw
                    exact hwv
                  · exact absurd (hi.nonneg m i v hv) hi0
              refine ⟨R, hi.ev, ?_, hi.rest, hi.outs, nonneg_set hi.nonneg, ?_⟩
              · intro m' mv hm
                simp only at hm ⊢
                rw [dictGet_set] at hm
                by_cases hmn : m' = n.id
                · subst hmn
                  simp only [if_true, Option.some.injEq] at hm
                  subst hm
                  exact ⟨v, by rw [dictGet_set, if_pos rfl], hval⟩
                · rw [if_neg (by first | exact hmn | exact fun e => hmn e.symm)] at hm
                  have := hi.rel m' mv hm
                  cases mv with
                  | tensor t =>
                    obtain ⟨v, h1, h2⟩ := this
                    refine ⟨v, ?_, h2⟩
                    rw [dictGet_set, if_neg (by simp; first | exact hmn | exact fun e => hmn e.symm)]
                    exact h1
                  | tuple l =>
                    intro j t hj
                    obtain ⟨v, h1, h2⟩ := this j t hj
                    refine ⟨v, ?_, h2⟩
                    rw [dictGet_set, if_neg (by simp; first | exact fun e => absurd e hmn | exact fun e => absurd e.symm hmn)]
                    exact h1
              · intro m' t' hm
                simp only at hm
                rw [dictGet_set] at hm
                by_cases hmn : m' = n.id
                · subst hmn
                  refine ⟨n, hn, rfl, ?_⟩
                  rintro ⟨-, s, hs⟩
                  rw [hop] at hs
                  cases hs
                · rw [if_neg (by first | exact hmn | exact fun e => hmn e.symm)] at hm
                  exact hi.single m' t' hm
            · cases hσ
          | otherCall => simp [hop] at hs
          | otherOp => simp [fxStep, hop] at hσ
          | output os =>
            simp only [hop] at hs
            obtain ⟨r, hr, hs⟩ := bind_ok.mp hs
            unfold fxStep at hσ
            simp only [hop, Option.bind_eq_bind, Option.bind_eq_some_iff] at hσ
            obtain ⟨ts, hts, hσ⟩ := hσ
            cases hσ
            cases hs
            obtain ⟨e1, e2⟩ := importOuts (inputs := inputs) (ts0 := []) hi.rel (vs := []) (by simp) hts hr
            rw [e1]
            refine ⟨R, hi.ev, hi.rel, hi.rest, ?_, hi.nonneg, hi.single⟩
            intro ts' hts'
            cases hts'
            exact ⟨r.1, rfl, by simpa using e2⟩
  obtain ⟨R', hi⟩ := key g ⟨[], [], 0, none⟩ [] ⟨[], inputs, none⟩ (fun _ h => h)
    ⟨rfl, (fun n nv h => by cases h), (by simp), (fun ts h => by cases h), (fun m i v h => by cases h),
      (fun m t h => by cases h)⟩ h1 h2
  obtain ⟨vs, e1, e2⟩ := hi.outs outs h3
  have he : evalOps I inputs [] s'.ops = some R' := hi.ev
  simp [evalFunc, he, e1, e2]

/-- A function of a tensor and a float that gives two results, and their use. -/
def Dyn.pairGraph (x : Elem) : List Node :=
  [⟨0, .placeholder, [], [], .tensor⟩,
    ⟨1, .overload ⟨"aten", "max", "dim", [⟨"self", .tensor, false, none⟩, ⟨"p", .float, false, none⟩],
      [.tensor, .tensor]⟩, [.elem (.node 0), .elem x], [], .tensors 2⟩,
    ⟨2, .getitem, [.elem (.node 1), .elem (.int 1)], [], .tensor⟩,
    ⟨3, .overload ⟨"aten", "cat", "", [⟨"ts", .list .tensor, false, none⟩,
      ⟨"device", .optional .device, true, some (.elem .none)⟩], [.tensor]⟩,
      [.list [.node 2, .node 0]], [("device", .elem (.device "cpu" none))], .tensor⟩,
    ⟨4, .output [.elem (.node 3), .elem (.node 2)], [], [], .missing⟩]

/-- A meaning over the integers. -/
def Dyn.demoInterp : Interp Int where
  call name vs := match name, vs with
    | "torch.aten.max.dim", [.tensor t, .float q] => [t, t + q.num]
    | "torch.aten.max.dim", [.tensor t, .int _] => [t, t]
    | "torch.aten.cat", [.list [.tensor a, .tensor b], .device "cpu"] => [a * 100 + b]
    | _, _ => [0]
  index t i := t * 1000 + i

/-- The hypotheses of `C67_meaning_partial` hold of `pairGraph` with a float, and it computes something. -/
example : (∀ n ∈ Dyn.pairGraph (.float 3), NodeOk n) ∧ GetitemOk (Dyn.pairGraph (.float 3)) ∧
    (∃ f, importGraph (fun _ => true) (Dyn.pairGraph (.float 3)) = .ok f ∧ f.ops.length = 5) ∧
    fxEval Dyn.demoInterp (Dyn.pairGraph (.float 3)) [5] = some [805, 8] := by
  refine ⟨?_, ?_, ?_, ?_⟩
  · intro n hn
    simp only [Dyn.pairGraph, List.mem_cons, List.not_mem_nil, or_false] at hn
    rcases hn with rfl | rfl | rfl | rfl | rfl
    · trivial
    · refine ⟨fun i p _ _ => rfl, fun p _ h => by simp [dictGet] at h, fun i p a hp ha => ?_⟩
      match i with
      | 0 => cases hp; cases ha; trivial
      | 1 => cases hp; cases ha; trivial
      | n + 2 => simp at hp
    · trivial
    · refine ⟨fun i p hp hi => ?_, fun p hp h => ?_, fun i p a hp ha => ?_⟩
      · have : i = 0 := by simp at hi; omega
        subst this
        cases hp
        rfl
      · simp only [List.mem_cons, List.not_mem_nil, or_false] at hp
        rcases hp with rfl | rfl
        · exact absurd h (by decide)
        · rfl
      · match i with
        | 0 => cases hp; cases ha; intro e he; simp at he; rcases he with rfl | rfl <;> trivial
        | 1 => cases hp; cases ha; rfl
        | n + 2 => simp at hp
    · trivial
  · intro n hn hop m i hargs k hk hkm
    simp only [Dyn.pairGraph, List.mem_cons, List.not_mem_nil, or_false] at hn
    rcases hn with rfl | rfl | rfl | rfl | rfl <;> simp at hop
    simp only [List.cons.injEq, Arg.elem.injEq, Elem.node.injEq] at hargs
    obtain ⟨rfl, -⟩ := hargs
    simp only [Dyn.pairGraph, List.mem_cons, List.not_mem_nil, or_false] at hk
    rcases hk with rfl | rfl | rfl | rfl | rfl <;> simp at hkm
    exact ⟨2, rfl, _, rfl⟩
  · exact ⟨_, rfl, by decide +kernel⟩
  · with_unfolding_all rfl

/-- C67 fails when an integer literal is passed for a float parameter: an integer constant is made. -/
theorem C67_violated_integer : ∃ (g : List Node) (f : Func) (I : Interp Int) (inputs outs : List Int),
    importGraph (fun _ => true) g = .ok f ∧ fxEval I g inputs = some outs ∧
    (evalFunc I f inputs).map (fun l => l.length) = some 2 ∧
    evalFunc I f inputs ≠ some (outs.map .tensor) := by
  refine ⟨Dyn.pairGraph (.int 3), _, Dyn.demoInterp, [5], [805, 8], rfl, by with_unfolding_all rfl,
    by with_unfolding_all rfl, ?_⟩
  intro h
  have h' : (some [.tensor 505, .tensor 5] : Option (List (V Int))) = some [.tensor 805, .tensor 8] := h
  simp at h'

/-- A graph that takes item 0 of its input. -/
def Dyn.itemGraph : List Node :=
  [⟨0, .placeholder, [], [], .tensor⟩,
    ⟨1, .getitem, [.elem (.node 0), .elem (.int 0)], [], .tensor⟩,
    ⟨2, .output [.elem (.node 1)], [], [], .missing⟩]

/-- C67 fails for an item of a tensor: the tensor itself is returned. -/
theorem C67_violated_item : ∃ (g : List Node) (f : Func) (I : Interp Int) (inputs outs : List Int),
    importGraph (fun _ => true) g = .ok f ∧ fxEval I g inputs = some outs ∧
    evalFunc I f inputs = some (inputs.map .tensor) ∧ outs ≠ inputs :=
  ⟨Dyn.itemGraph, ⟨[], some [.arg 0]⟩, Dyn.demoInterp, [5], [5000], by decide +kernel, by decide +kernel,
    rfl, by decide⟩

/-- C67 fails for devices with an index: the index is dropped. -/
theorem C67_violated_device : ∃ (s s' : State) (v : Value),
    importArg s (.elem (.device "cuda" (some 1))) (some (.jit .device)) = .ok (v, s') ∧
    (meanArg (T := Int) [] .device (.elem (.device "cuda" (some 1))) = some (.device "cuda:1")) ∧
    s'.ops = [.const (.device "cuda")] :=
  ⟨⟨[], [], 0, none⟩, ⟨[.const (.device "cuda")], [], 0, none⟩, .res 0 0, rfl, rfl, rfl⟩

end Verif
