import Verif.Lemmas.FxGetitem
import Verif.Props.FxDemo

/-!
# FX importer: C04, C05, C06, C12, C21
-/

namespace Verif
open Verif.Fx Verif.Fx.Spec

variable {env : Env} {sig : Sig} {sym : Bool} {symbols : List String} {f : Func}

/-! ## C04: SSA form -/

/-- **C04.** Every function imported from an exported program is in SSA form: operands are block
arguments or results of earlier operations, and results are never defined twice. -/
theorem C04_program_ssa (h : importProgram env sig sym symbols = .ok f) :
    SSA f.argTys.length f.final.ops := by
  obtain ⟨outs, ins, s1, s2, _, _, _, _, _, _, _, hp⟩ := importProgram_spec h
  obtain ⟨_, _, _, _, _, _, w, _⟩ := hp _ _ _ freePhases
  exact w.ssa

/-- **C04** for `import_stateless_graph`. -/
theorem C04_stateless_ssa (h : importStateless env sym symbols = .ok f) :
    SSA f.argTys.length f.final.ops := by
  obtain ⟨_, _, hp⟩ := importStateless_spec h
  exact (hp freeScope fun _ _ _ => freeScope_node).1.ssa

/-- **C04.** Every value an FX node result is bound to exists: it is a block argument or the result
of an emitted operation. -/
theorem C04_values_defined (h : importProgram env sig sym symbols = .ok f) (r : Ref) (i : Int) (x : Nat)
    (hx : dictGet f.final.v (.ref r i) = some (.val x)) :
    x < f.argTys.length ∨ ∃ o ∈ f.final.ops, x ∈ o.results := by
  obtain ⟨outs, ins, s1, s2, _, _, _, _, _, _, _, hp⟩ := importProgram_spec h
  obtain ⟨_, _, _, _, _, _, w, _⟩ := hp _ _ _ freePhases
  exact defined_of_wf w (w.vals _ _ hx)

/-- **C04.** Nothing is rebound: a value bound, or an operation emitted, before some node is imported
is still there unchanged at the end. -/
theorem C04_never_rebound {tys : List VTy} {nArgs : Nat} {skip : Bool} {pre post : List Nat} {s s' : St}
    (hA : nArgs ≤ tys.length)
    (h1 : importNodesLoop env skip sym nArgs 0 pre (St.init tys) = .ok ((), s)) (ph : Nat)
    (h2 : importNodesLoop env skip sym nArgs ph post s = .ok ((), s')) :
    (∀ r i x, dictGet s.v (.ref r i) = some (.val x) → dictGet s'.v (.ref r i) = some (.val x)) ∧
    s.ops <+: s'.ops := by
  have w0 := WF.init tys
  obtain ⟨r1, _⟩ := Good.importNodesLoop (sc := freeScope) hA pre 0 _ w0 (fun _ _ _ _ => freeScope_node) _ _ h1
  obtain ⟨r2, _⟩ := Good.importNodesLoop (sc := freeScope) hA post ph _ (r1.wf w0) (fun _ _ _ _ => freeScope_node) _ _ h2
  obtain ⟨o, ho⟩ := r2.ext.ops
  exact ⟨fun r i x hx => r2.ext.v _ _ hx, ho ▸ List.prefix_append _ _⟩

/-! ## C06: operands follow the schema -/

/-- **C06.** For every call of an aten op in an imported program there is an emitted op with exactly one
operand per schema parameter; operand `i` is the value of the positional argument `i`, else of the
keyword argument with the parameter's name, else of the schema default; its results are the results of
the node. -/
theorem C06_program_operands (h : importProgram env sig sym symbols = .ok f) {i : Nat} {node : Node}
    (hn : env.nodes[i]? = some node) {sch : Schema} {args : List Arg} {kwargs : List (String × Arg)}
    (hop : node.op = .call (.overload sch) args kwargs)
    {sch' : Schema} {args' : List Arg} {kwargs' : List (String × Arg)}
    (hc : env.canon sch args kwargs = .ok (some (sch', args', kwargs'))) :
    ∃ sch'' o, SchemaFor env sch' args' sch'' ∧ OpFor f.final (.graph i) sch'' args' kwargs' o ∧
      ResultsAre f.final (resultTypes sch'' node) o := by
  obtain ⟨outs, ins, s1, s2, _, _, _, _, _, _, _, hp⟩ := importProgram_spec h
  obtain ⟨_, _, _, w2, _, ok, _, r3, _⟩ := hp _ _ _ freePhases
  have := ok i (mem_producers.mpr ⟨node, hn, by simp [isProducer, hop]⟩) node hn
  exact opFor_of_nodeOk (NodeOk.mono w2 r3.ext this) hop hc

/-- **C06** for `import_stateless_graph`. -/
theorem C06_stateless_operands (h : importStateless env sym symbols = .ok f) {i : Nat} {node : Node}
    (hn : env.nodes[i]? = some node) {sch : Schema} {args : List Arg} {kwargs : List (String × Arg)}
    (hop : node.op = .call (.overload sch) args kwargs)
    {sch' : Schema} {args' : List Arg} {kwargs' : List (String × Arg)}
    (hc : env.canon sch args kwargs = .ok (some (sch', args', kwargs'))) :
    ∃ sch'' o, SchemaFor env sch' args' sch'' ∧ OpFor f.final (.graph i) sch'' args' kwargs' o ∧
      ResultsAre f.final (resultTypes sch'' node) o := by
  obtain ⟨_, _, hp⟩ := importStateless_spec h
  exact opFor_of_nodeOk ((hp freeScope fun _ _ _ => freeScope_node).2.2 i node hn) hop hc

/-- **C04.** A node has one value: two operands for the same FX node (as tensor parameters) are the same
SSA value. -/
theorem C04_one_value {s : St} {args args' : List Arg} {kwargs kwargs' : List (String × Arg)} {i j : Nat}
    {p q : Param} {x y : Nat} {r : Ref} (hp : p.ty = .tensor) (hq : q.ty = .tensor)
    (hx : OperandIs s args kwargs i p x) (hy : OperandIs s args' kwargs' j q y)
    (ha : args[i]? = some (.node r)) (hb : args'[j]? = some (.node r)) : x = y := by
  have val : ∀ {args : List Arg} {kwargs : List (String × Arg)} {i : Nat} {p : Param} {x : Nat}, p.ty = .tensor →
      args[i]? = some (.node r) → OperandIs s args kwargs i p x → NodeIs s r x := by
    intro args kwargs i p x hp ha hx
    obtain ⟨a, e, hpass, hv⟩ := hx
    have hlt : i < args.length := (List.getElem?_eq_some_iff.mp ha).1
    cases hpass with
    | positional h' =>
      rw [ha] at h'; cases h'
      rw [if_pos rfl] at hv
      obtain ⟨z, h1, h2⟩ := hv
      rw [hp] at h2
      unfold AdaptIs at h2
      split at h2 <;> simp_all [RawIs]
    | keyword h' _ _ => omega
    | default h' _ => omega
  have h1 := val hp ha hx
  have h2 := val hq hb hy
  unfold NodeIs at h1 h2
  rw [h1] at h2
  cases h2
  rfl

/-! ## C05: lifted inputs are materialised at most once -/

/-- **C05.** A lifted parameter or buffer is materialised (by a literal or a load of its global) at most
once in the function, and if it is, the FX placeholder, and with it every use of it, denotes that one
value, which was made from the contents of that very parameter. -/
theorem C05_at_most_once (h : importProgram env sig sym symbols = .ok f) {sp : InSpec} (hsp : sp ∈ sig.ins)
    {name : String} {l : Lit} (hl : lifted sp = some (name, l)) {n : Nat} (hn : IsInput env.nodes name n) :
    materialised f.final.ops n ≤ 1 ∧
    (materialised f.final.ops n = 1 → ∃ x, NodeIs f.final (.graph n) x ∧ InputIs f.final.ops n l x) ∧
    (∀ x, NodeIs f.final (.graph n) x → materialised f.final.ops n = 1 ∧ InputIs f.final.ops n l x) := by
  obtain ⟨outs, ins, s1, s2, _, hci, _, _, _, _, _, hp⟩ := importProgram_spec h
  obtain ⟨w1, r1, su, w2, r2, ok, w3, r3, _⟩ := hp _ _ _ freePhases
  obtain ⟨i, hi, hm⟩ := collectInputs_lifted hci sp hsp name l hl
  have := placeholderIdx_unique hi hn
  subst this
  have hlazy : dictGet s1.v (.ref (.graph i) 0) = some (.lazy i l) := by
    rcases hm with hm | ⟨q, hm⟩
    · exact su.params _ hm
    · exact su.buffers _ hm
  have l1 := Reach.lazyInv r1 (LazyInv.init _)
  have l2 := Reach.lazyInv r2 l1
  have k1 : LiftedOk s1 i l := Or.inl ⟨hlazy, (l1.own _ _ _ _ hlazy).2.2⟩
  have k3 := Reach.lifted r3 l2 (Reach.lifted r2 l1 k1)
  rcases k3 with ⟨h1, h2⟩ | ⟨x, h1, h2, h3⟩
  · refine ⟨by omega, fun h => by omega, fun x hx => ?_⟩
    unfold NodeIs at hx; rw [h1] at hx; cases hx
  · refine ⟨by omega, fun _ => ⟨x, h1, h2⟩, fun y hy => ?_⟩
    unfold NodeIs at hy; rw [h1] at hy; cases hy
    exact ⟨h3, h2⟩

/-- **C05.** A lifted input that no node mentions, that is not returned and that has no symbolic shape to
be recorded is not materialised. -/
theorem C05_unused (hcan : CanonRefs env) (h : importProgram env sig sym symbols = .ok f) {sp : InSpec}
    (hsp : sp ∈ sig.ins) {name : String} {l : Lit} (hl : lifted sp = some (name, l)) {n : Nat}
    (hn : IsInput env.nodes name n)
    (hunused : ∀ node ∈ env.nodes, .graph n ∉ nodeRefs node)
    (hsyms : ∀ node, env.nodes[n]? = some node → node.syms = none)
    (hret : ∀ o, .user o ∈ sig.outs → ¬ IsOutput env.nodes o n) :
    materialised f.final.ops n = 0 := by
  obtain ⟨outs, ins, s1, s2, hou, hci, _, _, _, _, _, hp⟩ := importProgram_spec h
  have hphases : Phases env setupScope ⟨fun _ _ => True, fun r => r ≠ .graph n, fun _ _ => False⟩
      ⟨fun _ _ => True, fun r => r ≠ .graph n, fun _ _ => False⟩ ins outs := by
    refine ⟨fun _ _ => trivial, fun _ _ _ => trivial, fun _ h => h, fun i _ node hi => ?_, fun m hm e => ?_⟩
    · have hmem := List.mem_of_getElem? hi
      refine ⟨fun hs e => ?_, (fun e => nomatch e), fun _ => trivial, fun _ _ => trivial,
        fun r hr e => hunused node hmem (e ▸ hr), fun sch args kwargs hop sch' args' kwargs' hc => ?_⟩
      · cases e
        rw [hsyms node hi] at hs; cases hs
      · have key : ∀ r, r ∈ args'.flatMap argRefs ∨ r ∈ kwargs'.flatMap (fun p => argRefs p.2) → r ≠ .graph n := by
          intro r hr e
          have := hcan _ _ _ _ _ _ hc r hr
          apply hunused node hmem
          unfold nodeRefs
          rw [hop, ← e]
          exact List.mem_append.mpr this
        exact ⟨fun r hr => key r (Or.inl hr), fun r hr => key r (Or.inr hr)⟩
    · -- returned nodes are named by the signature
      cases e
      obtain ⟨o, h1, h2⟩ := userOutputs_mem _ _ hou hm
      exact hret o h1 (producerIdx_iff.mp h2)
  obtain ⟨w1, r1, su, w2, r2, ok, w3, r3, _⟩ := hp _ _ _ hphases
  obtain ⟨i, hi, hm⟩ := collectInputs_lifted hci sp hsp name l hl
  have := placeholderIdx_unique hi hn
  subst this
  have hlazy : dictGet s1.v (.ref (.graph i) 0) = some (.lazy i l) := by
    rcases hm with hm | ⟨q, hm⟩
    · exact su.params _ hm
    · exact su.buffers _ hm
  have l1 := Reach.lazyInv r1 (LazyInv.init _)
  have l3 := Reach.lazyInv r3 (Reach.lazyInv r2 l1)
  have e := r3.stays_lazy (r := .graph i) (fun h => h rfl) (r2.stays_lazy (r := .graph i) (fun h => h rfl) hlazy)
  exact (l3.own _ _ _ _ e).2.2

/-! ## C12: `getitem` -/

/-- **C12.** In every imported program, `getitem(j, k)` denotes the `k`-th result of the op emitted for node
`j`; in particular `k` is in range. -/
theorem C12_program_getitem (h : importProgram env sig sym symbols = .ok f) {i j : Nat} {node jn : Node}
    (hi : env.nodes[i]? = some node) {kw : List (String × Arg)} {k : Int}
    (hop : node.op = .call .getitem [.node (.graph j), .lit (.int k)] kw)
    (hj : env.nodes[j]? = some jn) {sch : Schema} {args : List Arg} {kwargs : List (String × Arg)}
    (hjop : jn.op = .call (.overload sch) args kwargs)
    {sch' : Schema} {args' : List Arg} {kwargs' : List (String × Arg)}
    (hc : env.canon sch args kwargs = .ok (some (sch', args', kwargs'))) :
    ∃ sch'' o, SchemaFor env sch' args' sch'' ∧ OpFor f.final (.graph j) sch'' args' kwargs' o ∧
      ResultsAre f.final (resultTypes sch'' jn) o ∧ ItemIs f.final i j k jn o := by
  obtain ⟨outs, ins, s1, s2, _, _, _, _, _, _, him, hp⟩ := importProgram_spec h
  obtain ⟨w1, r1, _, w2, r2, _, w3, r3, _⟩ := hp ⟨fun r i => ∃ n, r = .graph n ∧ IsPlaceholder env n ∧ i = 0, fun _ => False, fun _ _ => True⟩
    freeScope freeScope ⟨fun n h => ⟨n, rfl, h, rfl⟩, fun _ _ _ => trivial, fun _ h => h, fun _ _ _ _ => freeScope_node, fun _ _ => trivial⟩
  have hnp : ¬ IsPlaceholder env j := by
    rintro ⟨n, h1, h2⟩
    rw [hj] at h1; cases h1
    rw [hjop] at h2; cases h2
  have hatr : ¬ IsAttr env (.graph j) := by
    rintro ⟨n, t, h1, h2⟩
    have h1' : env.nodes[j]? = some n := h1
    rw [hj] at h1'; cases h1'
    rw [hjop] at h2; cases h2
  obtain ⟨sch'', o, hs, ho, hr, x, hx, hcase⟩ := getitem_nodes w1 (Nat.le_refl _) (Reach.unpackInv r1 (UnpackInv.init _)) hj hjop hc
    (fun n => r1.frame (by rintro ⟨m, e, h, _⟩; cases e; exact hnp h) hatr (by simp [St.init]))
    (r1.multi_frame (by rintro ⟨m, e, h, h1⟩; cases h1) (by simp [St.init])) hi hop
    (mem_producers.mpr ⟨node, hi, by simp [isProducer, hop]⟩) rfl him
  refine ⟨sch'', o, hs, OpFor.mono w2 r3.ext ho, ResultsAre.mono r3.ext hr, x, NodeIs.mono r3.ext hx, ?_⟩
  rcases hcase with hc | ⟨h1, y, ys, h2, h3, h5, h4⟩
  · exact Or.inl hc
  · exact Or.inr ⟨h1, y, ys, NodeIs.mono r3.ext h2, r3.ext.mem h3, h5, h4⟩

/-- **C12** for `import_stateless_graph`. -/
theorem C12_stateless_getitem (h : importStateless env sym symbols = .ok f) {i j : Nat} {node jn : Node}
    (hi : env.nodes[i]? = some node) {kw : List (String × Arg)} {k : Int}
    (hop : node.op = .call .getitem [.node (.graph j), .lit (.int k)] kw)
    (hj : env.nodes[j]? = some jn) {sch : Schema} {args : List Arg} {kwargs : List (String × Arg)}
    (hjop : jn.op = .call (.overload sch) args kwargs)
    {sch' : Schema} {args' : List Arg} {kwargs' : List (String × Arg)}
    (hc : env.canon sch args kwargs = .ok (some (sch', args', kwargs'))) :
    ∃ sch'' o, SchemaFor env sch' args' sch'' ∧ OpFor f.final (.graph j) sch'' args' kwargs' o ∧
      ResultsAre f.final (resultTypes sch'' jn) o ∧ ItemIs f.final i j k jn o := by
  obtain ⟨_, him, _⟩ := importStateless_spec h
  exact getitem_nodes (WF.init f.argTys) (Nat.le_refl _) (UnpackInv.init _) hj hjop hc
    (fun n => by simp [St.init]) (by simp [St.init]) hi hop
    (by simp; exact (List.getElem?_eq_some_iff.mp hi).1) rfl him

/-- **C12.** An index that is out of range for a multi-result op makes the import fail: it never picks a
wrong value. -/
theorem C12_out_of_range {i j : Nat} {node jn : Node}
    (hi : env.nodes[i]? = some node) {kw : List (String × Arg)} {k : Int}
    (hop : node.op = .call .getitem [.node (.graph j), .lit (.int k)] kw)
    (hj : env.nodes[j]? = some jn) {sch : Schema} {args : List Arg} {kwargs : List (String × Arg)}
    (hjop : jn.op = .call (.overload sch) args kwargs)
    (hc : env.canon sch args kwargs = .ok (some (sch, args, kwargs)))
    (hs : env.scalarSchema sch.opName = none) (hret : 1 < sch.nReturns) (hlen : 1 < jn.valTys.length)
    (hk : k < 0 ∨ (jn.valTys.length : Int) ≤ k) (f : Func) :
    importProgram env sig sym symbols ≠ .ok f := by
  intro h
  obtain ⟨sch'', o, h1, _, h2, x, _, h4⟩ := C12_program_getitem h hi hop hj hjop hc
  have e : sch'' = sch := by
    rcases h1 with ⟨a, _, _, hx⟩ | ⟨e, _⟩
    · rw [hs] at hx; cases hx
    · exact e
  subst e
  have hl : o.results.length = jn.valTys.length := by
    rw [h2.length_eq]; unfold resultTypes
    split <;> first | omega | rfl
  rcases h4 with ⟨_, hk0, hx⟩ | ⟨hle, _⟩
  · have := (List.getElem?_eq_some_iff.mp hx).1
    omega
  · omega

/-! ## C21: signature order -/

/-- **C21.** The function has one argument per user input, in signature order: the FX placeholder of the
`k`-th user input denotes argument `k`, or, if the program mutates that input, the value read from it. -/
theorem C21_inputs (h : importProgram env sig sym symbols = .ok f) :
    f.argTys.length = (sig.ins.filterMap userInput).length ∧
    ∀ k name, (sig.ins.filterMap userInput)[k]? = some name → ∃ i x, IsInput env.nodes name i ∧
      NodeIs f.final (.graph i) x ∧
      (x = k ∨ (∃ p, .userInputMutation name p ∈ sig.outs) ∧ Defines f.final.ops x .copyToVTensor [k]) := by
  obtain ⟨outs, ins, s1, s2, _, hci, ha, _, _, _, _, hp⟩ := importProgram_spec h
  obtain ⟨_, _, su, _, r2, _, _, r3, _⟩ := hp _ _ _ freePhases
  have hus := collectInputs_users hci
  refine ⟨by rw [ha, List.length_map, hus.length_eq], fun k name hk => ?_⟩
  obtain ⟨u, hu, h1, h2, _⟩ := forall₂_getElem?_left hus hk
  obtain ⟨x, hx, hc⟩ := (su.users k u hu).mono (r2.ext.trans r3.ext)
  refine ⟨u.1, x, placeholderIdx_iff.mp h1, hx, ?_⟩
  split at hc
  · rename_i hm
    rw [hm] at h2
    right
    refine ⟨?_, hc⟩
    unfold dictMem at h2
    cases hd : dictGet (mutatedUserInputs sig.outs) name with
    | none => rw [hd] at h2; cases h2
    | some p => exact ⟨p, mutatedUserInputs_sound hd⟩
  · exact Or.inl hc

/-- **C21.** The function ends with a return of exactly the user outputs, in signature order: the named
node's value, or the constant. -/
theorem C21_outputs (h : importProgram env sig sym symbols = .ok f) :
    ∃ pre xs, f.final.ops = pre ++ [⟨.ret, xs, []⟩] ∧
      List.Forall₂ (ReturnIs env.nodes f.final) (sig.outs.filterMap userOutput) xs := by
  obtain ⟨outs, ins, s1, s2, hou, _, _, _, _, _, _, hp⟩ := importProgram_spec h
  obtain ⟨_, _, _, _, _, _, _, _, pre, xs, h1, h2⟩ := hp _ _ _ freePhases
  refine ⟨pre, xs, h1, ?_⟩
  have hspec := userOutputs_spec hou
  have hlen : (sig.outs.filterMap userOutput).length = xs.length := by
    rw [hspec.length_eq, ← enumFrom_length 0 outs, h2.length_eq]
  -- every constant was found under its user position
  have hal : ∀ n l, sig.outs[n]? = some (.userConst l) → userPos sig.outs n = n := by
    apply aligned
    intro n l hn
    have hpos := filterMap_take_pos userOutput _ _ _ _ hn rfl
    obtain ⟨u, hu, hp⟩ := forall₂_getElem?_left hspec hpos
    simp only at hp
    subst hp
    have he : (enumFrom 0 outs)[userPos sig.outs n]? = some (userPos sig.outs n, none) := by
      rw [enumFrom_getElem?]
      unfold userPos
      rw [hu]; simp
    obtain ⟨x, hx, hr⟩ := forall₂_getElem?_left h2 he
    obtain ⟨l', hl', _⟩ := hr
    obtain ⟨_, h4⟩ := lookup_constantOutputs _ _ _ _ hl'
    exact ⟨l', by simpa using h4⟩
  rw [List.forall₂_iff_get]
  refine ⟨hlen, fun j hj hj' => ?_⟩
  have hg : (sig.outs.filterMap userOutput)[j]? = some ((sig.outs.filterMap userOutput).get ⟨j, hj⟩) := by simp
  generalize (sig.outs.filterMap userOutput).get ⟨j, hj⟩ = o at hg ⊢
  have hx : xs[j]? = some (xs.get ⟨j, hj'⟩) := by simp
  generalize xs.get ⟨j, hj'⟩ = x at hx ⊢
  obtain ⟨u, hu, hp⟩ := forall₂_getElem?_left hspec hg
  have he : (enumFrom 0 outs)[j]? = some (j, u) := by rw [enumFrom_getElem?, hu]; simp
  have hr := Forall₂.getElem? h2 he hx
  cases o with
  | inl name =>
    obtain ⟨i, h3, h4⟩ := hp
    subst h4
    exact ⟨i, producerIdx_iff.mp h3, hr⟩
  | inr l =>
    simp only at hp
    subst hp
    obtain ⟨l', h3, h4⟩ := hr
    obtain ⟨n, o, h5, h6, h7⟩ := exists_pos_of_filterMap userOutput _ _ _ hg
    have ho : o = .userConst l := by
      cases o with
      | userConst l => simpa [userOutput] using h6
      | _ => simp [userOutput] at h6
    subst ho
    have e := hal n l h5
    unfold userPos at e
    rw [h7] at e
    subst e
    obtain ⟨_, h8⟩ := lookup_constantOutputs _ _ _ _ h3
    rw [Nat.sub_zero, h5] at h8
    cases h8
    exact h4

section
open Verif.Fx.Demo

/-- A mutated buffer and a constant user output: a legal signature. -/
def constOutSig : Sig := ⟨[.buffer "b_b" "b" (some (.tensor 1 false)), .user "x"],
  [.bufferMutation "b" "add_1", .user "add_1", .userConst (.int 3)]⟩

/-- **C21 is violated** for constant outputs listed after a mutation: the import fails with a `KeyError`,
while the same program with another constant-free signature is imported. (Successful imports are always
right, see `C21_outputs`.) -/
theorem C21_constant_output_violated :
    (importProgram mutating constOutSig false []).map (fun _ => ()) = .error .keyError ∧
    (importProgram mutating mutatingSig false []).map (fun _ => ()) = .ok () := by
  constructor <;> decide +kernel

/-! ## The theorems on concrete programs -/

/-- Import of `lambda x: aminmax(x + w + w)[1]`: the parameter `w` is materialised once although it is used
twice, the parameter `u` is not, the second `add` takes `other` and `alpha` by keyword and the first one takes
the default for `alpha`, the second of the two results is returned. -/
theorem demo_prog : ((importProgram prog progSig false []).map fun f => (f.argTys, f.resTys, f.final.ops,
    materialised f.final.ops 0, materialised f.final.ops 1)) = .ok ([.vtensor], [.vtensor],
  [⟨.const (.tensor 1 false) (some 0), [], [1]⟩, ⟨.const (.int 1) none, [], [2]⟩,
   ⟨.torchOp "torch.aten.add.Tensor", [0, 1, 2], [3]⟩, ⟨.const (.int 2) none, [], [4]⟩,
   ⟨.torchOp "torch.aten.add.Tensor", [3, 1, 4], [5]⟩, ⟨.torchOp "torch.aten.aminmax", [5], [6, 7]⟩,
   ⟨.ret, [7], []⟩], 1, 0) := by decide +kernel

/-- The same program satisfies the hypotheses of the theorems above. -/
example : ∃ f, importProgram prog progSig false [] = .ok f ∧ SSA f.argTys.length f.final.ops ∧
    (∃ pre xs, f.final.ops = pre ++ [⟨.ret, xs, []⟩] ∧
      List.Forall₂ (ReturnIs prog.nodes f.final) [.inl "getitem"] xs) ∧
    ∃ sch o, SchemaFor prog minmax [g 4] sch ∧ OpFor f.final (.graph 5) sch [g 4] [] o ∧
      ResultsAre f.final (resultTypes sch (node2 "minmax" (.call (.overload minmax) [g 4] []))) o ∧
      ItemIs f.final 6 5 1 (node2 "minmax" (.call (.overload minmax) [g 4] [])) o := by
  have h := demo_prog
  cases hi : importProgram prog progSig false [] with
  | error e => rw [hi] at h; cases h
  | ok f =>
    exact ⟨f, rfl, C04_program_ssa hi, C21_outputs hi,
      C12_program_getitem hi (i := 6) (j := 5) rfl rfl rfl rfl rfl⟩

/-- An index that is out of range is an error. -/
example : (importProgram badItem ⟨[.user "x"], [.user "getitem"]⟩ false []).map (fun _ => ()) = .error .keyError := by
  decide +kernel

end

end Verif
