import Verif.Lemmas.FxProgram

/-!
# `getitem` (C12)
-/

namespace Verif.Fx
open Spec

variable {env : Env} {sc : Scope} {nA : Nat} {s : St}

/-- Importing a `getitem` node runs `importGetitem` first. -/
theorem importNode_getitem {skip sym : Bool} {nArgs ph i ph' : Nat} {node : Node} {args : List Arg}
    {kwargs : List (String × Arg)} {s' : St} (hw : WF nA s) (hA : nArgs ≤ nA) (hn : env.nodes[i]? = some node)
    (hop : node.op = .call .getitem args kwargs) (h : importNode env skip sym nArgs ph i s = .ok (ph', s')) :
    ∃ t, (∃ r k, args = [.node r, .lit (.int k)] ∧ ItemFrom s i r k t) ∧ Ext t s' := by
  unfold importNode at h
  rw [hn] at h
  obtain ⟨p, t, h1, h2⟩ := M.bind_ok.mp h
  have e1 : ∃ t', importGetitem env i node args s = .ok ((), t') ∧ t' = t := by
    unfold importNodeOp at h1
    rw [hop] at h1
    obtain ⟨_, t', h3, h4⟩ := M.bind_ok.mp h1
    cases h4
    exact ⟨t, h3, rfl⟩
  obtain ⟨t', h3, e⟩ := e1
  subst e
  obtain ⟨r1, r, k, ha, hi⟩ := Good.importGetitem (sc := freeScope) hw hn trivial (fun _ _ => trivial) _ _ h3
  refine ⟨t', ⟨r, k, ha, hi⟩, ?_⟩
  have w1 := r1.wf hw
  split at h2
  · obtain ⟨_, t2, h4, h5⟩ := M.bind_ok.mp h2
    cases h5
    obtain ⟨r2, _⟩ := Good.bindSymbolicShape (sc := freeScope) (env := env) w1 (fun _ => trivial) _ _ h4
    exact r2.ext
  · cases h2; exact Ext.refl _

theorem Reach.multi_frame {s s' : St} (h : Reach env sc s s') {r : Ref} (ho : ¬ sc.own r 1) (hn : r ∉ s.multi) :
    r ∉ s'.multi := by
  induction h with
  | refl => exact hn
  | tail _ h ih =>
    cases h <;> first | exact ih | skip
    rename_i r' ho'
    intro hm
    rcases List.mem_cons.mp hm with e | hm
    · subst e; exact ho ho'
    · exact ih hm

/-- The result indices of node `j` are its own business. -/
def onlyIdx (env : Env) (j : Nat) (node : Node) : Scope :=
  ⟨fun r i => r = .graph j → ∃ n : Nat, i = n ∧ ownIdx env node n, fun _ => True, fun _ _ => False⟩

theorem onlyIdx_node {j : Nat} {node : Node} (hj : env.nodes[j]? = some node) {i : Nat} {n : Node}
    (hi : env.nodes[i]? = some n) : NodeScope env (onlyIdx env j node) i n := by
  refine ⟨fun _ => trivial, trivial, fun _ e => (nomatch e), fun k hk e => ?_, fun _ _ => trivial,
    fun _ _ _ _ _ _ _ _ => ⟨fun _ _ => trivial, fun _ _ => trivial⟩⟩
  cases e
  rw [hi] at hj; cases hj
  exact ⟨k, rfl, hk⟩

theorem onlyIdx_not {j : Nat} {node : Node} {sch : Schema} {args : List Arg} {kwargs : List (String × Arg)}
    (hop : node.op = .call (.overload sch) args kwargs) {sch' : Schema} {args' : List Arg} {kwargs' : List (String × Arg)}
    (hc : env.canon sch args kwargs = .ok (some (sch', args', kwargs'))) {sch'' : Schema}
    (hs : pickSchema env sch' args' = .ok sch'') {k : Int}
    (hk : ¬ (0 ≤ k ∧ k.toNat < (resultTys sch'' node.valTy node.valTys).length)) :
    ¬ (onlyIdx env j node).own (.graph j) k := by
  intro h
  obtain ⟨n, e, h1⟩ := h rfl
  unfold ownIdx at h1
  rw [hop] at h1
  have := h1 _ _ _ _ hc hs
  apply hk
  subst e
  simpa using this

/-- Selecting item `k` of node `j`, in the course of importing a list of nodes. -/
theorem getitem_loop {skip sym : Bool} {nArgs ph i j : Nat} {pre post : List Nat} {s' : St} {node jn : Node}
    {args : List Arg} {kwargs : List (String × Arg)} {r : Ref} {k : Int} (hw : WF nA s) (hA : nArgs ≤ nA)
    (hu : UnpackInv env s) (hj : env.nodes[j]? = some jn)
    {sch : Schema} {jargs : List Arg} {jkwargs : List (String × Arg)} (hjop : jn.op = .call (.overload sch) jargs jkwargs)
    {sch' : Schema} {jargs' : List Arg} {jkwargs' : List (String × Arg)}
    (hc : env.canon sch jargs jkwargs = .ok (some (sch', jargs', jkwargs')))
    (hunb : ∀ n, dictGet s.v (.ref (.graph j) n) = none) (hmul : .graph j ∉ s.multi)
    (hi : env.nodes[i]? = some node) (hop : node.op = .call .getitem args kwargs)
    (hargs : args = [.node (.graph j), .lit (.int k)])
    (h : importNodesLoop env skip sym nArgs ph (pre ++ i :: post) s = .ok ((), s')) :
    ∃ sch'' o, SchemaFor env sch' jargs' sch'' ∧ OpFor s' (.graph j) sch'' jargs' jkwargs' o ∧
      ResultsAre s' (resultTypes sch'' jn) o ∧ ItemIs s' i j k jn o := by
  subst hargs
  obtain ⟨ph1, s1, ph2, s2, g1, g2, g3⟩ := loop_split pre i post ph s s' h
  obtain ⟨q1, o1⟩ := Good.importNodesLoop (sc := onlyIdx env j jn) hA pre ph s hw (fun a _ n hn => onlyIdx_node hj hn) _ _ g1
  have w1 := q1.wf hw
  have u1 := Reach.unpackInv q1 hu
  obtain ⟨t, ⟨r', k', ha, hit⟩, ext⟩ := importNode_getitem w1 hA hi hop g2
  cases ha
  obtain ⟨q2, _⟩ := Good.importNode (sc := onlyIdx env j jn) w1 hA (fun n hn => onlyIdx_node hj hn) _ _ g2
  have w2 := q2.wf w1
  obtain ⟨q3, o3⟩ := Good.importNodesLoop (sc := onlyIdx env j jn) hA post ph2 s2 w2 (fun a _ n hn => onlyIdx_node hj hn) _ _ g3
  have e1 : Ext s1 s' := q2.ext.trans q3.ext
  have e2 : Ext t s' := ext.trans q3.ext
  have hatr : ¬ IsAttr env (.graph j) := by
    rintro ⟨n, t, h1, h2⟩
    have h1' : env.nodes[j]? = some n := h1
    rw [hj] at h1'; cases h1'
    rw [hjop] at h2; cases h2
  -- node `j` was imported before
  have hpre : j ∈ pre := by
    by_contra hnot
    obtain ⟨q, _⟩ := Good.importNodesLoop (sc := ⟨fun r _ => r ≠ .graph j, fun _ => True, fun _ _ => False⟩) hA pre ph s hw
      (fun a ha n hn => ⟨fun _ => trivial, trivial, fun _ => (fun e => nomatch e), fun _ _ e => by cases e; exact hnot ha,
        fun _ _ => trivial, fun _ _ _ _ _ _ _ _ => ⟨fun _ _ => trivial, fun _ _ => trivial⟩⟩) _ _ g1
    have none1 : ∀ n, dictGet s1.v (.ref (.graph j) n) = none := fun n => q.frame (fun h => h rfl) hatr (hunb n)
    obtain ⟨x, _, hx⟩ := hit
    rcases hx with ⟨_, hb, _⟩ | ⟨_, hb, _⟩
    · rw [none1] at hb; cases hb
    · rcases hb with hb | hb
      · rw [none1] at hb; cases hb
      · cases hu : dictGet s1.unpack (.graph j) with
        | none => rw [hu] at hb; cases hb
        | some ys =>
          obtain ⟨y, hy, _⟩ := u1 _ _ hu
          unfold NodeIs at hy
          rw [none1] at hy; cases hy
  obtain ⟨sch'', o, hs, hfor, hlen, hmu⟩ := o1 j hpre jn hj _ _ _ hjop _ _ _ hc
  obtain ⟨x, hx, hcase⟩ := hit
  have final : Reach env (onlyIdx env j jn) s s' := (q1.trans q2).trans q3
  have hres := hlen
  rw [resultTys_eq] at hres
  refine ⟨sch'', o, schemaFor_of_pick hs, OpFor.mono w1 e1 hfor, ResultsAre.mono e1 hres, x, e2.v _ _ hx, ?_⟩
  have hlen := hlen.length_eq
  rcases hcase with ⟨hm, _, _, hv⟩ | ⟨hm, _, ys, hys, hget⟩
  · have hv' : dictGet s'.v (.ref (.graph j) k) = some (.val x) := e2.v _ _ hv
    have hone : 1 < o.results.length := by
      by_contra hle
      refine absurd hm (q1.multi_frame (onlyIdx_not hjop hc hs ?_) hmul)
      simp; omega
    have hk : 0 ≤ k ∧ k.toNat < (resultTys sch'' jn.valTy jn.valTys).length := by
      by_contra hk
      have := final.frame (onlyIdx_not (j := j) hjop hc hs hk) hatr (hunb k)
      rw [this] at hv'; cases hv'
    refine Or.inl ⟨hone, hk.1, ?_⟩
    obtain ⟨y, hy⟩ : ∃ y, o.results[k.toNat]? = some y := ⟨_, List.getElem?_eq_getElem (by omega)⟩
    have := e1.v _ _ (hfor.results _ _ hy)
    have ek : ((k.toNat : Nat) : Int) = k := by omega
    rw [ek, hv'] at this
    cases this
    exact hy
  · have hone : o.results.length ≤ 1 := by
      by_contra hle
      exact hm (hmu (by omega))
    obtain ⟨y, hy1, hy2, hy3⟩ := Reach.unpackInv final hu _ _ (e2.unpack _ _ hys)
    exact Or.inr ⟨hone, y, ys, hy1, hy2, hy3 jn hj, hget⟩

/-- Selecting item `k` of node `j`, in the course of `import_nodes`. -/
theorem getitem_nodes {skip sym : Bool} {symbols : List String} {nArgs i j : Nat} {is : List Nat} {s' : St} {node jn : Node}
    {args : List Arg} {kwargs : List (String × Arg)} {k : Int} (hw : WF nA s) (hA : nArgs ≤ nA)
    (hu : UnpackInv env s) (hj : env.nodes[j]? = some jn)
    {sch : Schema} {jargs : List Arg} {jkwargs : List (String × Arg)} (hjop : jn.op = .call (.overload sch) jargs jkwargs)
    {sch' : Schema} {jargs' : List Arg} {jkwargs' : List (String × Arg)}
    (hc : env.canon sch jargs jkwargs = .ok (some (sch', jargs', jkwargs')))
    (hunb : ∀ n, dictGet s.v (.ref (.graph j) n) = none) (hmul : .graph j ∉ s.multi)
    (hi : env.nodes[i]? = some node) (hop : node.op = .call .getitem args kwargs) (hmem : i ∈ is)
    (hargs : args = [.node (.graph j), .lit (.int k)])
    (h : importNodes env skip sym symbols nArgs is s = .ok ((), s')) :
    ∃ sch'' o, SchemaFor env sch' jargs' sch'' ∧ OpFor s' (.graph j) sch'' jargs' jkwargs' o ∧
      ResultsAre s' (resultTypes sch'' jn) o ∧ ItemIs s' i j k jn o := by
  unfold importNodes at h
  obtain ⟨_, t, h1, h2⟩ := M.bind_ok.mp h
  obtain ⟨q, _⟩ := Good.mapM' (sc := ⟨fun _ _ => False, fun _ => False, fun _ _ => False⟩) (env := env) (P := fun _ _ _ => True)
    (fun _ _ _ _ _ h => h) _ s hw (fun _ _ t wt _ => Good.importSymbol wt) _ _ h1
  have hatr : ¬ IsAttr env (.graph j) := by
    rintro ⟨n, t, h1, h2⟩
    have h1' : env.nodes[j]? = some n := h1
    rw [hj] at h1'; cases h1'
    rw [hjop] at h2; cases h2
  obtain ⟨pre, post, e⟩ := List.append_of_mem hmem
  rw [e] at h2
  exact getitem_loop (r := .graph j) (q.wf hw) hA (Reach.unpackInv q hu) hj hjop hc (fun n => q.frame (fun h => h) hatr (hunb n))
    (q.multi_frame (fun h => h) hmul) hi hop hargs h2

end Verif.Fx
