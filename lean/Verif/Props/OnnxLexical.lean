import Verif.Lemmas.OnnxScope
import Verif.Props.OnnxInputs

/-!
# C25: names in nested graphs
-/

namespace Verif
open Onnx

namespace Onnx

/-! ### Bindings -/

theorem dictGet_append {α : Type} (a b : List (String × α)) (x : String) :
    dictGet (a ++ b) x = (dictGet a x).or (dictGet b x) := by
  induction a with
  | nil => simp [dictGet]
  | cons p a ih =>
    obtain ⟨k, v⟩ := p
    simp only [List.cons_append, dictGet]
    split
    · simp
    · exact ih

theorem dictGet_dictSet (names : Names) (x : String) (v : Nat) :
    dictGet (dictSet names x v) = Env.set (dictGet names) x v := by
  funext y
  simp [dictSet, dictGet, Env.set]

theorem dictGet_bindOutputs (names : Names) (outs : List String) (vals : List Nat) :
    dictGet (bindOutputs names outs vals) = Env.setOutputs (dictGet names) outs vals := by
  induction outs generalizing names vals with
  | nil => simp [bindOutputs, Env.setOutputs]
  | cons o os ih =>
    cases vals with
    | nil => simp [bindOutputs, Env.setOutputs]
    | cons v vs =>
      simp only [bindOutputs, Env.setOutputs]
      rw [ih]
      split
      · rfl
      · rw [dictGet_dictSet]

theorem dictGet_zip (names : Names) (xs : List String) (vs : List Nat) :
    dictGet ((xs.zip vs).reverse ++ names) = Env.setAll (dictGet names) xs vs := by
  induction xs generalizing names vs with
  | nil => simp [Env.setAll]
  | cons x xs ih =>
    cases vs with
    | nil => simp [Env.setAll]
    | cons v vs =>
      simp only [List.zip_cons_cons, List.reverse_cons, List.append_assoc, List.singleton_append,
        Env.setAll]
      rw [← dictGet_dictSet, ← ih]
      rfl

theorem setAll_none {e : Env} {xs : List String} {vs : List Nat} {y : String} (h : y ∉ xs) :
    e.setAll xs vs y = e y := by
  induction xs generalizing e vs with
  | nil => simp [Env.setAll]
  | cons x xs ih =>
    cases vs with
    | nil => simp [Env.setAll]
    | cons v vs =>
      simp only [List.mem_cons, not_or] at h
      simp only [Env.setAll]
      rw [ih h.2]
      simp [Env.set, Ne.symm h.1]

/-- The names of the enclosing graph in front of the arguments make no difference if they are not among them. -/
theorem dictGet_outer (outer : Names) (xs : List String) (vs : List Nat)
    (h : ∀ x ∈ xs, ∀ p ∈ outer, p.1 ≠ x) :
    dictGet (outer ++ bindArgs xs vs) = Env.setAll (dictGet outer) xs vs := by
  rw [← dictGet_zip]
  funext y
  rw [dictGet_append, bindArgs, dictGet_append]
  by_cases hy : y ∈ xs
  · have : dictGet outer y = none := by
      cases hd : dictGet outer y with
      | none => rfl
      | some v => exact absurd rfl (h y hy _ (dictGet_mem hd))
    rw [this]
    simp
  · have : dictGet (xs.zip vs).reverse y = none := by
      cases hd : dictGet (xs.zip vs).reverse y with
      | none => rfl
      | some v => exact absurd (List.of_mem_zip (List.mem_reverse.mp (dictGet_mem hd))).1 hy
    rw [this]
    simp

/-- The names bound so far. -/
def Keys (names : Names) (vis : List String) : Prop := ∀ p ∈ names, p.1 ∈ vis

theorem keys_bindOutputs {names : Names} {vis : List String} (h : Keys names vis) (outs : List String)
    (vals : List Nat) : Keys (bindOutputs names outs vals) (vis ++ outs) := by
  induction outs generalizing names vals vis with
  | nil => simpa [bindOutputs] using h
  | cons o os ih =>
    cases vals with
    | nil =>
      simp only [bindOutputs]
      exact fun p hp => List.mem_append_left _ (h p hp)
    | cons v vs =>
      simp only [bindOutputs]
      have := ih (vis := vis ++ [o]) (names := if o = "" then names else dictSet names o v) (by
        split
        · exact fun p hp => List.mem_append_left _ (h p hp)
        · intro p hp
          simp only [dictSet, List.mem_cons] at hp
          rcases hp with rfl | hp
          · simp
          · exact List.mem_append_left _ (h p hp)) vs
      intro p hp
      have := this p hp
      simpa [List.append_assoc] using this

/-! ### Regions -/

theorem insertBy_map {α β : Type} (f : α → β) (le : β → β → Bool) (x : α) (l : List α) :
    (insertBy (fun a b => le (f a) (f b)) x l).map f = insertBy le (f x) (l.map f) := by
  induction l with
  | nil => rfl
  | cons y ys ih =>
    simp only [insertBy, List.map_cons]
    split
    · simp
    · simp [ih]

theorem sortBy_map {α β : Type} (f : α → β) (le : β → β → Bool) (l : List α) :
    (sortBy (fun a b => le (f a) (f b)) l).map f = sortBy le (l.map f) := by
  induction l with
  | nil => rfl
  | cons x xs ih => simp only [sortBy, List.map_cons, insertBy_map, ih]

theorem regionActs_names (X : Expand) (ctx : Ctx) (attrs : List Attr) :
    (regionActs X ctx attrs).map Prod.fst = (attrs.filter (fun a => a.type == attrGraph)).map Attr.name := by
  induction attrs with
  | nil => simp [regionActs]
  | cons a attrs ih =>
    obtain ⟨name, ty, ref, data, t, ts, g, gs⟩ := a
    unfold regionActs
    by_cases h : ty = attrGraph
    · simp [h, Attr.type, Attr.name, ih]
    · simp [h, Attr.type, ih]

theorem runRegions_mem {outer : Names} {acts : List (String × RegionAct)} {m m' : MSt} {rs : List Region}
    (h : runRegions outer acts m = .ok (rs, m')) :
    rs.length = acts.length ∧ ∀ a ∈ acts, ∃ r m1 m2, (a.1, r) ∈ (acts.map Prod.fst).zip rs ∧
      a.2 outer m1 = .ok (r, m2) := by
  induction acts generalizing m rs with
  | nil => simp only [runRegions] at h; cases h; simp
  | cons a acts ih =>
    unfold runRegions at h
    split at h
    · cases h
    · rename_i r m1 h1
      split at h
      · cases h
      · rename_i rs' m2 h2
        cases h
        obtain ⟨hl, hm⟩ := ih h2
        refine ⟨by simp [hl], ?_⟩
        intro b hb
        rcases List.mem_cons.mp hb with rfl | hb
        · exact ⟨r, m, m1, by simp, h1⟩
        · obtain ⟨r', a1, a2, h3, h4⟩ := hm b hb
          exact ⟨r', a1, a2, by simp [h3], h4⟩

/-! ### Graphs -/

/-- A whole block, `env` being the names around it. -/
theorem importAll_mean {nodes : Step} {gi : GraphInfo} {inits : List Tensor} {args : List Nat} {names : Names}
    {m m' : MSt} {r : Region} {vis : List String} (hk : Keys names vis)
    (hnd : (inits.map Tensor.name).Nodup) (h : importAll nodes gi inits args names m = .ok (r, m')) :
    ∃ initOps initVals z l1 m1 l2 ret, initOps.length = inits.length ∧ initVals.length = inits.length ∧
      (∀ (i : Nat) (t : Tensor) (op : Op) (v : Nat), inits[i]? = some t → initOps[i]? = some op →
        initVals[i]? = some v → IsConstant t op v) ∧
      l1.none = some z ∧ l1.ops = initOps ++ [.mk .none [] [z] [.none] []] ∧
      dictGet l1.names = Env.setAll (dictGet names) (inits.map Tensor.name) initVals ∧
      Keys l1.names (vis ++ inits.map Tensor.name) ∧
      nodes gi l1 m1 = .ok (l2, m') ∧ r = .block args l2.ops ret ∧
      gi.outputs.map (fun o => dictGet l2.names o.name) = ret.map some := by
  have him : initMap inits = inits.map (fun t => (t.name, t)) := by
    unfold initMap
    apply ordOf_of_nodup
    rw [List.map_map]
    exact hnd
  unfold importAll at h
  split at h
  · cases h
  · rename_i l1 m1 h1
    obtain ⟨ops, hl, rfl, hops, hnone, _, hnm, hc⟩ := importInits_ok h1
    simp only [List.nil_append] at hops
    have hlen : (initMap inits).length = inits.length := by rw [him]; simp
    have hnames : (initMap inits).map (fun p => p.2.name) = inits.map Tensor.name := by
      rw [him, List.map_map]; rfl
    rw [hnames] at hnm
    split at h
    · cases h
    · rename_i l2 m2 h2
      have hg : getNone l1 { m with next := m.next + (initMap inits).length } =
          (m.next + (initMap inits).length,
          { l1 with
            none := some (m.next + (initMap inits).length)
            ops := l1.ops ++ [.mk .none [] [m.next + (initMap inits).length] [.none] []] },
          { m with next := m.next + (initMap inits).length + 1 }) := by
        unfold getNone
        rw [hnone]
      rw [hg] at h2
      simp only [hops] at h2
      split at h
      · cases h
      · rename_i ret hret
        cases h
        refine ⟨ops, (List.range (initMap inits).length).map (m.next + ·), _, _, _, l2, ret,
          by rw [hl, hlen], by simp [hlen], ?_, rfl, rfl, ?_, ?_, h2, rfl, ?_⟩
        · intro i t op v ht hop hv
          have hp : (initMap inits)[i]? = some (t.name, t) := by rw [him]; simp [ht]
          have := hc i _ op hp hop
          have hi : i < inits.length := by
            rcases Nat.lt_or_ge i inits.length with h | h
            · exact h
            · rw [List.getElem?_eq_none (by simpa using h)] at ht; cases ht
          have hvi : v = m.next + i := by
            rw [List.getElem?_map, List.getElem?_range (by rw [hlen]; exact hi)] at hv
            simpa using hv.symm
          rw [hvi]
          exact this
        · simp only [hnm]
          exact dictGet_zip _ _ _
        · intro p hp
          simp only [hnm] at hp
          rcases List.mem_append.mp hp with hp | hp
          · exact List.mem_append_right _ (List.of_mem_zip (List.mem_reverse.mp hp)).1
          · exact List.mem_append_left _ (hk p hp)
        · rw [pyMap_ok_iff] at hret
          apply List.ext_getElem
          · simp [hret.1]
          · intro i h1' h2'
            simp only [List.getElem_map]
            have := hret.2 i (by simpa using h1') (by simpa using h2')
            unfold outputValue at this
            split at this
            · rename_i x hx
              cases this
              exact hx
            · cases this

mutual

theorem nodes_mean (X : Expand) (ctx : Ctx) : ∀ (nodes : List Node) (vis : List String), Plain vis nodes →
    ∀ (gi : GraphInfo) (l l' : LSt) (m m' : MSt) (z : Nat), l.none = some z → Keys l.names vis →
      importNodes X ctx nodes gi l m = .ok (l', m') →
      ∃ ops, l'.ops = l.ops ++ ops ∧ ∀ outputs ret,
        outputs.map (fun o : ValueInfo => dictGet l'.names o.name) = ret.map some →
        NodesMean z outputs ret (dictGet l.names) nodes ops
  | [], vis, _ => by
    intro gi l l' m m' z hz hk h
    unfold importNodes at h
    cases h
    refine ⟨[], by simp, fun outputs ret hr => ?_⟩
    unfold NodesMean
    exact ⟨rfl, hr⟩
  | .mk name opType domain inputs outs attrs :: rest, vis, hp => by
    intro gi l l' m m' z hz hk h
    unfold Plain at hp
    obtain ⟨hconst, hnd, hpa, hpr⟩ := hp
    unfold importNodes at h
    split at h
    · cases h
    · rename_i l1 m1 h1
      rcases nodeStep_ok hz h1 with ⟨a, oname, op, inits', ho, ha, han, hout, hop, rfl, rfl⟩ | ⟨vs, hvs, h2⟩
      · have ho' : opType = "Constant" := ho
        have hout' : outs = [oname] := hout
        have hne : oname ≠ "" := hconst ho' oname (by simp [hout'])
        obtain ⟨av, ty, hav, hty, rfl⟩ := hop
        obtain ⟨ops, h3, h4⟩ := nodes_mean X ctx rest (vis ++ outs) hpr gi _ l' _ m' z (by exact hz) (by
          intro p hp
          simp only [dictSet, if_neg hne, List.mem_cons] at hp
          rcases hp with rfl | hp
          · simp [hout']
          · exact List.mem_append_left _ (hk p hp)) h
        refine ⟨.mk (.constant av) [] [m.next] [ty] [] :: ops, by rw [h3]; simp, fun outputs ret hr => ?_⟩
        unfold NodesMean
        refine ⟨_, _, _, _, _, ops, rfl, Or.inl ⟨a, oname, m.next, ho', ha, han, hout',
          ⟨av, ty, hav, hty, rfl⟩, rfl⟩, ?_⟩
        have := h4 outputs ret hr
        simp only [if_neg hne] at this
        rw [dictGet_dictSet] at this
        simpa [hout', Env.setOutputs, hne] using this
      · rcases h2 with ⟨v, i, o, f, m2, hx, h2⟩ | ⟨v, i, o, m2, types, hx, h2⟩
        · unfold importCall at h2
          cases h2
          obtain ⟨ops, h3, h4⟩ := nodes_mean X ctx rest (vis ++ outs) hpr gi _ l' _ m' z (by exact hz)
            (by exact keys_bindOutputs hk outs _) h
          refine ⟨.mk (.call f.name domain opType) vs (fresh f.results.length m2).1 f.results [] :: ops,
            by rw [h3]; simp [Node.domain, Node.opType], fun outputs ret hr => ?_⟩
          unfold NodesMean
          refine ⟨_, _, _, _, _, ops, rfl, Or.inr ⟨hvs, Or.inl ⟨⟨_, rfl⟩, rfl⟩⟩, ?_⟩
          have := h4 outputs ret hr
          simp only [dictGet_bindOutputs] at this
          exact this
        · obtain ⟨as, rs, hr, rfl⟩ := importOperator_ok h2
          obtain ⟨ops, h3, h4⟩ := nodes_mean X ctx rest (vis ++ outs) hpr gi _ l' _ m' z (by exact hz)
            (by exact keys_bindOutputs hk outs _) h
          have hord : ordOf (regionActs X ctx attrs) = regionActs X ctx attrs := by
            apply ordOf_of_nodup
            rw [regionActs_names]
            exact hnd
          have hsorted : (sortedRegions (regionActs X ctx attrs)).map Prod.fst =
              sortBy (fun a b => Version.strLe a.toList b.toList)
                ((attrs.filter (fun a => a.type == attrGraph)).map Attr.name) := by
            unfold sortedRegions
            rw [hord, ← regionActs_names X ctx]
            exact sortBy_map Prod.fst (fun a b : String => Version.strLe a.toList b.toList) _
          obtain ⟨hlen, hmem⟩ := runRegions_mem hr
          have hlen2 : (sortedRegions (regionActs X ctx attrs)).length = countRegions attrs := by
            have := congrArg List.length hsorted
            simpa [countRegions] using this
          have hpad : padRegions (countRegions attrs) rs = rs := by
            unfold padRegions
            rw [hlen, hlen2]
            simp
          have hz2 : ((sortedRegions (regionActs X ctx attrs)).map Prod.fst).length = rs.length := by
            simp [hlen]
          refine ⟨.mk (.operator opType as) vs (fresh types.length m2).1 types rs :: ops,
            by rw [h3]; simp [Node.opType, Node.attrs, hpad], fun outputs ret hret => ?_⟩
          unfold NodesMean
          refine ⟨_, _, _, _, _, ops, rfl, Or.inr ⟨hvs, Or.inr ⟨⟨as, rfl⟩,
            ((sortedRegions (regionActs X ctx attrs)).map Prod.fst).zip rs, ?_, ?_, ?_⟩⟩, ?_⟩
          · rw [List.map_snd_zip (by omega)]
          · rw [List.map_fst_zip (by omega)]
            exact hsorted
          · refine attrs_mean X ctx attrs vis hpa l.names hk _ ?_
            intro a ha
            apply hmem a
            unfold sortedRegions
            rw [mem_sortBy, hord]
            exact ha
          · have := h4 outputs ret hret
            simp only [dictGet_bindOutputs] at this
            exact this

theorem attrs_mean (X : Expand) (ctx : Ctx) : ∀ (attrs : List Attr) (vis : List String), PlainAttrs vis attrs →
    ∀ (outer : Names), Keys outer vis → ∀ rs : List (String × Region),
      (∀ a ∈ regionActs X ctx attrs, ∃ r m1 m2, (a.1, r) ∈ rs ∧ a.2 outer m1 = .ok (r, m2)) →
      AttrsMean (dictGet outer) attrs rs
  | [], _, _ => by intros; unfold AttrsMean; trivial
  | .mk name ty ref data t ts g gs :: rest, vis, hp => by
    intro outer hk rs h
    unfold PlainAttrs at hp
    unfold AttrsMean
    unfold regionActs at h
    by_cases ht : ty = attrGraph
    · rw [if_pos ht] at h
      refine ⟨fun _ => ?_, attrs_mean X ctx rest vis hp.2 outer hk rs
        (fun a ha => h a (List.mem_cons_of_mem _ ha))⟩
      obtain ⟨r, m1, m2, h1, h2⟩ := h _ List.mem_cons_self
      exact ⟨r, h1, graph_mean X ctx g vis (hp.1 ht) outer hk m1 r m2 h2⟩
    · rw [if_neg ht] at h
      exact ⟨fun h' => absurd h' ht, attrs_mean X ctx rest vis hp.2 outer hk rs h⟩

theorem graph_mean (X : Expand) (ctx : Ctx) : ∀ (g : Option Graph) (vis : List String), PlainGraph vis g →
    ∀ (outer : Names), Keys outer vis → ∀ (m : MSt) (r : Region) (m' : MSt),
      graphAct X ctx g outer m = .ok (r, m') → GraphMean (dictGet outer) g r
  | none, _, _ => by
    intro outer hk m r m' h
    unfold graphAct importRegion at h
    split at h
    · cases h
    · split at h
      · cases h
      · obtain ⟨io, iv, z, l1, m1, l2, ret, h1, _, _, _, h2, _, _, h3, h4, h5⟩ :=
          importAll_mean (vis := outer.map Prod.fst) (by
            intro p hp
            simp only [bindArgs, List.map_nil, List.zip_nil_left, List.reverse_nil, List.append_nil] at hp
            exact List.mem_map_of_mem hp) (by simp) h
        cases h3
        have hio : io = [] := by simpa using h1
        have hret : ret = [] := by
          cases ret with
          | nil => rfl
          | cons => simp at h5
        subst hio; subst hret
        unfold GraphMean
        exact ⟨z, by rw [h4, h2]; rfl⟩
  | some (.mk gname inits valueInfo inputs outputs nodes), vis, hp => by
    intro outer hk m r m' h
    unfold PlainGraph at hp
    obtain ⟨hin, hnd, hpn⟩ := hp
    unfold graphAct importRegion at h
    split at h
    · cases h
    · split at h
      · cases h
      · have hkeys : Keys (outer ++ bindArgs (inputs.map ValueInfo.name) (fresh inputs.length m).1)
            (vis ++ inputs.map ValueInfo.name) := by
          intro p hp
          rcases List.mem_append.mp hp with hp | hp
          · exact List.mem_append_left _ (hk p hp)
          · exact List.mem_append_right _ (List.of_mem_zip (List.mem_reverse.mp hp)).1
        obtain ⟨io, iv, z, l1, m1, l2, ret, h1, h2, h3, h4, h5, h6, h7, h8, h9, h10⟩ :=
          importAll_mean hkeys hnd h
        obtain ⟨ops, h11, h12⟩ := nodes_mean X ctx nodes _ hpn _ l1 l2 m1 m' z h4 h7 h8
        unfold GraphMean
        refine ⟨(fresh inputs.length m).1, io, iv, z, ops, ret, ?_, ?_, h1, h2, h3, ?_⟩
        · rw [h9, h11, h5]; simp
        · simp
        · have := h12 outputs ret h10
          rw [h6, dictGet_outer] at this
          · exact this
          · intro x hx p hp hpx
            obtain ⟨v, hv, rfl⟩ := List.mem_map.mp hx
            exact hin v hv (hpx ▸ hk p hp)

end

end Onnx

/-- In the function of an imported graph, at every depth, each name refers to the innermost definition — provided no
subgraph has an input named like something visible around it. -/
theorem C25_lexical_partial (X : Expand) (ctx : Ctx) (priv : Bool) (g : Graph) (m m' : MSt) (f : FuncRef)
    (hn : (g.inputs.map ValueInfo.name).Nodup) (inputs : List ValueInfo)
    (hi : inputs = wantedInputs ctx.config.elideInitializedInputs g.inputs g.inits)
    (hp : PlainGraph [] (some (.mk g.name g.inits g.valueInfo inputs g.outputs g.nodes)))
    (h : importFunction X ctx priv g m = .ok (f, m')) :
    ∃ func, m'.funcs.getLast? = some func ∧
      GraphMean (fun _ => none) (some (.mk g.name g.inits g.valueInfo inputs g.outputs g.nodes)) func.body := by
  unfold importFunction at h
  split at h
  · cases h
  · rename_i ins hins
    have hw : ins = inputs.map (fun v => (v.name, v)) := by
      rw [hi]
      cases he : ctx.config.elideInitializedInputs with
      | true =>
        rw [he, C24_elided_partial _ _ hn] at hins
        exact (Except.ok.inj hins).symm
      | false =>
        rw [he] at hins
        have hd : ∀ v ∈ g.inputs, ¬ HasInit g.inits v := by
          intro v hv hi
          have := (C24_rejected false false (Or.inr rfl) g.inputs g.inits).mpr ⟨v, hv, hi⟩
          rw [hins] at this
          cases this
        rw [C24_all_partial false false (Or.inr rfl) _ _ hn hd] at hins
        exact (Except.ok.inj hins).symm
    split at h
    · cases h
    · split at h
      · cases h
      · split at h
        · cases h
        · rename_i body m1 hb
          cases h
          refine ⟨_, List.getLast?_concat .., ?_⟩
          simp only
          have hfst : ins.map Prod.fst = inputs.map ValueInfo.name := by
            rw [hw, List.map_map]; rfl
          rw [hfst] at hb
          unfold PlainGraph at hp
          obtain ⟨_, hnd, hpn⟩ := hp
          obtain ⟨io, iv, z, l1, m1, l2, ret, h1, h2, h3, h4, h5, h6, h7, h8, h9, h10⟩ :=
            importAll_mean (vis := [] ++ inputs.map ValueInfo.name) (by
              intro p hp
              exact List.mem_append_right _ (List.of_mem_zip (List.mem_reverse.mp hp)).1) hnd hb
          obtain ⟨ops, h11, h12⟩ := nodes_mean X ctx g.nodes _ hpn _ l1 l2 m1 _ z h4 h7 h8
          unfold GraphMean
          refine ⟨(fresh ins.length m).1, io, iv, z, ops, ret, ?_, ?_, h1, h2, h3, ?_⟩
          · rw [h9, h11, h5]; simp
          · simp [hw]
          · have := h12 g.outputs ret h10
            rw [h6] at this
            have e := dictGet_zip [] (inputs.map ValueInfo.name) (fresh ins.length m).1
            rw [List.append_nil] at e
            rw [show bindArgs (inputs.map ValueInfo.name) (fresh ins.length m).1 =
              ((inputs.map ValueInfo.name).zip (fresh ins.length m).1).reverse from rfl, e] at this
            exact this

namespace Onnx.Demo

/-- `Loop` whose body has an input `a`, like the main graph, and negates it. -/
def shadowing : Graph :=
  .mk "main" [] [] [⟨"a", .unset⟩] [⟨"c", .unset⟩]
    [.mk "" "Loop" "" ["a"] ["c"]
      [.mk "body" attrGraph "" 0 .empty []
        (some (.mk "b" [] [] [⟨"a", .unset⟩] [⟨"d", .unset⟩] [.mk "" "Neg" "" ["a"] ["d"] []])) []]]

def body : Graph := .mk "b" [] [] [⟨"a", .unset⟩] [⟨"d", .unset⟩] [.mk "" "Neg" "" ["a"] ["d"] []]

def noExpansion : Expand := fun _ _ _ _ _ m => .ok (none, m)

/-- The same with an input of its own. -/
def ownName : Graph :=
  .mk "main" [] [] [⟨"a", .unset⟩] [⟨"c", .unset⟩]
    [.mk "" "Loop" "" ["a"] ["c"]
      [.mk "body" attrGraph "" 0 .empty []
        (some (.mk "b" [] [] [⟨"i", .unset⟩] [⟨"d", .unset⟩] [.mk "" "Add" "" ["a", "i"] ["d"] []])) []]]

end Onnx.Demo

open Onnx.Demo in
example : PlainGraph [] (some ownName) ∧ ¬ PlainGraph [] (some shadowing) := by
  constructor
  · unfold ownName
    simp [PlainGraph, Plain, PlainAttrs, Attr.type, Attr.name]
  · unfold shadowing
    simp [PlainGraph, Plain, PlainAttrs]

open Onnx.Demo in
example : (importFunction noExpansion ⟨[("", 1)], Config.default⟩ false ownName ⟨0, [], []⟩).map
      (fun p => p.2.funcs.map Func.body) =
    .ok [.block [0] [.mk .none [] [1] [.none] [],
      .mk (.operator "Loop" []) [0] [2] [.none]
        [.block [3] [.mk .none [] [4] [.none] [], .mk (.operator "Add" []) [0, 3] [5] [.none] []] [5]]] [2]] := by
  with_unfolding_all rfl

open Onnx.Demo in
/-- The body's own input `a` (value 3) is hidden by the enclosing graph's `a` (value 0). -/
theorem C25_shadow_violated :
    (importFunction noExpansion ⟨[("", 1)], Config.default⟩ false shadowing ⟨0, [], []⟩).map
        (fun p => p.2.funcs.map Func.body) =
      .ok [.block [0] [.mk .none [] [1] [.none] [],
        .mk (.operator "Loop" []) [0] [2] [.none]
          [.block [3] [.mk .none [] [4] [.none] [], .mk (.operator "Neg" []) [0] [5] [.none] []] [5]]] [2]] ∧
    ¬ GraphMean (fun x => if x = "a" then some 0 else none) (some body)
      (.block [3] [.mk .none [] [4] [.none] [], .mk (.operator "Neg" []) [0] [5] [.none] []] [5]) := by
  constructor
  · with_unfolding_all rfl
  · unfold body GraphMean
    rintro ⟨args, io, iv, z, ops, ret, h1, _, h2, h3, _, h4⟩
    have hio : io = [] := by simpa using h2
    have hiv : iv = [] := by simpa using h3
    subst hio; subst hiv
    simp only [List.nil_append, Region.block.injEq, List.cons.injEq, Op.mk.injEq] at h1
    obtain ⟨rfl, ⟨_, rfl⟩, rfl⟩ := h1
    unfold NodesMean at h4
    obtain ⟨kind, opds, res, tys, rgs, ops', h5, h6, _⟩ := h4
    simp only [List.cons.injEq, Op.mk.injEq] at h5
    obtain ⟨⟨rfl, rfl, rfl, rfl, rfl⟩, rfl⟩ := h5
    rcases h6 with ⟨a, _, _, h7, _⟩ | ⟨h7, _⟩
    · exact absurd h7 (by decide)
    · simp [Env.input, Env.setAll, Env.set] at h7

/-- A `Constant` without an output name takes the name of its tensor, and hides the value of that name. -/
theorem C25_constant_violated :
    (importFunction Demo.noExpansion ⟨[("", 1)], Config.default⟩ false
        (.mk "main" [] [] [⟨"a", .unset⟩] [⟨"a", .unset⟩]
          [.mk "" "Constant" "" [] [""] [.mk "value" attrTensor "" 0 ⟨"a", 1, [], .raw 7⟩ [] none []]])
        ⟨0, [], []⟩).map (fun p => p.2.funcs.map (fun f => match f.body with
          | .block args _ ret => (args, ret)
          | .absent => ([], []))) =
      .ok [([0], [2])] := by decide +kernel

end Verif
