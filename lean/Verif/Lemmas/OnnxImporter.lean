import Verif.Spec.OnnxScope

/-!
# The steps of the ONNX importer

What each step of the importer did when it succeeded.
-/

namespace Verif.Onnx

/-- The inputs of a node, once the block has its `none`: nothing is emitted. -/
theorem importInputs_ok {gi : GraphInfo} {names : List String} {l l' : LSt} {m m' : MSt} {z : Nat}
    {vs : List Nat} {ts : List TypeProto} (hz : l.none = some z)
    (h : importInputs gi names l m = .ok (vs, ts, l', m')) :
    l' = l ∧ m' = m ∧
      names.map (Env.input (dictGet l.names) z) = vs.map some := by
  induction names generalizing vs ts l' m' with
  | nil => simp only [importInputs] at h; cases h; simp
  | cons x xs ih =>
    unfold importInputs at h
    by_cases hx : x = ""
    · rw [if_pos hx] at h
      have hg : getNone l m = (z, l, m) := by unfold getNone; rw [hz]
      rw [hg] at h
      simp only at h
      split at h
      · cases h
      · rename_i vs1 ts1 l1 m1 h1
        cases h
        obtain ⟨a, b, c⟩ := ih h1
        exact ⟨a, b, by simp [Env.input, hx, c]⟩
    · rw [if_neg hx] at h
      split at h
      · cases h
      · rename_i v hv
        split at h
        · cases h
        · rename_i vs1 ts1 l1 m1 h1
          cases h
          obtain ⟨a, b, c⟩ := ih h1
          refine ⟨a, b, ?_⟩
          rw [List.map_cons, List.map_cons, c]
          simp [Env.input, hx, hv]

theorem importInitializer_ok {t : Tensor} {x : String} {l l' : LSt} {m m' : MSt}
    (h : importInitializer t x l m = .ok (l', m')) :
    ∃ op, IsConstant t op m.next ∧ m' = { m with next := m.next + 1 } ∧
      l' = { l with names := dictSet l.names (if x = "" then t.name else x) m.next, ops := l.ops ++ [op] } := by
  unfold importInitializer at h
  split at h
  · cases h
  · rename_i a ha
    split at h
    · cases h
    · rename_i ty hty
      cases h
      exact ⟨_, ⟨a, ty, ha, hty, rfl⟩, rfl, rfl⟩

/-- A node that was imported: a constant, a call, or an operator with regions. -/
theorem nodeStep_ok {X : Expand} {ctx : Ctx} {n : Node} {acts : List (String × RegionAct)}
    {gi : GraphInfo} {l l' : LSt} {m m' : MSt} {z : Nat} (hz : l.none = some z)
    (h : nodeStep X ctx n acts gi l m = .ok (l', m')) :
    (∃ a name op inits, n.opType = "Constant" ∧ a ∈ n.attrs ∧ a.name = "value" ∧ n.outputs = [name] ∧
        IsConstant a.t op m.next ∧ m' = { m with next := m.next + 1 } ∧
        l' = { l with
          names := dictSet l.names (if name = "" then a.t.name else name) m.next
          ops := l.ops ++ [op]
          inits := inits }) ∨
    (∃ vs, n.inputs.map (Env.input (dictGet l.names) z) = vs.map some ∧
      ((∃ v i o f m2, X ctx n v i o m = .ok (some f, m2) ∧
          (l', m') = importCall f n.domain n.opType n.outputs vs l m2) ∨
        (∃ v i o m2 types, X ctx n v i o m = .ok (none, m2) ∧
          importOperator n.opType n.attrs acts n.outputs types vs l m2 = .ok (l', m')))) := by
  have general : generalNode X ctx n acts gi l m = .ok (l', m') →
      ∃ vs, n.inputs.map (Env.input (dictGet l.names) z) = vs.map some ∧
      ((∃ v i o f m2, X ctx n v i o m = .ok (some f, m2) ∧
          (l', m') = importCall f n.domain n.opType n.outputs vs l m2) ∨
        (∃ v i o m2 types, X ctx n v i o m = .ok (none, m2) ∧
          importOperator n.opType n.attrs acts n.outputs types vs l m2 = .ok (l', m'))) := by
    intro hg
    unfold generalNode at hg
    split at hg
    · cases hg
    · rename_i vs ts l1 m1 h1
      obtain ⟨rfl, rfl, hvs⟩ := importInputs_ok hz h1
      split at hg
      · cases hg
      · rename_i types ht
        split at hg
        · cases hg
        · rename_i version hv
          split at hg
          · cases hg
          · rename_i f m2 hx
            exact ⟨vs, hvs, Or.inl ⟨_, _, _, f, m2, hx, (Except.ok.inj hg).symm⟩⟩
          · rename_i m2 hx
            exact ⟨vs, hvs, Or.inr ⟨_, _, _, m2, types, hx, hg⟩⟩
  unfold nodeStep at h
  split at h
  · rename_i hc
    split at h
    · rename_i a ha
      left
      unfold handleConstant at h
      split at h
      · cases h
      · split at h
        · rename_i name hout
          split at h
          · cases h
          · rename_i l1 m1 hi
            obtain ⟨op, ho, rfl, rfl⟩ := importInitializer_ok hi
            cases h
            unfold findAttr at ha
            exact ⟨a, name, op, _, hc, List.mem_of_find?_eq_some ha,
              by simpa using List.find?_some ha, hout, ho, rfl, rfl⟩
        · cases h
    · exact Or.inr (general h)
  · exact Or.inr (general h)

theorem importOperator_ok {opType : String} {attrs : List Attr} {acts : List (String × RegionAct)}
    {outs : List String} {types : List IrTy} {vs : List Nat} {l l' : LSt} {m m' : MSt}
    (h : importOperator opType attrs acts outs types vs l m = .ok (l', m')) :
    ∃ as rs, runRegions l.names (sortedRegions acts) (fresh types.length m).2 = .ok (rs, m') ∧
      l' = { l with
        ops := l.ops ++ [.mk (.operator opType as) vs (fresh types.length m).1 types
          (padRegions (countRegions attrs) rs)]
        names := bindOutputs l.names outs (fresh types.length m).1 } := by
  unfold importOperator at h
  split at h
  · cases h
  · rename_i as has
    split at h
    · cases h
    · rename_i rs m1 hr
      cases h
      exact ⟨as, rs, hr, rfl⟩

/-- The constants of a graph. -/
theorem importInits_ok {ps : List (String × Tensor)} {l l' : LSt} {m m' : MSt}
    (h : importInits ps l m = .ok (l', m')) :
    ∃ ops, ops.length = ps.length ∧ m' = { m with next := m.next + ps.length } ∧
      l'.ops = l.ops ++ ops ∧ l'.none = l.none ∧ l'.inits = l.inits ∧
      l'.names = ((ps.map (fun p => p.2.name)).zip ((List.range ps.length).map (m.next + ·))).reverse ++ l.names ∧
      ∀ (i : Nat) (p : String × Tensor) (op : Op), ps[i]? = some p → ops[i]? = some op →
        IsConstant p.2 op (m.next + i) := by
  induction ps generalizing l m with
  | nil => simp only [importInits] at h; cases h; exact ⟨[], by simp⟩
  | cons p ps ih =>
    unfold importInits at h
    split at h
    · cases h
    · rename_i l1 m1 h1
      obtain ⟨op, ho, rfl, rfl⟩ := importInitializer_ok h1
      obtain ⟨ops, hl, hm, hops, hn, hi, hnames, hc⟩ := ih h
      refine ⟨op :: ops, by simp [hl], ?_, ?_, hn, hi, ?_, ?_⟩
      · rw [hm]; simp only [List.length_cons]; congr 1; omega
      · rw [hops]; simp
      · rw [hnames]
        simp only [if_true, dictSet, List.map_cons, List.length_cons, List.range_succ_eq_map, List.map_map,
          List.zip_cons_cons, List.reverse_cons, List.append_assoc, List.singleton_append, Nat.add_zero]
        have : ((fun x => m.next + x) ∘ Nat.succ) = (fun x => m.next + 1 + x) := by
          funext k; simp only [Function.comp]; omega
        rw [this]
      · intro i q op' hq hop'
        cases i with
        | zero =>
          simp only [List.getElem?_cons_zero, Option.some.injEq] at hq hop'
          subst hq; subst hop'
          exact ho
        | succ i =>
          simp only [List.getElem?_cons_succ] at hq hop'
          have := hc i q op' hq hop'
          have e : m.next + (i + 1) = m.next + 1 + i := by omega
          rw [e]
          exact this

end Verif.Onnx
