import Verif.Lemmas.OnnxImporter

/-!
# Scopes are preserved by the ONNX importer
-/

namespace Verif.Onnx

/-! ## Lists of ops -/

theorem results_append (a b : List Op) : results (a ++ b) = results a ++ results b := by
  induction a with
  | nil => rfl
  | cons o a ih => cases o; simp [results, ih]

theorem defs_append (a b : List Op) : defs (a ++ b) = defs a ++ defs b := by
  induction a with
  | nil => simp [defs]
  | cons o a ih => cases o; simp [defs, ih]

theorem scoped_append (vis : List Nat) (a b : List Op) :
    Scoped vis (a ++ b) ↔ Scoped vis a ∧ Scoped (vis ++ results a) b := by
  induction a generalizing vis with
  | nil => simp [Scoped, results]
  | cons o a ih => cases o; simp [Scoped, results, ih, and_assoc]

theorem allCalls_append (P) (a b : List Op) : AllCalls P (a ++ b) ↔ AllCalls P a ∧ AllCalls P b := by
  induction a with
  | nil => simp [AllCalls]
  | cons o a ih => cases o; simp [AllCalls, ih, and_assoc]

theorem defsRegions_append (a b : List Region) :
    defsRegions (a ++ b) = defsRegions a ++ defsRegions b := by
  induction a with
  | nil => simp [defsRegions]
  | cons r a ih => cases r <;> simp [defsRegions, ih]

theorem scopedRegions_append (vis : List Nat) (a b : List Region) :
    ScopedRegions vis (a ++ b) ↔ ScopedRegions vis a ∧ ScopedRegions vis b := by
  induction a with
  | nil => simp [ScopedRegions]
  | cons r a ih => cases r <;> simp [ScopedRegions, ih, and_assoc]

theorem allCallsRegions_append (P) (a b : List Region) :
    AllCallsRegions P (a ++ b) ↔ AllCallsRegions P a ∧ AllCallsRegions P b := by
  induction a with
  | nil => simp [AllCallsRegions]
  | cons r a ih => cases r <;> simp [AllCallsRegions, ih, and_assoc]

theorem absent_regions (k : Nat) (vis : List Nat) (P) :
    ScopedRegions vis (List.replicate k .absent) ∧ defsRegions (List.replicate k .absent) = [] ∧
      AllCallsRegions P (List.replicate k .absent) := by
  induction k with
  | zero => simp [ScopedRegions, defsRegions, AllCallsRegions]
  | succ k ih => simpa [List.replicate_succ, ScopedRegions, defsRegions, AllCallsRegions] using ih

mutual

theorem allCalls_mono {P Q : String → String → String → List IrTy → Prop}
    (h : ∀ f d o t, P f d o t → Q f d o t) : ∀ ops : List Op, AllCalls P ops → AllCalls Q ops
  | [] => by simp [AllCalls]
  | .mk kind _ _ types regions :: rest => by
    unfold AllCalls
    exact fun ⟨h1, h2, h3⟩ => ⟨fun f d o hk => h _ _ _ _ (h1 f d o hk),
      allCallsRegions_mono h regions h2, allCalls_mono h rest h3⟩

theorem allCallsRegions_mono {P Q : String → String → String → List IrTy → Prop}
    (h : ∀ f d o t, P f d o t → Q f d o t) :
    ∀ rs : List Region, AllCallsRegions P rs → AllCallsRegions Q rs
  | [] => by simp [AllCallsRegions]
  | .absent :: rest => by unfold AllCallsRegions; exact allCallsRegions_mono h rest
  | .block _ ops _ :: rest => by
    unfold AllCallsRegions
    exact fun ⟨h1, h2⟩ => ⟨allCalls_mono h ops h1, allCallsRegions_mono h rest h2⟩

end

/-! ## What is assumed of the expansion of operators -/

/-- Valid states, successors of a state, what holds of a call. -/
structure Policy (X : Expand) (ctx : Ctx) where
  V : MSt → Prop
  R : MSt → MSt → Prop
  P : MSt → String → String → String → List IrTy → Prop
  refl : ∀ m, R m m
  trans : ∀ {a b c}, R a b → R b c → R a c
  bumpV : ∀ {m} k, V m → V { m with next := m.next + k }
  bumpR : ∀ m k, R m { m with next := m.next + k }
  le : ∀ {a b}, R a b → a.next ≤ b.next
  mono : ∀ {a b f d o t}, R a b → P a f d o t → P b f d o t
  expand : ∀ {n v i o m r m'}, X ctx n v i o m = .ok (r, m') → V m →
    V m' ∧ R m m' ∧ ∀ f, r = some f → P m' f.name n.domain n.opType f.results

variable {X : Expand} {ctx : Ctx} (H : Policy X ctx)

/-- Regions made between two states. -/
structure RegionsOk (vis : List Nat) (m m' : MSt) (rs : List Region) : Prop where
  valid : H.V m'
  succ : H.R m m'
  scope : ScopedRegions vis rs
  nodup : (defsRegions rs).Nodup
  bounds : ∀ v ∈ defsRegions rs, m.next ≤ v ∧ v < m'.next
  calls : AllCallsRegions (H.P m') rs

/-- The block under construction. -/
structure Inv (vis : List Nat) (lo z : Nat) (l : LSt) (m : MSt) : Prop where
  valid : H.V m
  none : l.none = some z
  noneVis : z ∈ vis ++ results l.ops
  names : ∀ p ∈ l.names, p.2 ∈ vis ++ results l.ops
  scope : Scoped vis l.ops
  nodup : (defs l.ops).Nodup
  bounds : ∀ v ∈ defs l.ops, lo ≤ v ∧ v < m.next
  calls : AllCalls (H.P m) l.ops
  le : lo ≤ m.next

def ActGood (act : RegionAct) : Prop :=
  ∀ vis outer m r m', H.V m → (∀ p ∈ outer, p.2 ∈ vis) → act outer m = .ok (r, m') →
    RegionsOk H vis m m' [r]

def StepGood (step : Step) : Prop :=
  ∀ vis lo z gi l m l' m', Inv H vis lo z l m → step gi l m = .ok (l', m') →
    Inv H vis lo z l' m' ∧ H.R m m'

/-! ## Regions -/

theorem runRegions_good {acts : List (String × RegionAct)} (ha : ∀ a ∈ acts, ActGood H a.2)
    {vis : List Nat} {outer : Names} (ho : ∀ p ∈ outer, p.2 ∈ vis) {m m' : MSt} {rs : List Region}
    (hv : H.V m) (h : runRegions outer acts m = .ok (rs, m')) : RegionsOk H vis m m' rs := by
  induction acts generalizing m rs with
  | nil =>
    simp only [runRegions] at h
    cases h
    exact ⟨hv, H.refl _, by simp [ScopedRegions], by simp [defsRegions], by simp [defsRegions],
      by simp [AllCallsRegions]⟩
  | cons a acts ih =>
    unfold runRegions at h
    split at h
    · cases h
    · rename_i r m1 h1
      split at h
      · cases h
      · rename_i rs' m2 h2
        cases h
        have A := ha a List.mem_cons_self vis outer m r m1 hv ho h1
        have B := ih (fun b hb => ha b (List.mem_cons_of_mem _ hb)) A.valid h2
        have e : r :: rs' = [r] ++ rs' := rfl
        refine ⟨B.valid, H.trans A.succ B.succ, ?_, ?_, ?_, ?_⟩
        · rw [e, scopedRegions_append]; exact ⟨A.scope, B.scope⟩
        · rw [e, defsRegions_append, List.nodup_append]
          refine ⟨A.nodup, B.nodup, ?_⟩
          intro x hx y hy hxy
          have := A.bounds x hx
          have := B.bounds y hy
          omega
        · intro v hv'
          rw [e, defsRegions_append, List.mem_append] at hv'
          have l1 := H.le A.succ
          have l2 := H.le B.succ
          rcases hv' with hv' | hv'
          · have := A.bounds v hv'; omega
          · have := B.bounds v hv'; omega
        · rw [e, allCallsRegions_append]
          exact ⟨allCallsRegions_mono (fun _ _ _ _ => H.mono B.succ) _ A.calls, B.calls⟩

theorem padRegions_ok {vis : List Nat} {m m' : MSt} {rs : List Region} (k : Nat)
    (h : RegionsOk H vis m m' rs) : RegionsOk H vis m m' (padRegions k rs) := by
  have ⟨a, b, c⟩ := absent_regions (k - rs.length) vis (H.P m')
  unfold padRegions
  refine ⟨h.valid, h.succ, ?_, ?_, ?_, ?_⟩
  · rw [scopedRegions_append]; exact ⟨h.scope, a⟩
  · rw [defsRegions_append, b]; simpa using h.nodup
  · rw [defsRegions_append, b]; simpa using h.bounds
  · rw [allCallsRegions_append]; exact ⟨h.calls, c⟩

/-! ## Steps -/

theorem mem_bindOutputs {names : Names} {outs : List String} {vals : List Nat} {p : String × Nat}
    (h : p ∈ bindOutputs names outs vals) : p ∈ names ∨ p.2 ∈ vals := by
  induction outs generalizing names vals with
  | nil => simp only [bindOutputs] at h; exact Or.inl h
  | cons o os ih =>
    cases vals with
    | nil => simp only [bindOutputs] at h; exact Or.inl h
    | cons v vs =>
      simp only [bindOutputs] at h
      rcases ih h with h | h
      · split at h
        · exact Or.inl h
        · simp only [dictSet, List.mem_cons] at h
          rcases h with h | h
          · exact Or.inr (by rw [h]; exact List.mem_cons_self)
          · exact Or.inl h
      · exact Or.inr (List.mem_cons_of_mem _ h)

theorem fresh_mem {n : Nat} {m : MSt} {v : Nat} (h : v ∈ (fresh n m).1) :
    m.next ≤ v ∧ v < m.next + n := by
  simp only [fresh, List.mem_map, List.mem_range] at h
  obtain ⟨k, h1, rfl⟩ := h
  omega

theorem fresh_nodup (n : Nat) (m : MSt) : ((fresh n m).1).Nodup := by
  unfold fresh
  exact List.Pairwise.map _ (fun a b h => by omega) List.nodup_range

@[simp] theorem fresh_length (n : Nat) (m : MSt) : ((fresh n m).1).length = n := by simp [fresh]

/-- Adding one op to the block. -/
theorem Inv.add {vis : List Nat} {lo z : Nat} {l : LSt} {m m' : MSt} (I : Inv H vis lo z l m)
    (hv : H.V m') (hR : H.R m m') {kind : OpKind} {operands res : List Nat} {types : List IrTy}
    {regions : List Region} {names : Names} {inits : List (String × Tensor)}
    (hop : ∀ v ∈ operands, v ∈ vis ++ results l.ops) (hlen : res.length = types.length)
    (hcall : ∀ f d o, kind = .call f d o → H.P m' f d o types)
    (hsc : ScopedRegions (vis ++ results l.ops) regions)
    (hcr : AllCallsRegions (H.P m') regions)
    (hnd : (res ++ defsRegions regions).Nodup)
    (hb : ∀ v ∈ res ++ defsRegions regions, m.next ≤ v ∧ v < m'.next)
    (hn : ∀ p ∈ names, p ∈ l.names ∨ p.2 ∈ res) :
    Inv H vis lo z ⟨names, l.none, inits, l.ops ++ [.mk kind operands res types regions]⟩ m' := by
  have hr : results (l.ops ++ [.mk kind operands res types regions]) = results l.ops ++ res := by
    rw [results_append]; simp [results]
  have hd : defs (l.ops ++ [.mk kind operands res types regions]) =
      defs l.ops ++ (res ++ defsRegions regions) := by rw [defs_append]; simp [defs]
  have hle := H.le hR
  have hlo := I.le
  refine ⟨hv, I.none, ?_, ?_, ?_, ?_, ?_, ?_, by omega⟩
  · simp only [hr]
    rw [← List.append_assoc]
    exact List.mem_append_left _ I.noneVis
  · intro p hp
    simp only [hr]
    rw [← List.append_assoc]
    rcases hn p hp with h | h
    · exact List.mem_append_left _ (I.names p h)
    · exact List.mem_append_right _ h
  · simp only [scoped_append]
    refine ⟨I.scope, ?_⟩
    unfold Scoped
    exact ⟨hop, hlen, hsc, by simp [Scoped]⟩
  · simp only [hd]
    rw [List.nodup_append]
    refine ⟨I.nodup, hnd, ?_⟩
    intro x hx y hy hxy
    have := I.bounds x hx
    have := hb y hy
    omega
  · intro v hv'
    simp only [hd] at hv'
    rcases List.mem_append.mp hv' with h | h
    · have := I.bounds v h; omega
    · have := hb v h; omega
  · simp only [allCalls_append]
    refine ⟨allCalls_mono (fun _ _ _ _ => H.mono hR) _ I.calls, ?_⟩
    unfold AllCalls
    exact ⟨hcall, hcr, by simp [AllCalls]⟩

theorem dictGet_mem {α : Type} {d : List (String × α)} {k : String} {v : α} (h : dictGet d k = some v) :
    (k, v) ∈ d := by
  induction d with
  | nil => cases h
  | cons p d ih =>
    obtain ⟨k', v'⟩ := p
    unfold dictGet at h
    split at h
    · rename_i hk; cases h; rw [hk]; exact List.mem_cons_self
    · exact List.mem_cons_of_mem _ (ih h)

/-- The operands of a node are visible. -/
theorem operands_visible {vis : List Nat} {lo z : Nat} {l : LSt} {m : MSt} (I : Inv H vis lo z l m)
    {inputs : List String} {vs : List Nat}
    (h : inputs.map (Env.input (dictGet l.names) z) = vs.map some) :
    ∀ v ∈ vs, v ∈ vis ++ results l.ops := by
  intro v hv
  have : some v ∈ inputs.map (Env.input (dictGet l.names) z) := by
    rw [h]; exact List.mem_map.mpr ⟨v, hv, rfl⟩
  obtain ⟨x, _, hx⟩ := List.mem_map.mp this
  unfold Env.input at hx
  split at hx
  · cases hx; exact I.noneVis
  · exact I.names _ (dictGet_mem hx)

theorem nodeStep_good {n : Node} {acts : List (String × RegionAct)} (ha : ∀ a ∈ acts, ActGood H a.2) :
    StepGood H (nodeStep X ctx n acts) := by
  intro vis lo z gi l m l' m' I h
  rcases nodeStep_ok I.none h with ⟨a, name, op, inits, _, _, _, _, hop, rfl, rfl⟩ | ⟨vs, hvs, h⟩
  · obtain ⟨av, ty, _, _, rfl⟩ := hop
    refine ⟨I.add H (H.bumpV 1 I.valid) (H.bumpR m 1) (by simp) rfl (by intro f d o hk; cases hk)
      (by simp [ScopedRegions]) (by simp [AllCallsRegions]) (by simp [defsRegions])
      (by simp [defsRegions]) ?_, H.bumpR m 1⟩
    intro p hp
    simp only [dictSet, List.mem_cons] at hp
    rcases hp with rfl | hp
    · exact Or.inr (by simp)
    · exact Or.inl hp
  · have hopd := operands_visible H I hvs
    rcases h with ⟨v, i, o, f, m2, hx, h⟩ | ⟨v, i, o, m2, types, hx, h⟩
    · obtain ⟨hv2, hR, hP⟩ := H.expand hx I.valid
      unfold importCall at h
      cases h
      have hR' : H.R m (fresh f.results.length m2).2 := H.trans hR (H.bumpR m2 _)
      refine ⟨I.add H (H.bumpV _ hv2) hR' hopd (by simp) ?_ (by simp [ScopedRegions])
        (by simp [AllCallsRegions]) (by simpa [defsRegions] using fresh_nodup _ m2) ?_ ?_, hR'⟩
      · intro f' d o' hk
        cases hk
        exact H.mono (H.bumpR m2 _) (hP f rfl)
      · intro w hw
        simp only [defsRegions, List.append_nil] at hw
        have := fresh_mem hw
        have := H.le hR
        simp only [fresh]
        omega
      · exact fun p hp => mem_bindOutputs hp
    · obtain ⟨hv2, hR, _⟩ := H.expand hx I.valid
      obtain ⟨as, rs, hr, rfl⟩ := importOperator_ok h
      have hmem : ∀ a ∈ sortedRegions acts, ActGood H a.2 := by
        intro a ha'
        unfold sortedRegions at ha'
        rw [mem_sortBy] at ha'
        exact ha a (mem_of_mem_ordOf ha')
      have hb := H.bumpR m2 types.length
      have G := padRegions_ok H (countRegions n.attrs)
        (runRegions_good H hmem I.names (H.bumpV types.length hv2) hr)
      have hR' : H.R m m' := H.trans hR (H.trans hb G.succ)
      have l1 := H.le hR
      have l2 := H.le G.succ
      have e : (fresh types.length m2).2.next = m2.next + types.length := rfl
      have e2 : ({ m2 with next := m2.next + types.length } : MSt).next = m2.next + types.length := rfl
      refine ⟨I.add H G.valid hR' hopd (by simp) (by intro f d o hk; cases hk) G.scope G.calls ?_ ?_
        (fun p hp => mem_bindOutputs hp), hR'⟩
      · rw [List.nodup_append]
        refine ⟨fresh_nodup _ _, G.nodup, ?_⟩
        intro x hx y hy hxy
        have := fresh_mem hx
        have := G.bounds y hy
        omega
      · intro w hw
        rcases List.mem_append.mp hw with hw | hw
        · have := fresh_mem hw; omega
        · have := G.bounds w hw; omega

/-! ## Graphs -/

theorem isConstant_defs {t : Tensor} {op : Op} {v : Nat} (h : IsConstant t op v) (vis : List Nat) (P) :
    results [op] = [v] ∧ defs [op] = [v] ∧ Scoped vis [op] ∧ AllCalls P [op] := by
  obtain ⟨a, ty, _, _, rfl⟩ := h
  simp [results, defs, defsRegions, Scoped, ScopedRegions, AllCalls, AllCallsRegions]

theorem constants_defs {ps : List (String × Tensor)} {ops : List Op} {k : Nat} (hl : ops.length = ps.length)
    (h : ∀ (i : Nat) (p : String × Tensor) (op : Op), ps[i]? = some p → ops[i]? = some op →
        IsConstant p.2 op (k + i)) (vis : List Nat) (P) :
    results ops = (List.range ps.length).map (k + ·) ∧ defs ops = (List.range ps.length).map (k + ·) ∧
      Scoped vis ops ∧ AllCalls P ops := by
  induction ops generalizing ps k vis with
  | nil =>
    have : ps = [] := List.eq_nil_of_length_eq_zero (by simpa using hl.symm)
    subst this
    simp [results, defs, Scoped, AllCalls]
  | cons op ops ih =>
    cases ps with
    | nil => simp at hl
    | cons p ps =>
      have h0 := h 0 p op (by simp) (by simp)
      obtain ⟨a1, a2, a3, a4⟩ := isConstant_defs h0 vis P
      obtain ⟨b1, b2, b3, b4⟩ := ih (ps := ps) (k := k + 1) (by simpa using hl) (fun i q o hq ho => by
        have := h (i + 1) q o (by simpa using hq) (by simpa using ho)
        have e : k + (i + 1) = k + 1 + i := by omega
        rwa [e] at this) (vis ++ results [op])
      have e : op :: ops = [op] ++ ops := rfl
      have e2 : (List.range (p :: ps).length).map (k + ·) =
          [k] ++ (List.range ps.length).map (k + 1 + ·) := by
        simp only [List.length_cons, List.range_succ_eq_map, List.map_cons, List.map_map, Nat.add_zero,
          List.singleton_append]
        congr 2
        funext i
        simp only [Function.comp]
        omega
      rw [e, results_append, defs_append, scoped_append, allCalls_append, a1, a2, b1, b2, e2]
      refine ⟨by simp, by simp, ⟨a3, ?_⟩, a4, b4⟩
      rw [a1] at b3
      exact b3

theorem importAll_good {nodes : Step} (hn : StepGood H nodes) {gi : GraphInfo} {inits : List Tensor}
    {args : List Nat} {names : Names} {m m' : MSt} {r : Region} {vis : List Nat}
    (hv : H.V m) (hnames : ∀ p ∈ names, p.2 ∈ vis ++ args)
    (h : importAll nodes gi inits args names m = .ok (r, m')) :
    H.V m' ∧ H.R m m' ∧ ∃ ops ret, r = .block args ops ret ∧ Scoped (vis ++ args) ops ∧
      (∀ v ∈ ret, v ∈ vis ++ args ++ results ops) ∧ (defs ops).Nodup ∧
      (∀ v ∈ defs ops, m.next ≤ v ∧ v < m'.next) ∧ AllCalls (H.P m') ops := by
  unfold importAll at h
  split at h
  · cases h
  · rename_i l1 m1 h1
    obtain ⟨ops, hl, rfl, hops, hnone, _, hnm, hc⟩ := importInits_ok h1
    simp only [List.nil_append] at hops
    obtain ⟨c1, c2, c3, c4⟩ := constants_defs hl hc (vis ++ args)
      (H.P { m with next := m.next + (initMap inits).length + 1 })
    generalize (initMap inits).length = k at *
    split at h
    · cases h
    · rename_i l2 m2 h2
      have hg : getNone l1 { m with next := m.next + k } = (m.next + k,
          { l1 with none := some (m.next + k), ops := l1.ops ++ [.mk .none [] [m.next + k] [.none] []] },
          { m with next := m.next + k + 1 }) := by
        unfold getNone
        rw [hnone]
      rw [hg] at h2
      simp only [hops] at h2
      have hr : results (ops ++ [Op.mk .none [] [m.next + k] [.none] []]) =
          (List.range k).map (m.next + ·) ++ [m.next + k] := by
        rw [results_append, c1]; simp [results]
      have hd : defs (ops ++ [Op.mk .none [] [m.next + k] [.none] []]) =
          (List.range k).map (m.next + ·) ++ [m.next + k] := by
        rw [defs_append, c2]; simp [defs, defsRegions]
      have hlt : ∀ w, w ∈ (List.range k).map (m.next + ·) → m.next ≤ w ∧ w < m.next + k := by
        intro w hw
        obtain ⟨j, hj, rfl⟩ := List.mem_map.mp hw
        have := List.mem_range.mp hj
        omega
      have I : Inv H (vis ++ args) m.next (m.next + k)
          { l1 with none := some (m.next + k), ops := ops ++ [.mk .none [] [m.next + k] [.none] []] }
          { m with next := m.next + k + 1 } := by
        refine ⟨?_, rfl, ?_, ?_, ?_, ?_, ?_, ?_, by simp only; omega⟩
        · have := H.bumpV (k + 1) hv
          exact this
        · simp only [hr]; simp
        · intro p hp
          simp only [hr]
          simp only [hnm] at hp
          rcases List.mem_append.mp hp with hp | hp
          · have := List.of_mem_zip (List.mem_reverse.mp hp)
            apply List.mem_append_right
            exact List.mem_append_left _ this.2
          · exact List.mem_append_left _ (hnames p hp)
        · simp only [scoped_append]
          refine ⟨c3, ?_⟩
          simp [Scoped, ScopedRegions]
        · simp only [hd]
          rw [List.nodup_append]
          refine ⟨List.Pairwise.map _ (fun a b h => by omega) List.nodup_range, by simp, ?_⟩
          intro x hx y hy hxy
          have := hlt x hx
          simp only [List.mem_singleton] at hy
          omega
        · intro w hw
          simp only [hd] at hw
          simp only
          rcases List.mem_append.mp hw with hw | hw
          · have := hlt w hw; omega
          · simp only [List.mem_singleton] at hw; omega
        · simp only [allCalls_append]
          refine ⟨c4, ?_⟩
          unfold AllCalls
          refine ⟨?_, by simp [AllCallsRegions], by simp [AllCalls]⟩
          intro f d o hk
          cases hk
      obtain ⟨J, hR⟩ := hn _ _ _ _ _ _ _ _ I h2
      split at h
      · cases h
      · rename_i ret hret
        cases h
        have hb := H.bumpR m (k + 1)
        refine ⟨J.valid, H.trans hb hR, _, _, rfl, J.scope, ?_, J.nodup, J.bounds, J.calls⟩
        intro v hv'
        rw [pyMap_ok_iff] at hret
        obtain ⟨i, hi, rfl⟩ := List.getElem_of_mem hv'
        have := hret.2 i (by rw [hret.1] at hi; exact hi) hi
        unfold outputValue at this
        split at this
        · rename_i x hx
          cases this
          exact J.names _ (dictGet_mem hx)
        · cases this

/-- A block with fresh arguments. -/
theorem block_ok {args : List Nat} {k : Nat} {m m' : MSt} {r : Region} {vis : List Nat}
    (hargs : args = (fresh k m).1)
    (h : H.V m' ∧ H.R (fresh k m).2 m' ∧ ∃ ops ret, r = .block args ops ret ∧ Scoped (vis ++ args) ops ∧
      (∀ v ∈ ret, v ∈ vis ++ args ++ results ops) ∧ (defs ops).Nodup ∧
      (∀ v ∈ defs ops, (fresh k m).2.next ≤ v ∧ v < m'.next) ∧ AllCalls (H.P m') ops) :
    RegionsOk H vis m m' [r] := by
  obtain ⟨hv, hR, ops, ret, rfl, h1, h2, h3, h4, h5⟩ := h
  have hb := H.bumpR m k
  have hle := H.le hR
  have e : (fresh k m).2.next = m.next + k := rfl
  refine ⟨hv, H.trans hb hR, ?_, ?_, ?_, ?_⟩
  · unfold ScopedRegions; exact ⟨⟨h1, h2⟩, by unfold ScopedRegions; trivial⟩
  · unfold defsRegions
    simp only [defsRegions, List.append_nil]
    rw [List.nodup_append]
    refine ⟨hargs ▸ fresh_nodup _ _, h3, ?_⟩
    intro x hx y hy hxy
    rw [hargs] at hx
    have := fresh_mem hx
    have := h4 y hy
    omega
  · intro v hv'
    unfold defsRegions at hv'
    simp only [defsRegions, List.append_nil] at hv'
    rcases List.mem_append.mp hv' with hv' | hv'
    · rw [hargs] at hv'; have := fresh_mem hv'; omega
    · have := h4 v hv'; omega
  · unfold AllCallsRegions; exact ⟨h5, by unfold AllCallsRegions; trivial⟩

theorem mem_bindArgs {names : List String} {vals : List Nat} {p : String × Nat}
    (h : p ∈ bindArgs names vals) : p.2 ∈ vals :=
  (List.of_mem_zip (List.mem_reverse.mp h)).2

theorem importRegion_good {nodes : Step} (hn : StepGood H nodes) (inits : List Tensor)
    (valueInfo inputs outputs : List ValueInfo) :
    ActGood H (importRegion inits valueInfo inputs outputs nodes) := by
  intro vis outer m r m' hv ho h
  unfold importRegion at h
  split at h
  · cases h
  · split at h
    · cases h
    · apply block_ok H rfl
      refine importAll_good H hn (H.bumpV _ hv) ?_ h
      intro p hp
      rcases List.mem_append.mp hp with hp | hp
      · exact List.mem_append_left _ (ho p hp)
      · exact List.mem_append_right _ (mem_bindArgs hp)

theorem skip_good : StepGood H (fun _ l m => .ok (l, m)) := by
  intro vis lo z gi l m l' m' I h
  cases h
  exact ⟨I, H.refl _⟩

mutual

theorem importNodes_good : ∀ nodes : List Node, StepGood H (importNodes X ctx nodes)
  | [] => by unfold importNodes; exact skip_good H
  | .mk name opType domain inputs outputs attrs :: rest => by
    intro vis lo z gi l m l' m' I h
    unfold importNodes at h
    split at h
    · cases h
    · rename_i l1 m1 h1
      obtain ⟨J, hR⟩ := nodeStep_good H (regionActs_good attrs) vis lo z gi l m l1 m1 I h1
      obtain ⟨K, hR'⟩ := importNodes_good rest vis lo z gi l1 m1 l' m' J h
      exact ⟨K, H.trans hR hR'⟩

theorem regionActs_good : ∀ attrs : List Attr, ∀ a ∈ regionActs X ctx attrs, ActGood H a.2
  | [] => by unfold regionActs; intro a ha; cases ha
  | .mk name ty _ _ _ _ g _ :: rest => by
    unfold regionActs
    split
    · intro a ha
      rcases List.mem_cons.mp ha with rfl | ha
      · exact graphAct_good g
      · exact regionActs_good rest a ha
    · exact regionActs_good rest

theorem graphAct_good : ∀ g : Option Graph, ActGood H (graphAct X ctx g)
  | none => by unfold graphAct; exact importRegion_good H (skip_good H) _ _ _ _
  | some (.mk _ inits valueInfo inputs outputs nodes) => by
    unfold graphAct
    exact importRegion_good H (importNodes_good nodes) _ _ _ _

end

/-- The function of a graph. -/
theorem importFunction_good {priv : Bool} {g : Graph} {m m' : MSt} {f : FuncRef} (hv : H.V m)
    (h : importFunction X ctx priv g m = .ok (f, m')) :
    ∃ func m1, RegionsOk H [] m m1 [func.body] ∧ m' = { m1 with funcs := m1.funcs ++ [func] } ∧
      func.name = g.name ∧ func.priv = priv ∧ f = ⟨func.name, func.resTypes⟩ := by
  unfold importFunction at h
  split at h
  · cases h
  · split at h
    · cases h
    · split at h
      · cases h
      · split at h
        · cases h
        · rename_i ins _ _ _ _ _ _ body m1 hb
          cases h
          refine ⟨_, m1, ?_, rfl, rfl, rfl, rfl⟩
          apply block_ok H rfl
          refine importAll_good H (importNodes_good H _) (H.bumpV _ hv) ?_ hb
          intro p hp
          exact List.mem_append_right _ (mem_bindArgs hp)

end Verif.Onnx
