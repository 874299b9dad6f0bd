import Verif.Spec.While

/-!
# The emitted loop computes Python's `while`
-/

namespace Verif.Fx.Spec
open Verif.Fx

variable {V : Type} {F : String → List V → Option (List V)} {truth : V → Bool}

theorem carriedOf_map (vs : List V) : carriedOf (vs.map fun v => some (Val.carried v)) = some vs := by
  induction vs with
  | nil => rfl
  | cons v vs ih =>
    unfold carriedOf at ih ⊢
    simp only [List.map_cons, List.mapM_cons, ih]
    rfl

theorem map_range'_getElem? {α : Type} (l : List α) (pre post : List α) :
    (List.range' pre.length l.length).map (fun i => (pre ++ l ++ post)[i]?) = l.map some := by
  apply List.ext_getElem?
  intro k
  simp only [List.getElem?_map]
  by_cases hk : k < l.length
  · rw [List.getElem?_range' hk]
    simp [List.getElem?_append, hk]
  · rw [List.getElem?_eq_none (by simp; omega), List.getElem?_eq_none (l := l) (by omega)]
    rfl

/-- The carried values among the values of the region. -/
theorem carriedOf_range (vs : List V) (pre post : List (Val V)) (n m : Nat) (hn : n = pre.length)
    (hm : m = vs.length) :
    carriedOf ((List.range' n m).map fun i => (pre ++ vs.map Val.carried ++ post)[i]?) = some vs := by
  have := map_range'_getElem? (vs.map Val.carried) pre post
  rw [List.length_map] at this
  subst hn hm
  rw [this, List.map_map]
  exact carriedOf_map vs

variable {c b : String} {cond : List V → Bool} {body : List V → List V}

/-- One execution of the region. -/
theorem runRegion_while {n : Nat} (i : Nat) (vs : List V) (hl : vs.length = n)
    (hc : ∀ ws : List V, ws.length = n → ∃ t, F c ws = some [t] ∧ truth t = cond ws)
    (hb : ∀ ws : List V, ws.length = n → F b ws = some (body ws) ∧ (body ws).length = n) :
    runRegion F truth (whileRegion c b n) i vs = some (cond (body vs), body vs) := by
  obtain ⟨hb1, hb2⟩ := hb vs hl
  obtain ⟨t, ht1, ht2⟩ := hc (body vs) hb2
  let start : List (Val V) := [Val.int i] ++ vs.map .carried
  let v1 : List (Val V) := start ++ (body vs).map .carried
  let v2 : List (Val V) := v1 ++ [.carried t]
  let v3 : List (Val V) := v2 ++ [.bool (truth t)]
  have hstart : start.length = n + 1 := by simp [start, hl]
  have hv1 : v1.length = 2 * n + 1 := by simp [v1, hstart, hb2]; omega
  have hv2 : v2.length = 2 * n + 2 := by simp [v2, hv1]
  have s1 : runRegionOp F truth start (.call b (List.range' 1 n) n) = some v1 := by
    have : carriedOf ((List.range' 1 n).map fun i => start[i]?) = some vs := by
      have := carriedOf_range vs [Val.int i] [] 1 n rfl hl.symm
      simpa [start] using this
    simp [runRegionOp, this, hb1, hb2, v1]
  have s2 : runRegionOp F truth v1 (.call c (List.range' (n + 1) n) 1) = some v2 := by
    have : carriedOf ((List.range' (n + 1) n).map fun i => v1[i]?) = some (body vs) := by
      have := carriedOf_range (body vs) start [] (n + 1) n hstart.symm hb2.symm
      simpa only [List.append_nil] using this
    simp [runRegionOp, this, ht1, v2]
  have s3 : runRegionOp F truth v2 (.boolTensor (2 * n + 1)) = some v3 := by
    have : v2[2 * n + 1]? = some (.carried t) := by
      show (v1 ++ [Val.carried t])[2 * n + 1]? = _
      rw [← hv1, List.getElem?_concat_length]
    simp only [runRegionOp, this, v3]
  have s4 : v3[2 * n + 2]? = some (.bool (truth t)) := by
    show (v2 ++ [Val.bool (truth t)])[2 * n + 2]? = _
    rw [← hv2, List.getElem?_concat_length]
  have s5 : carriedOf ((List.range' (n + 1) n).map fun i => v3[i]?) = some (body vs) := by
    have := carriedOf_range (body vs) start [.carried t, .bool (truth t)] (n + 1) n hstart.symm hb2.symm
    have e : v3 = start ++ (body vs).map Val.carried ++ [.carried t, .bool (truth t)] := by simp [v3, v2, v1]
    rw [e]; exact this
  have hfold : (whileRegion c b n).ops.foldlM (runRegionOp F truth) start = some v3 := by
    simp only [whileRegion, List.foldlM_cons, List.foldlM_nil, s1, s2, s3, Option.bind_eq_bind, Option.bind_some]
    rfl
  unfold runRegion
  have e : (Val.int (i : Int) :: vs.map Val.carried) = start := rfl
  have hn : start.length = (whileRegion c b n).nArgs := hstart
  simp only [e, hfold]
  have h4 : v3[(whileRegion c b n).cond]? = some (.bool (truth t)) := s4
  have h5 : carriedOf ((whileRegion c b n).yields.map fun i => v3[i]?) = some (body vs) := s5
  simp only [Option.bind_eq_bind, Option.bind_some, h4, h5]
  rw [if_pos hn, ht2]

/-- The loop makes as many iterations as Python's `while`. -/
theorem runLoop_while {n : Nat} (left i k : Nat) (vs out : List V) (hl : vs.length = n)
    (hc : ∀ ws : List V, ws.length = n → ∃ t, F c ws = some [t] ∧ truth t = cond ws)
    (hb : ∀ ws : List V, ws.length = n → F b ws = some (body ws) ∧ (body ws).length = n)
    (hr : WhileRuns cond body vs k out) (hk : k ≤ left) :
    runLoop (runRegion F truth (whileRegion c b n)) left i (cond vs) vs = some out ∧ out.length = n := by
  induction hr generalizing left i with
  | stop h =>
    rw [h]
    cases left <;> exact ⟨rfl, hl⟩
  | next h _ ih =>
    rw [h]
    cases left with
    | zero => omega
    | succ left =>
      have := ih left (i + 1) (hb _ hl).2 (by omega)
      unfold runLoop
      rw [runRegion_while i _ hl hc hb]
      exact this

theorem Mem.bind_other (μ : Mem V) (xs : List Nat) (vs : List (Val V)) (y : Nat) (h : y ∉ xs) :
    μ.bind xs vs y = μ y := by
  induction xs generalizing μ vs with
  | nil => rfl
  | cons x xs ih =>
    cases vs with
    | nil => rfl
    | cons v vs =>
      show Mem.bind _ xs vs y = _
      rw [ih _ _ (fun h' => h (List.mem_cons_of_mem _ h'))]
      exact if_neg (fun e => h (by simp [e]))

theorem Mem.bind_get (μ : Mem V) (xs : List Nat) (vs : List (Val V)) (hd : xs.Nodup) (k x : Nat) (v : Val V)
    (hx : xs[k]? = some x) (hv : vs[k]? = some v) : μ.bind xs vs x = some v := by
  induction xs generalizing μ vs k with
  | nil => simp at hx
  | cons x' xs ih =>
    cases vs with
    | nil => simp at hv
    | cons v' vs =>
      show Mem.bind _ xs vs x = _
      obtain ⟨hnot, hd⟩ := List.nodup_cons.mp hd
      cases k with
      | zero =>
        simp at hx hv; subst hx hv
        rw [Mem.bind_other _ _ _ _ hnot]
        simp
      | succ k => exact ih _ _ hd k (by simpa using hx) (by simpa using hv)

theorem carriedOf_mem {μ : Mem V} {xs : List Nat} {vs : List V}
    (h : List.Forall₂ (fun x v => μ x = some (.carried v)) xs vs) : carriedOf (xs.map μ) = some vs := by
  have : xs.map μ = vs.map fun v => some (Val.carried v) := by
    induction h with
    | nil => rfl
    | cons h _ ih => simp [h, ih]
  rw [this]; exact carriedOf_map vs

/-- The four operations emitted for a `while_loop`. -/
def whileOps (c b : String) (xs : List Nat) (x0 n : Nat) : List Op :=
  [⟨.call c, xs, [x0]⟩, ⟨.torchOp "torch.aten.Bool.Tensor", [x0], [x0 + 1]⟩,
   ⟨.const (.int 9223372036854775807) none, [], [x0 + 2]⟩,
   ⟨.loop c b, (x0 + 2) :: (x0 + 1) :: xs, List.range' (x0 + 3) n⟩]

theorem whileOps_run {xs : List Nat} {x0 n : Nat} (hlt : ∀ x ∈ xs, x < x0) (μ : Mem V) (vs out : List V) (k : Nat)
    (hl : vs.length = n)
    (hc : ∀ ws : List V, ws.length = n → ∃ t, F c ws = some [t] ∧ truth t = cond ws)
    (hb : ∀ ws : List V, ws.length = n → F b ws = some (body ws) ∧ (body ws).length = n)
    (hx : List.Forall₂ (fun x v => μ x = some (.carried v)) xs vs)
    (hr : WhileRuns cond body vs k out) (hk : k ≤ 2 ^ 63 - 1) :
    ∃ μ', runOps F truth μ (whileOps c b xs x0 n) = some μ' ∧ out.length = n ∧
      ∀ (j : Nat) v, out[j]? = some v → μ' (x0 + 3 + j) = some (.carried v) := by
  obtain ⟨t, ht1, ht2⟩ := hc vs hl
  obtain ⟨hloop, hout⟩ := runLoop_while (2 ^ 63 - 1) 0 k vs out hl hc hb hr hk
  let μ1 := μ.bind [x0] [.carried t]
  let μ2 := μ1.bind [x0 + 1] [.bool (truth t)]
  let μ3 := μ2.bind [x0 + 2] [.int 9223372036854775807]
  have s1 : runOp F truth μ ⟨.call c, xs, [x0]⟩ = some μ1 := by
    simp [runOp, carriedOf_mem hx, ht1, μ1]
  have e1 : μ1 x0 = some (.carried t) := by simp [μ1, Mem.bind]
  have s2 : runOp F truth μ1 ⟨.torchOp "torch.aten.Bool.Tensor", [x0], [x0 + 1]⟩ = some μ2 := by
    simp [runOp, e1, μ2]
  have s3 : runOp F truth μ2 ⟨.const (.int 9223372036854775807) none, [], [x0 + 2]⟩ = some μ3 := by
    simp [runOp, μ3]
  have e3 : μ3 (x0 + 2) = some (.int 9223372036854775807) := by simp [μ3, Mem.bind]
  have e2 : μ3 (x0 + 1) = some (.bool (truth t)) := by
    simp [μ3, μ2, Mem.bind]
  have old : ∀ x, x < x0 → μ3 x = μ x := by
    intro x h
    have h1 : x ≠ x0 := by omega
    have h2 : x ≠ x0 + 1 := by omega
    have h3 : x ≠ x0 + 2 := by omega
    simp [μ3, μ2, μ1, Mem.bind, h1, h2, h3]
  have hx3 : List.Forall₂ (fun x v => μ3 x = some (.carried v)) xs vs := by
    clear hr hloop s1 ht1 ht2 hl
    induction hx with
    | nil => exact .nil
    | cons h _ ih =>
      refine .cons ?_ (ih fun x hx => hlt x (List.mem_cons_of_mem _ hx))
      rw [old _ (hlt _ List.mem_cons_self)]; exact h
  have s4 : runOp F truth μ3 ⟨.loop c b, (x0 + 2) :: (x0 + 1) :: xs, List.range' (x0 + 3) n⟩
      = some (μ3.bind (List.range' (x0 + 3) n) (out.map .carried)) := by
    have hm : (9223372036854775807 : Int).toNat = 2 ^ 63 - 1 := by decide
    simp only [runOp, List.map_cons, e2, e3, carriedOf_mem hx3, List.length_range', hl, hm, ht2,
      Option.bind_eq_bind, Option.bind_some, if_true, hloop]
  refine ⟨μ3.bind (List.range' (x0 + 3) n) (out.map .carried), ?_, hout, fun j v hj => ?_⟩
  · simp only [runOps, whileOps, List.foldlM_cons, List.foldlM_nil, s1, s2, s3, s4, Option.bind_eq_bind, Option.bind_some]
    rfl
  · have hjl := (List.getElem?_eq_some_iff.mp hj).1
    refine Mem.bind_get _ _ _ (List.nodup_range' ..) j _ _ ?_ (by simp [hj])
    rw [List.getElem?_range' (by omega), Nat.one_mul]

end Verif.Fx.Spec
