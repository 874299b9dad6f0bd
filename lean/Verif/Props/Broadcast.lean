import Verif.Lemmas.Broadcast
import Verif.Model.ShapeElementwise

/-!
# C31: broadcast shapes follow the NumPy rule; C43: element-wise binary ops broadcast

The shape computed for broadcasting element-wise ops exists exactly when the operand shapes are
compatible and equals, in each trailing position, the common size; it does not depend on operand order
or grouping.
-/

namespace Verif

open Shape

/-- The computed shape is the one of the rule, and there is one exactly when the rule gives one. -/
theorem C31_rule (a b c : List Int) : broadcast a b = .ok c ↔ IsBroadcast a b c := broadcast_iff a b c

/-- A shape exists exactly for compatible operands; otherwise an assertion fails. -/
theorem C31_exists (a b : List Int) :
    (Compatible a b → ∃ c, broadcast a b = .ok c) ∧
    (¬ Compatible a b → broadcast a b = .error .assertion) := by
  refine ⟨(broadcast_exists_iff a b).mpr, fun h => ?_⟩
  cases h' : broadcast a b with
  | ok c => exact absurd ((broadcast_exists_iff a b).mp ⟨c, h'⟩) h
  | error e => rw [broadcast_error h']

/-- Operand order does not matter. -/
theorem C31_order (a b : List Int) : broadcast a b = broadcast b a := broadcast_comm a b

/-- Grouping does not matter; neither in the library's three-operand functions. -/
theorem C31_grouping (a b c : List Int) :
    (broadcast a b >>= fun ab => broadcast ab c) = (broadcast b c >>= fun bc => broadcast a bc) ∧
    broadcastThree a b c = ternaryShape a b c := by
  refine ⟨broadcast_assoc a b c, ?_⟩
  have := broadcast_assoc a b c
  unfold broadcastThree ternaryShape
  cases h : broadcast a b <;> cases h' : broadcast b c <;> rw [h, h'] at this <;> exact this

/-- The result is the least shape both operands expand to. -/
theorem C31_least (a b c : List Int) (h : broadcast a b = .ok c) :
    ExpandsTo a c ∧ ExpandsTo b c ∧ ∀ d, ExpandsTo a d → ExpandsTo b d → ExpandsTo c d :=
  have h := (broadcast_iff a b c).mp h
  ⟨(isBroadcast_expands h).1, (isBroadcast_expands h).2, fun _ => isBroadcast_least h⟩

namespace Shape

theorem IsBroadcastAll.single {t c : List Int} : IsBroadcastAll [t] c ↔ t = c := by
  unfold IsBroadcastAll
  simp only [List.mem_singleton, forall_eq, exists_eq_left]
  constructor
  · rintro ⟨⟨_, hl⟩, hk⟩
    exact trail_ext hl (fun k => (hk k).2)
  · rintro rfl
    exact ⟨⟨Nat.le_refl _, rfl⟩, fun k => ⟨Or.inl rfl, rfl⟩⟩

theorem common_parts {a b r c : Int} (h : Common a b r) :
    ((r = c ∨ r = 1) ↔ (a = c ∨ a = 1) ∧ (b = c ∨ b = 1)) ∧ (r = c → a = c ∨ b = c) ∧
    ((a = c ∨ a = 1) → (b = c ∨ b = 1) → (a = c ∨ b = c) → r = c) := by
  unfold Common at h
  omega

theorem IsBroadcastAll.cons_cons {r t c : List Int} {ts : List (List Int)} :
    (∃ r', IsBroadcast r t r' ∧ IsBroadcastAll (r' :: ts) c) ↔ IsBroadcastAll (r :: t :: ts) c := by
  unfold IsBroadcastAll
  simp only [List.mem_cons, forall_eq_or_imp, exists_eq_or_imp]
  constructor
  · rintro ⟨r', hr, ⟨⟨h1, h2⟩, h3⟩, hk⟩
    have hl := hr.1
    refine ⟨⟨⟨by omega, by omega, h2⟩, ?_⟩, fun k => ?_⟩
    · rcases h3 with h3 | h3
      · rcases Nat.le_total r.length t.length with h | h
        · exact Or.inr (Or.inl (by omega))
        · exact Or.inl (by omega)
      · exact Or.inr (Or.inr h3)
    · have hc := hr.2 k
      obtain ⟨⟨a1, a2⟩, a3⟩ := hk k
      have hp := common_parts (c := trail c k) hc
      refine ⟨⟨(hp.1.mp a1).1, (hp.1.mp a1).2, a2⟩, ?_⟩
      rcases a3 with a3 | a3
      · exact (hp.2.1 a3).imp id Or.inl
      · exact Or.inr (Or.inr a3)
  · rintro ⟨⟨⟨h1, h2, h3⟩, h4⟩, hk⟩
    have hcomp : Compatible r t := fun k => by
      have a1 := (hk k).1.1
      have a2 := (hk k).1.2.1
      clear hk h4 h3
      omega
    obtain ⟨r', hr'⟩ := (broadcast_exists_iff r t).mpr hcomp
    have hr := (broadcast_iff r t r').mp hr'
    have hl := hr.1
    refine ⟨r', hr, ⟨⟨by omega, h3⟩, ?_⟩, fun k => ?_⟩
    · rcases h4 with h4 | h4 | h4
      · exact Or.inl (by omega)
      · exact Or.inl (by omega)
      · exact Or.inr h4
    · have hc := hr.2 k
      obtain ⟨⟨a1, a2, a3⟩, a4⟩ := hk k
      have hp := common_parts (c := trail c k) hc
      refine ⟨⟨hp.1.mpr ⟨a1, a2⟩, a3⟩, ?_⟩
      rcases a4 with a4 | a4 | a4
      · exact Or.inl (hp.2.2 a1 a2 (Or.inl a4))
      · exact Or.inl (hp.2.2 a1 a2 (Or.inr a4))
      · exact Or.inr a4

theorem fold_broadcast_iff (ts : List (List Int)) (r c : List Int) :
    pyFold broadcast r ts = .ok c ↔ IsBroadcastAll (r :: ts) c := by
  induction ts generalizing r with
  | nil =>
    rw [IsBroadcastAll.single]
    simp [pyFold]
  | cons t ts ih =>
    rw [← IsBroadcastAll.cons_cons]
    unfold pyFold
    cases h : broadcast r t with
    | error e =>
      simp only [reduceCtorEq, false_iff, not_exists, not_and]
      intro r' hr'
      rw [(broadcast_iff r t r').mpr hr'] at h
      cases h
    | ok r' =>
      simp only [ih]
      constructor
      · intro h'
        exact ⟨r', (broadcast_iff r t r').mp h, h'⟩
      · rintro ⟨r'', h1, h2⟩
        rwa [((broadcast_iff r t r').mp h).unique h1]

theorem IsBroadcastAll.perm {ts ts' : List (List Int)} {c : List Int} (h : ∀ t, t ∈ ts ↔ t ∈ ts') :
    IsBroadcastAll ts c ↔ IsBroadcastAll ts' c := by
  unfold IsBroadcastAll
  simp only [h]

end Shape

/-- `broadcast_tensors` gives every operand the common shape of all of them, which depends only on
which shapes occur. -/
theorem C31_tensors (ts : List (List Int)) (hne : ts ≠ []) (out : List (List Int)) :
    broadcastTensors ts = .ok out ↔ ∃ c, IsBroadcastAll ts c ∧ out = List.replicate ts.length c := by
  cases ts with
  | nil => exact absurd rfl hne
  | cons t rest =>
    constructor
    · intro h'
      simp only [broadcastTensors] at h'
      split at h'
      · cases h'
      · rename_i c h
        exact ⟨c, (fold_broadcast_iff rest t c).mp h, (Except.ok.inj h').symm⟩
    · rintro ⟨c, hc, rfl⟩
      simp only [broadcastTensors]
      rw [(fold_broadcast_iff rest t c).mpr hc]
      rfl

/-- Reordering the operands of `broadcast_tensors` does not change the common shape. -/
theorem C31_tensors_order (ts ts' : List (List Int)) (hp : ts.Perm ts') (out : List (List Int))
    (h : broadcastTensors ts = .ok out) : broadcastTensors ts' = .ok out := by
  by_cases hne : ts = []
  · subst hne
    rw [List.nil_perm.mp hp]
    exact h
  · have hne' : ts' ≠ [] := by
      rintro rfl
      exact hne (List.perm_nil.mp hp)
    obtain ⟨c, hc, ho⟩ := (C31_tensors ts hne out).mp h
    exact (C31_tensors ts' hne' out).mpr
      ⟨c, (IsBroadcastAll.perm (fun t => hp.mem_iff)).mp hc, by rw [ho, hp.length_eq]⟩

/-- The operations on three tensors (`where`, `lerp`, `addcmul`, `addcdiv`) compute the common shape of
all three. -/
theorem C31_ternary (x y z c : List Int) : ternaryShape x y z = .ok c ↔ IsBroadcastAll [x, y, z] c := by
  rw [← (C31_grouping x y z).2, ← fold_broadcast_iff]
  unfold broadcastThree
  simp only [pyFold]
  cases broadcast x y with
  | error e => rfl
  | ok r => simp only []; cases broadcast r z <;> rfl

/-- [8,1,6,1] and [7,1,5] give [8,7,6,5]; zero sizes broadcast only with one. -/
example : broadcast [8, 1, 6, 1] [7, 1, 5] = .ok [8, 7, 6, 5] ∧ broadcast [0, 2] [1, 1] = .ok [0, 2] ∧
    broadcast [0] [2] = .error .assertion ∧
    broadcastTensors [[3], [2, 1], []] = .ok [[2, 3], [2, 3], [2, 3]] := by
  refine ⟨?_, ?_, ?_, ?_⟩ <;> decide +kernel

/-! ## C43 -/

/-- Every element-wise binary operation of the library computes the broadcast of its operands'
shapes, except the seven whose shape function returns the first operand's shape. -/
theorem C43_partial (op : String) (line : Nat) (body : BinBody) (h : (op, line, body) ∈ binaryOps)
    (hne : op ∉ ["aten.polar", "aten.clamp_min.Tensor", "aten.remainder.Tensor", "aten.fmod.Tensor",
      "aten.logaddexp", "aten.logaddexp2", "aten.masked_fill.Scalar"]) (a b c : List Int) :
    binaryShape op a b = some (.ok c) ↔ IsBroadcast a b c := by
  have key : ∀ x ∈ binaryOps, x.1 ∉ ["aten.polar", "aten.clamp_min.Tensor", "aten.remainder.Tensor",
      "aten.fmod.Tensor", "aten.logaddexp", "aten.logaddexp2", "aten.masked_fill.Scalar"] →
      (binaryOps.lookup x.1).map Prod.snd = some .broadcast := by decide +kernel
  have := key _ h hne
  rw [← broadcast_iff]
  unfold binaryShape
  simp only [] at this
  cases hl : binaryOps.lookup op with
  | none => rw [hl] at this; cases this
  | some v =>
    rw [hl] at this
    obtain ⟨n, bd⟩ := v
    simp only [Option.map_some, Option.some.injEq] at this
    subst this
    simp

/-- For the others the shape is right when the second operand's shape expands to the first's. -/
theorem C43_first_partial (op : String) (line : Nat) (body : BinBody) (h : (op, line, body) ∈ binaryOps)
    (a b : List Int) (he : ExpandsTo b a) :
    ∃ c, binaryShape op a b = some (.ok c) ∧ IsBroadcast a b c := by
  have hb : IsBroadcast a b a := by
    refine ⟨by have := he.1; omega, fun k => ?_⟩
    have := he.2 k
    unfold Common
    omega
  have key : ∀ x ∈ binaryOps, (binaryOps.lookup x.1).isSome := by decide +kernel
  have := key _ h
  refine ⟨a, ?_, hb⟩
  unfold binaryShape
  simp only [] at this
  cases hl : binaryOps.lookup op with
  | none => rw [hl] at this; cases this
  | some v =>
    obtain ⟨n, bd⟩ := v
    cases bd
    · simp [(broadcast_iff a b a).mpr hb]
    · rfl

/-- Each of the seven computes a wrong shape for operands [1] and [2], and a shape for the
incompatible operands [3] and [2]. -/
theorem C43_violated : ∀ op ∈ ["aten.polar", "aten.clamp_min.Tensor", "aten.remainder.Tensor",
    "aten.fmod.Tensor", "aten.logaddexp", "aten.logaddexp2", "aten.masked_fill.Scalar"],
    (∃ c, binaryShape op [1] [2] = some (.ok c) ∧ ¬ IsBroadcast [1] [2] c) ∧
    (∃ c, binaryShape op [3] [2] = some (.ok c)) ∧ ¬ Compatible [3] [2] := by
  intro op hop
  have key : ∀ op ∈ ["aten.polar", "aten.clamp_min.Tensor", "aten.remainder.Tensor",
    "aten.fmod.Tensor", "aten.logaddexp", "aten.logaddexp2", "aten.masked_fill.Scalar"],
    binaryShape op [1] [2] = some (.ok [1]) ∧ binaryShape op [3] [2] = some (.ok [3]) := by
    decide +kernel
  refine ⟨⟨[1], (key op hop).1, ?_⟩, ⟨[3], (key op hop).2⟩, ?_⟩
  · rintro ⟨_, h⟩
    have := h 0
    unfold Common trail at this
    simp at this
  · intro h
    have := h 0
    unfold trail at this
    simp at this

/-- `aten.mul.Tensor` on [5,1] and [3]. -/
example : binaryShape "aten.mul.Tensor" [5, 1] [3] = some (.ok [5, 3]) := by decide +kernel

end Verif
