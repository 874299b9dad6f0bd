import Verif.Model.ShapeReduce
import Verif.Spec.Reduce
import Verif.Lemmas.Dims

/-! # Lemmas about reductions -/

namespace Verif.Shape

/-- The loop with a test that does not raise. -/
def reducePure (p : Nat → Bool) (keepdim : Bool) : Nat → List Int → List Int
  | _, [] => []
  | i, x :: xs => (if p i then (if keepdim then [1] else []) else [x]) ++ reducePure p keepdim (i + 1) xs

theorem reduceLoop_pure {p : Nat → Py Bool} {q : Nat → Bool} {keepdim : Bool} (l : List Int) (i : Nat)
    (h : ∀ j, p j = .ok (q j)) : reduceLoop p keepdim i l = .ok (reducePure q keepdim i l) := by
  induction l generalizing i with
  | nil => rfl
  | cons x xs ih => simp only [reduceLoop, reducePure, h, ih]

theorem reducePure_keep (q : Nat → Bool) (l : List Int) (i : Nat) :
    reducePure q true i l = l.mapIdx (fun j x => if q (i + j) then 1 else x) := by
  induction l generalizing i with
  | nil => rfl
  | cons x xs ih =>
    simp only [reducePure, ih, List.mapIdx_cons, Nat.add_zero]
    have : (fun j x => if q (i + 1 + j) = true then (1 : Int) else x) =
        (fun j x => if q (i + (j + 1)) = true then (1 : Int) else x) := by
      funext j x
      rw [Nat.add_assoc, Nat.add_comm 1 j]
    rw [this]
    split <;> simp

theorem reducePure_drop (q : Nat → Bool) (l : List Int) (i : Nat) :
    (reducePure q false i l).map some =
      ((List.range l.length).filter (fun j => !q (i + j))).map (l[·]?) := by
  induction l generalizing i with
  | nil => rfl
  | cons x xs ih =>
    simp only [reducePure, List.map_append, ih, List.length_cons, List.range_succ_eq_map,
      List.filter_cons, Nat.add_zero]
    have : ((List.range xs.length).map Nat.succ).filter (fun j => !q (i + j)) =
        ((List.range xs.length).filter (fun j => !q (i + 1 + j))).map Nat.succ := by
      rw [List.filter_map]
      congr 1
      apply List.filter_congr
      intro j _
      simp only [Function.comp, Nat.succ_eq_add_one]
      rw [Nat.add_assoc, Nat.add_comm 1 j]
    rw [this]
    cases hq : q i <;> simp [List.map_map, Function.comp_def]

theorem reduced_iff (self : List Int) (D : List Nat) (keepdim : Bool) (c : List Int) :
    c = reducePure (fun i => decide (i ∈ D)) keepdim 0 self ↔ Reduced self D keepdim c := by
  unfold Reduced
  cases keepdim
  · simp only [Bool.false_eq_true, if_false]
    unfold Picks
    have h := reducePure_drop (fun i => decide (i ∈ D)) self 0
    simp only [Nat.zero_add] at h
    have e : (List.range self.length).filter (fun j => !decide (j ∈ D)) =
        (List.range self.length).filter (· ∉ D) := by
      apply List.filter_congr
      intro j _
      simp
    rw [e] at h
    constructor
    · rintro rfl; exact h
    · intro h'
      exact (List.map_inj_right (fun _ _ => Option.some.inj)).mp (h'.trans h.symm)
  · simp only [if_true]
    rw [reducePure_keep]
    simp only [Nat.zero_add, decide_eq_true_eq]
    constructor
    · rintro rfl
      refine ⟨by simp, fun i h h' => by simp⟩
    · rintro ⟨hl, h⟩
      apply List.ext_getElem (by simp [hl])
      intro i h1 h2
      rw [h i h1 (by omega)]
      simp

theorem isReduced_ok {rank : Nat} {dims : List Int} {D : List Nat} (h : IsDims rank dims D) (i : Nat) :
    isReduced rank dims i = .ok (decide (i ∈ D)) := by
  have gen : ∀ (dims : List Int) (D : List Nat) (b : Bool), IsDims rank dims D →
      pyFold (reducedStep rank i) b dims = .ok (b || decide (i ∈ D)) := by
    intro dims
    induction dims with
    | nil =>
      intro D b h
      have : D = [] := List.length_eq_zero_iff.mp h.1
      subst this
      simp [pyFold]
    | cons d dims ih =>
      intro D b h
      match D, h with
      | [], h => exact absurd h.1 (by simp)
      | k :: D, h =>
        have hk : IsDim rank d k := h.2 0 (by simp) (by simp)
        have ht : IsDims rank dims D := by
          refine ⟨by simpa using h.1, fun j h1 h2 => ?_⟩
          have := h.2 (j + 1) (by simpa using h1) (by simpa using h2)
          simpa using this
        simp only [pyFold, reducedStep]
        rw [maybeWrapDim_iff.mpr ⟨k, rfl, hk⟩]
        simp only []
        rw [ih D _ ht]
        congr 1
        by_cases hik : i = k
        · subst hik; simp
        · have : ¬ ((i : Int) = (k : Int)) := by omega
          rw [if_neg this]
          simp [hik]
  rw [isReduced, gen dims D false h]
  simp

theorem isReduced_dims {rank : Nat} {dims : List Int} {i : Nat} {b : Bool}
    (h : isReduced rank dims i = .ok b) : ∃ D, IsDims rank dims D := by
  have gen : ∀ (dims : List Int) (b0 : Bool),
      pyFold (reducedStep rank i) b0 dims = .ok b → ∃ D, IsDims rank dims D := by
    intro dims
    induction dims with
    | nil => intro _ _; exact ⟨[], rfl, fun i h => by simp at h⟩
    | cons d dims ih =>
      intro b0 h
      simp only [pyFold, reducedStep] at h
      cases hw : maybeWrapDim d rank with
      | error e => rw [hw] at h; cases h
      | ok w =>
        rw [hw] at h
        obtain ⟨k, rfl, hk⟩ := maybeWrapDim_iff.mp hw
        obtain ⟨D, hD⟩ := ih _ h
        refine ⟨k :: D, by simp [hD.1], fun j h1 h2 => ?_⟩
        match j with
        | 0 => exact hk
        | j + 1 => exact hD.2 j (by simpa using h1) (by simpa using h2)
  exact gen dims false h

theorem isDims_range (n : Nat) : IsDims n ((List.range n).map Int.ofNat) (List.range n) := by
  refine ⟨by simp, fun i h h' => ?_⟩
  simp only [List.getElem_map, List.getElem_range]
  exact isDim_self (by simpa using h')

theorem reduce_dims_iff (self dims : List Int) (keepdim : Bool) (c : List Int) (hr : 0 < self.length) :
    reduceLoop (isReduced self.length dims) keepdim 0 self = .ok c ↔
      ∃ D, IsDims self.length dims D ∧ Reduced self D keepdim c := by
  constructor
  · intro h
    have hd : ∃ D, IsDims self.length dims D := by
      match self, hr with
      | x :: xs, _ =>
        simp only [reduceLoop] at h
        cases hp : isReduced (x :: xs).length dims 0 with
        | error e => rw [hp] at h; cases h
        | ok b => exact isReduced_dims hp
    obtain ⟨D, hD⟩ := hd
    rw [reduceLoop_pure self 0 (fun j => isReduced_ok hD j)] at h
    exact ⟨D, hD, (reduced_iff self D keepdim c).mp (Except.ok.inj h).symm⟩
  · rintro ⟨D, hD, h⟩
    rw [reduceLoop_pure self 0 (fun j => isReduced_ok hD j)]
    rw [(reduced_iff self D keepdim c).mpr h]

theorem sumMeanDim_iff (self : List Int) (optDims : Option (List Int)) (keepdim : Bool) (c : List Int)
    (hr : 0 < self.length) :
    sumMeanDim self optDims keepdim = .ok c ↔
      ∃ D, NamesDims self.length optDims D ∧ Reduced self D keepdim c := by
  have hall : reduceLoop (isReduced self.length ((List.range self.length).map Int.ofNat)) keepdim 0 self =
      .ok c ↔ ∃ D, D = List.range self.length ∧ Reduced self D keepdim c := by
    rw [reduce_dims_iff self _ keepdim c hr]
    constructor
    · rintro ⟨D, hD, h⟩
      exact ⟨_, rfl, isDims_exists_unique hD (isDims_range _) ▸ h⟩
    · rintro ⟨D, rfl, h⟩
      exact ⟨_, isDims_range _, h⟩
  unfold sumMeanDim NamesDims
  match optDims with
  | none => simpa using hall
  | some [] => simpa using hall
  | some (d :: ds) =>
    simp only [reduceCtorEq, Option.some.injEq, or_self, if_false, Option.getD_some]
    exact reduce_dims_iff self (d :: ds) keepdim c hr

theorem argmax_iff (self : List Int) (d : Int) (keepdim : Bool) (c : List Int) :
    argmax self (some d) keepdim = .ok c ↔
      ∃ k, IsDim self.length d k ∧ Reduced self [k] keepdim c := by
  unfold argmax
  simp only []
  split
  · rename_i e he
    simp only [reduceCtorEq, false_iff, not_exists]
    rintro k ⟨hk, _⟩
    rw [maybeWrapDim_iff.mpr ⟨k, rfl, hk⟩] at he
    cases he
  · rename_i w hw
    obtain ⟨k, rfl, hk⟩ := maybeWrapDim_iff.mp hw
    have hp : ∀ j, (fun i : Nat => (Except.ok (decide ((i : Int) = (k : Int))) : Py Bool)) j =
        .ok (decide (j ∈ [k])) := by
      intro j
      simp only [List.mem_singleton, Int.ofNat_inj]
    rw [reduceLoop_pure (q := fun j => decide (j ∈ [k])) self 0 hp]
    constructor
    · intro h
      exact ⟨k, hk, (reduced_iff self [k] keepdim c).mp (Except.ok.inj h).symm⟩
    · rintro ⟨k', hk', h⟩
      rw [hk'.unique hk] at h
      rw [(reduced_iff self [k] keepdim c).mpr h]

theorem reduced_all (self : List Int) (keepdim : Bool) (c : List Int) :
    Reduced self (List.range self.length) keepdim c ↔ c = if keepdim then self.map (fun _ => 1) else [] := by
  unfold Reduced
  cases keepdim
  · simp only [Bool.false_eq_true, if_false]
    have : (List.range self.length).filter (· ∉ List.range self.length) = [] := by
      rw [List.filter_eq_nil_iff]
      intro a ha
      simpa using ha
    rw [this]
    unfold Picks
    simp
  · simp only [if_true]
    constructor
    · rintro ⟨hl, h⟩
      apply List.ext_getElem (by simp [hl])
      intro i h1 h2
      rw [h i h1 (by omega), if_pos (by simp; omega)]
      simp
    · rintro rfl
      refine ⟨by simp, fun i h h' => ?_⟩
      rw [if_pos (by simpa using h')]
      simp

theorem patchedArgmax_none (self : List Int) (keepdim : Bool) (c : List Int) :
    patchedArgmax self none keepdim = .ok c ↔ Reduced self (List.range self.length) keepdim c := by
  rw [reduced_all]
  unfold patchedArgmax argmax
  cases keepdim <;> simp [eq_comm]

theorem patchedArgmax_some (self : List Int) (d : Int) (keepdim : Bool) :
    patchedArgmax self (some d) keepdim = argmax self (some d) keepdim := by
  unfold patchedArgmax
  rw [if_neg (by simp)]

theorem argmax_names (self : List Int) (d : Int) (keepdim : Bool) (c : List Int) :
    argmax self (some d) keepdim = .ok c ↔
      ∃ D, ArgNames self.length (.one d) D ∧ Reduced self D keepdim c := by
  rw [argmax_iff]
  constructor
  · rintro ⟨k, hk, h⟩; exact ⟨[k], ⟨k, hk, rfl⟩, h⟩
  · rintro ⟨D, ⟨k, hk, rfl⟩, h⟩; exact ⟨k, hk, h⟩

theorem names_none (rank : Nat) (D : List Nat) :
    NamesDims rank none D ↔ ArgNames rank .none D := by unfold NamesDims ArgNames; simp

theorem names_one (rank : Nat) (d : Int) (D : List Nat) :
    NamesDims rank (some [d]) D ↔ ArgNames rank (.one d) D := by
  unfold NamesDims
  simp only [reduceCtorEq, Option.some.injEq, List.cons_ne_nil, or_self, if_false, Option.getD_some]
  constructor
  · rintro ⟨hl, h⟩
    match D, hl with
    | [k], _ => exact ⟨k, h 0 (by simp) (by simp), rfl⟩
  · rintro ⟨k, hk, rfl⟩
    refine ⟨rfl, fun i h1 h2 => ?_⟩
    simp at h1
    subst h1
    exact hk

theorem reduceShape_iff (body : ReduceBody) (self : List Int) (dim : DimArg) (keepdim : Bool)
    (r : Py (List Int)) (hr : 0 < self.length) (h : reduceShape body self dim keepdim = some r)
    (c : List Int) : r = .ok c ↔ ∃ D, ArgNames self.length dim D ∧ Reduced self D keepdim c := by
  have hn : ∀ k, (∃ D, ArgNames self.length .none D ∧ Reduced self D k c) ↔
      Reduced self (List.range self.length) k c := by
    intro k; simp [ArgNames]
  have s1 : ∀ k, sumMeanDim self none k = .ok c ↔
      ∃ D, ArgNames self.length .none D ∧ Reduced self D k c := by
    intro k; rw [sumMeanDim_iff self none k c hr]; simp only [names_none]
  have s2 : ∀ ds k, sumMeanDim self (some ds) k = .ok c ↔
      ∃ D, ArgNames self.length (.many ds) D ∧ Reduced self D k c := by
    intro ds k; exact sumMeanDim_iff self (some ds) k c hr
  have s3 : ∀ d k, sumMeanDim self (some [d]) k = .ok c ↔
      ∃ D, ArgNames self.length (.one d) D ∧ Reduced self D k c := by
    intro d k; rw [sumMeanDim_iff self (some [d]) k c hr]; simp only [names_one]
  match body, dim, h with
  | .dims, .none, h => rw [← Option.some.inj h]; exact s1 keepdim
  | .dims, .many ds, h => rw [← Option.some.inj h]; exact s2 ds keepdim
  | .dimsNoKeep, .none, h =>
    cases keepdim
    · rw [← Option.some.inj h]; exact s1 false
    · simp [reduceShape] at h
  | .dimsNoKeep, .many ds, h =>
    cases keepdim
    · rw [← Option.some.inj h]; exact s2 ds false
    · simp [reduceShape] at h
  | .oneDim, .one d, h => rw [← Option.some.inj h]; exact s3 d keepdim
  | .argmax, .one d, h => rw [← Option.some.inj h]; exact argmax_names self d keepdim c
  | .patched, .none, h =>
    rw [← Option.some.inj h, hn]; exact patchedArgmax_none self keepdim c
  | .patched, .one d, h =>
    rw [← Option.some.inj h, patchedArgmax_some]; exact argmax_names self d keepdim c
  | .all, .none, h =>
    cases keepdim
    · rw [← Option.some.inj h, hn, reduced_all]
      simp [eq_comm]
    · simp [reduceShape] at h

end Verif.Shape
