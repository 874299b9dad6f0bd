import Verif.Spec.LinReduce
import Verif.Lemmas.LinSqueeze
import Verif.Lemmas.LinPool
import Mathlib.Data.List.Nodup

namespace Verif.Red

open Lin

variable {E F : Type}

/-! ## Dimensions -/

theorem dimSet_spec {rank : Nat} {arg : DimArg} (h : ValidDims rank arg) :
    ∃ dims, dimSet rank arg = some dims ∧ ∀ d, d < rank → dims.contains d = named rank arg d := by
  cases arg with
  | none =>
    refine ⟨_, rfl, fun d hd => ?_⟩
    simp [named, hd]
  | list l =>
    by_cases hl : l.isEmpty = true
    · refine ⟨List.range rank, by rw [dimSet, if_pos hl], fun d hd => ?_⟩
      simp [named, hd, hl]
    · refine ⟨_, by rw [dimSet, if_neg hl], fun d hd => ?_⟩
      have hl' : l.isEmpty = false := by simpa using hl
      rw [named, hl', Bool.false_or]
      rw [Bool.eq_iff_iff]
      simp only [List.contains_iff_mem, List.mem_map, List.mem_filter, List.any_eq_true, decide_eq_true_eq]
      constructor
      · rintro ⟨a, ⟨⟨i, hi, rfl⟩, hv⟩, rfl⟩
        refine ⟨i, hi, ?_⟩
        simp only [isValidDim, decide_eq_true_eq] at hv
        unfold toPositiveDim at hv ⊢
        by_cases h0 : i ≥ 0
        · rw [if_pos h0] at hv ⊢; omega
        · rw [if_neg h0] at hv ⊢; omega
      · rintro ⟨i, hi, ho⟩
        have hv := h i hi
        refine ⟨toPositiveDim i rank, ⟨⟨i, hi, rfl⟩, ?_⟩, ?_⟩
        · simp only [isValidDim, decide_eq_true_eq]
          unfold toPositiveDim
          by_cases h0 : i ≥ 0
          · rw [if_pos h0]; omega
          · rw [if_neg h0]; omega
        · unfold toPositiveDim
          by_cases h0 : i ≥ 0
          · rw [if_pos h0]; omega
          · rw [if_neg h0]; omega
  | int i =>
    have hv : isValidDim (toPositiveDim i rank) rank = true := by
      simp only [isValidDim, decide_eq_true_eq]
      simp only [ValidDims] at h
      unfold toPositiveDim
      by_cases h0 : i ≥ 0
      · rw [if_pos h0]; omega
      · rw [if_neg h0]; omega
    refine ⟨[(toPositiveDim i rank).toNat], by rw [dimSet, hv]; rfl, fun d hd => ?_⟩
    rw [named, Bool.eq_iff_iff]
    simp only [List.contains_iff_mem, List.mem_singleton, decide_eq_true_eq]
    simp only [ValidDims] at h
    unfold toPositiveDim
    by_cases h0 : i ≥ 0
    · rw [if_pos h0]; omega
    · rw [if_neg h0]; omega

/-! ## Sizes and indices -/

theorem kept_cons (red : Nat → Bool) (keep : Bool) (one a : Int) (l : List Int) : kept red keep one (a :: l) =
    (if red 0 then (if keep then [one] else []) else [a]) ++ kept (fun d => red (d + 1)) keep one l := by
  unfold kept
  by_cases hk : keep = true
  · rw [if_pos hk, if_pos hk, if_pos hk, List.zipIdx_cons', List.map_cons, List.map_map]
    by_cases h0 : red 0 = true
    · simp [h0, Function.comp_def]
    · simp [h0, Function.comp_def]
  · rw [if_neg hk, if_neg hk, if_neg hk, List.zipIdx_cons', List.filter_cons]
    have e : ∀ (m : List (Int × Nat)), ((m.map (Prod.map id (· + 1))).filter fun a => !red a.2).map (·.1) = (m.filter fun a => !red (a.2 + 1)).map (·.1) := by
      intro m
      rw [List.filter_map, List.map_map]
      rfl
    by_cases h0 : red 0 = true
    · simp only [h0, Bool.not_true, Bool.false_eq_true, if_false, if_true, List.nil_append]
      exact e _
    · simp only [h0, Bool.not_false, if_true, Bool.false_eq_true, if_false, List.map_cons, List.singleton_append]
      rw [e]

theorem resultSizes_eq (dims : List Nat) (keep : Bool) (red : Nat → Bool) : ∀ (l : List Int) (d : Nat),
    (∀ k, k < l.length → dims.contains (d + k) = red k) → resultSizes dims keep d l = kept red keep 1 l := by
  intro l
  induction l generalizing red with
  | nil => intro d h; unfold kept; simp [resultSizes]
  | cons n l ih =>
    intro d h
    have h0 : dims.contains d = red 0 := h 0 (by simp)
    rw [kept_cons, resultSizes, ih (fun k => red (k + 1)) (d + 1) (fun k hk => by
      have := h (k + 1) (by simp; omega)
      rw [← this]
      congr 1
      omega), h0]
    cases red 0 <;> cases keep <;> rfl

theorem resultIndex_eq (dims : List Nat) (keep : Bool) (red : Nat → Bool) : ∀ (l : List Int) (d : Nat),
    (∀ k, k < l.length → dims.contains (d + k) = red k) → resultIndex dims keep d l = kept red keep 0 l := by
  intro l
  induction l generalizing red with
  | nil => intro d h; unfold kept; simp [resultIndex]
  | cons n l ih =>
    intro d h
    have h0 : dims.contains d = red 0 := h 0 (by simp)
    rw [kept_cons, resultIndex, ih (fun k => red (k + 1)) (d + 1) (fun k hk => by
      have := h (k + 1) (by simp; omega)
      rw [← this]
      congr 1
      omega), h0]
    cases red 0 <;> cases keep <;> rfl

/-! ## Rows -/

theorem rows_eq (sizes : List Int) : rows sizes = Pool.loops sizes := by
  induction sizes with
  | nil => rfl
  | cons n ns ih => rw [rows, Pool.loops, ih, List.flatMap_map]

theorem mem_rows {sizes p : List Int} : p ∈ rows sizes ↔ inRange sizes p = true := by
  induction sizes generalizing p with
  | nil => cases p <;> simp [rows, inRange]
  | cons n ns ih =>
    simp only [rows, List.mem_flatMap, List.mem_map, List.mem_range]
    constructor
    · rintro ⟨a, ⟨i, hi, rfl⟩, is, his, rfl⟩
      simp only [inRange, Bool.and_eq_true, decide_eq_true_eq]
      exact ⟨by omega, ih.1 his⟩
    · intro h
      cases p with
      | nil => simp [inRange] at h
      | cons i is =>
        simp only [inRange, Bool.and_eq_true, decide_eq_true_eq] at h
        exact ⟨i, ⟨i.toNat, by omega, by omega⟩, is, ih.2 h.2, rfl⟩

theorem mem_lane {sizes p q : List Int} {red : Nat → Bool} {keep : Bool} : p ∈ lane sizes red keep q ↔ inRange sizes p = true ∧ kept red keep 0 p = q := by
  rw [lane, List.mem_filter, mem_rows, decide_eq_true_eq]

/-! ## The loops -/

theorem visits (x : Tensor E) (dims : List Nat) (keep : Bool) (body : List Int → E → F → F) (val : List Int → E) (q : List Int) :
    ∀ (l : List (List Int)) (acc : List Int → Option F) (a : F), (∀ p ∈ l, x.get p = some (val p)) → acc q = some a →
      l.foldl (visit x dims keep body) acc q = some ((l.filter fun p => decide (resultIndex dims keep 0 p = q)).foldl (fun a p => body p (val p) a) a) := by
  intro l
  induction l with
  | nil => intro acc a _ h; exact h
  | cons p l ih =>
    intro acc a hx h
    rw [List.foldl_cons, List.filter_cons]
    by_cases hq : resultIndex dims keep 0 p = q
    · rw [if_pos (by simpa using hq), List.foldl_cons]
      refine ih _ _ (fun p' hp => hx p' (by simp [hp])) ?_
      unfold visit
      simp only [hq, if_true, h, hx p (by simp), Option.bind_some, Option.map_some]
    · rw [if_neg (by simpa using hq)]
      refine ih _ _ (fun p' hp => hx p' (by simp [hp])) ?_
      unfold visit
      rw [if_neg (fun e => hq e.symm)]
      exact h

theorem reduce_spec (x : Tensor E) (dims : List Nat) (keep : Bool) (init : F) (body : List Int → E → F → F) (val : List Int → E) (hx : Pool.Holds x val)
    (red : Nat → Bool) (hd : ∀ d, d < x.sizes.length → dims.contains d = red d) :
    (reduce x dims keep init body).sizes = kept red keep 1 x.sizes ∧
    ∀ q, (reduce x dims keep init body).elem q = some ((lane x.sizes red keep q).foldl (fun a p => body p (val p) a) init) := by
  refine ⟨resultSizes_eq dims keep red x.sizes 0 (fun k hk => by rw [Nat.zero_add]; exact hd k hk), fun q => ?_⟩
  unfold reduce
  simp only
  rw [← rows_eq, visits x dims keep body val q (rows x.sizes) _ init (fun p hp => ?_) rfl]
  · congr 2
    unfold lane
    apply List.filter_congr
    intro p hp
    rw [mem_rows] at hp
    rw [resultIndex_eq dims keep red p 0 (fun k hk => by
      rw [Nat.zero_add]
      exact hd k (by rw [← inRange_length hp]; exact hk))]
  · rw [mem_rows] at hp
    rw [get_of_range hp, hx p hp]

theorem reduction_spec (x : Tensor E) (arg : DimArg) (keep : Bool) (init : F) (body : E → F → F) (val : List Int → E) (hx : Pool.Holds x val)
    (hv : ValidDims x.sizes.length arg) : ∃ y, lowerReduction x arg keep init body = .ok y ∧ y.sizes = kept (named x.sizes.length arg) keep 1 x.sizes ∧
      ∀ q, y.elem q = some ((lane x.sizes (named x.sizes.length arg) keep q).foldl (fun a p => body (val p) a) init) := by
  obtain ⟨dims, h1, h2⟩ := dimSet_spec hv
  refine ⟨_, by rw [lowerReduction, h1], ?_⟩
  exact reduce_spec x dims keep init (fun _ => body) val hx _ h2

end Verif.Red
