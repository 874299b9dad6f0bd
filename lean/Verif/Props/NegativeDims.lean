import Verif.Lemmas.DimOps

/-!
# C42: negative dimensions mean the same as wrapped ones
-/

namespace Verif

open Shape

/-- Every operation with a dimension argument in the table, except the four below: `dim = -k` gives exactly
the outcome of `dim = rank - k`. -/
theorem C42_wrap_partial (op : DimOp) (self : List Int) (k : Nat) (hk : 0 < k) (h : k ≤ op.dims self)
    (h1 : ∀ x2, op ≠ .cosineSimilarity x2) (h2 : ∀ r, op ≠ .repeatInterleave r)
    (h3 : ∀ o d, op ≠ .diagEmbedFst o d) (h4 : ∀ o d, op ≠ .diagEmbedSnd o d) :
    op.run self (-(k : Int)) = op.run self ((op.dims self : Int) - k) :=
  run_wrap op self k hk h h1 h2 h3 h4

example : (DimOp.slice (some 1) none 2).run [4, 9] (-1) = .ok [4, 4] ∧
    (DimOp.slice (some 1) none 2).run [4, 9] 1 = .ok [4, 4] := by
  refine ⟨?_, ?_⟩ <;> decide +kernel

/-- `cosine_similarity` and `repeat_interleave` agree except for the last dimension. -/
theorem C42_except_last_partial (self x2 : List Int) (r : Int) (k : Nat) (hk : 1 < k) :
    (k ≤ (DimOp.cosineSimilarity x2).dims self → (DimOp.cosineSimilarity x2).run self (-(k : Int)) =
      (DimOp.cosineSimilarity x2).run self (((DimOp.cosineSimilarity x2).dims self : Int) - k)) ∧
    (k ≤ self.length → (DimOp.repeatInterleave r).run self (-(k : Int)) =
      (DimOp.repeatInterleave r).run self ((self.length : Int) - k)) := by
  constructor
  · intro h
    simp only [DimOp.run, DimOp.dims, cosineSimilarity] at h ⊢
    cases hb : broadcast self x2 with
    | error e => rfl
    | ok b =>
      have hl := ((broadcast_iff self x2 b).mp hb).1
      simp only []
      rw [← hl] at h ⊢
      rw [pyTake_wrap b (by omega) h, pyDrop_wrap b hk h]
  · intro h
    simp only [DimOp.run, repeatInterleave]
    rw [pyGet_wrap self (by omega) h, pyTake_wrap self (by omega) h, pyDrop_wrap self hk h]

example : (DimOp.repeatInterleave 3).run [2, 5] (-2) = .ok [6, 5] := by decide +kernel

/-- `cosine_similarity(dim=-1)` keeps the last dimension's leading part and repeats the whole shape. -/
theorem C42_cosine_violated : cosineSimilarity [4, 5] [4, 5] (-1) = .ok [4, 4, 5] ∧
    cosineSimilarity [4, 5] [4, 5] 1 = .ok [4] := by
  refine ⟨?_, ?_⟩ <;> decide +kernel

/-- `repeat_interleave(dim=-1)` likewise. -/
theorem C42_repeat_interleave_violated : repeatInterleave [4, 5] 2 (some (-1)) = .ok [4, 10, 4, 5] ∧
    repeatInterleave [4, 5] 2 (some 1) = .ok [4, 10] := by
  refine ⟨?_, ?_⟩ <;> decide +kernel

/-- `diag_embed` compares its dimensions before wrapping: `0` and `-rank` pass as different. -/
theorem C42_diag_embed_violated : diagEmbed [4, 5] 0 0 (-3) = .ok [5, 4, 5] ∧
    diagEmbed [4, 5] 0 0 0 = .error .assertion := by
  refine ⟨?_, ?_⟩ <;> decide +kernel

/-- `diag_embed` with dimensions that stay different after wrapping. -/
theorem C42_diag_embed_partial (self : List Int) (o d : Int) (k : Nat) (hk : 0 < k) (h : k ≤ self.length + 1)
    (hne : d ≠ -(k : Int)) (hne' : d ≠ (self.length + 1 : Int) - k) :
    diagEmbed self o (-(k : Int)) d = diagEmbed self o ((self.length + 1 : Int) - k) d ∧
    diagEmbed self o d (-(k : Int)) = diagEmbed self o d ((self.length + 1 : Int) - k) := by
  have ha := addRank_wrap hk h
  have hc : ((self.length + 1 : Nat) : Int) = (self.length : Int) + 1 := by omega
  rw [hc] at ha
  unfold diagEmbed
  simp only [ha]
  constructor
  · by_cases hd : d < (self.length : Int) + 1 ∧ d ≥ -((self.length : Int) + 1)
    · rw [if_neg (by omega), if_neg (by omega)]
    · rw [if_pos (by omega), if_pos (by omega)]
  · by_cases hd : d < (self.length : Int) + 1 ∧ d ≥ -((self.length : Int) + 1)
    · rw [if_neg (by omega), if_neg (by omega)]
    · rw [if_pos (by omega), if_pos (by omega)]

/-- Lists of dimensions: permutations and reductions depend only on the dimensions named. -/
theorem C42_lists (self dims dims' : List Int) (keepdim : Bool) (c : List Int)
    (h : SameDims self.length dims dims') :
    (permute self dims = .ok c ↔ permute self dims' = .ok c) ∧
    (0 < self.length → (sumMeanDim self (some dims) keepdim = .ok c ↔
      sumMeanDim self (some dims') keepdim = .ok c)) := by
  obtain ⟨ds, h1, h2⟩ := h
  have key : ∀ p, IsDims self.length dims p ↔ IsDims self.length dims' p := by
    intro p
    constructor
    · intro hp; rw [isDims_exists_unique hp h1]; exact h2
    · intro hp; rw [isDims_exists_unique hp h2]; exact h1
  constructor
  · rw [permute_iff, permute_iff]
    unfold IsPermute
    simp only [key]
  · intro hr
    rw [sumMeanDim_iff _ _ _ _ hr, sumMeanDim_iff _ _ _ _ hr]
    have hl : dims = [] ↔ dims' = [] := by
      have e1 := h1.1
      have e2 := h2.1
      rw [← List.length_eq_zero_iff, ← List.length_eq_zero_iff]
      omega
    unfold NamesDims
    simp only [reduceCtorEq, false_or, Option.some.injEq, Option.getD_some, hl, key]

example : permute [2, 3, 4] [-1, 0, -2] = .ok [4, 2, 3] ∧ permute [2, 3, 4] [2, 0, 1] = .ok [4, 2, 3] := by
  refine ⟨?_, ?_⟩ <;> decide +kernel

/-- Concatenation and stacking of tensors of one rank. -/
theorem C42_cat (ts : List (List Int)) (r k : Nat) (hk : 0 < k) (h : k ≤ r) (c : List Int)
    (hts : ∀ t ∈ ts, t = [0] ∨ t.length = r) :
    cat ts (-(k : Int)) = .ok c ↔ cat ts ((r : Int) - k) = .ok c := by
  rw [cat_iff, cat_iff]
  unfold IsCat
  by_cases he : ts.filter (· ≠ [0]) = []
  · simp only [he, if_true]
  · simp only [he, if_false]
    have hlen : ∀ d, (∀ t ∈ ts.filter (· ≠ [0]), SameExcept d t c) → c.length = r := by
      intro d hd
      obtain ⟨t, ht⟩ := List.exists_mem_of_ne_nil _ he
      have := (hd t ht).1
      have ht' := List.mem_filter.mp ht
      rcases hts t ht'.1 with h0 | h0
      · simp [h0] at ht'
      · omega
    constructor
    · rintro ⟨h1, h2, d, h3, h4, h5⟩
      refine ⟨h1, h2, d, ?_, h4, h5⟩
      rw [hlen d h4] at h3 ⊢
      exact (isDim_neg hk h d).mp h3
    · rintro ⟨h1, h2, d, h3, h4, h5⟩
      refine ⟨h1, h2, d, ?_, h4, h5⟩
      rw [hlen d h4] at h3 ⊢
      exact (isDim_neg hk h d).mpr h3

example : cat [[2, 3], [2, 4]] (-1) = .ok [2, 7] ∧ cat [[2, 3], [2, 4]] 1 = .ok [2, 7] := by
  refine ⟨?_, ?_⟩ <;> decide +kernel

theorem C42_stack (ts : List (List Int)) (r k : Nat) (hk : 0 < k) (h : k ≤ r + 1) (c : List Int)
    (hts : ∀ t ∈ ts, t.length = r) :
    stack ts (-(k : Int)) = .ok c ↔ stack ts ((r : Int) + 1 - k) = .ok c := by
  rw [stack_iff, stack_iff]
  unfold IsStack
  have key : ts ≠ [] → ∀ d, d < c.length → (∀ t ∈ ts, t = c.eraseIdx d) →
      (IsDim c.length (-(k : Int)) d ↔ IsDim c.length ((r : Int) + 1 - k) d) := by
    intro hne d hd hall
    obtain ⟨t, ht⟩ := List.exists_mem_of_ne_nil _ hne
    have h1 := hts t ht
    rw [hall t ht, List.length_eraseIdx_of_lt hd] at h1
    have h2 : c.length = r + 1 := by omega
    rw [h2, isDim_neg hk h d]
    rfl
  constructor
  · rintro ⟨h1, d, h2, h3, h4, h5⟩
    exact ⟨h1, d, h2, (key h1 d h2 h5).mp h3, h4, h5⟩
  · rintro ⟨h1, d, h2, h3, h4, h5⟩
    exact ⟨h1, d, h2, (key h1 d h2 h5).mpr h3, h4, h5⟩

example : stack [[2, 3], [2, 3]] (-1) = .ok [2, 3, 2] ∧ stack [[2, 3], [2, 3]] 2 = .ok [2, 3, 2] := by
  refine ⟨?_, ?_⟩ <;> decide +kernel

end Verif
