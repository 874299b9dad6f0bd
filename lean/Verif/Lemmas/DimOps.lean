import Verif.Model.ShapeDims
import Verif.Lemmas.Slice
import Verif.Lemmas.Reduce
import Verif.Lemmas.Reshape
import Verif.Lemmas.Broadcast

/-! # Lemmas about dimension arguments, diagonals and windows -/

namespace Verif.Shape

theorem pyGet_wrap {α : Type} (l : List α) {k : Nat} (hk : 0 < k) (h : k ≤ l.length) :
    pyGet l (-(k : Int)) = pyGet l ((l.length : Int) - k) := by
  have h1 : ((l.length : Int) - k) = ((l.length - k : Nat) : Int) := by omega
  rw [pyGet_neg l k hk h, h1, pyGet_nonneg l (l.length - k) (by omega)]

theorem pySet_wrap {α : Type} (l : List α) {k : Nat} (x : α) (hk : 0 < k) (h : k ≤ l.length) :
    pySet l (-(k : Int)) x = pySet l ((l.length : Int) - k) x := by
  unfold pySet
  simp only [show (-(k : Int)) < 0 by omega, show ¬ ((l.length : Int) - k < 0) by omega, if_true, if_false,
    show -(k : Int) + l.length = (l.length : Int) - k by omega]

theorem addRank_wrap {k r : Nat} (hk : 0 < k) (h : k ≤ r) : addRank (-(k : Int)) r = addRank ((r : Int) - k) r := by
  unfold addRank
  rw [if_pos (by omega), if_neg (by omega)]
  omega

theorem sliceBound_wrap {n k : Nat} (hk : 0 < k) (h : k ≤ n) :
    pySliceBound n (-(k : Int)) = pySliceBound n ((n : Int) - k) := by
  unfold pySliceBound
  simp only [show (-(k : Int)) < 0 by omega, show ¬ ((n : Int) - k < 0) by omega, if_true, if_false,
    show -(k : Int) + n = (n : Int) - k by omega]

theorem pyTake_wrap {α : Type} (l : List α) {k : Nat} (hk : 0 < k) (h : k ≤ l.length) :
    pyTake l (-(k : Int)) = pyTake l ((l.length : Int) - k) := by
  unfold pyTake
  rw [sliceBound_wrap hk h]

theorem pyDrop_wrap {α : Type} (l : List α) {k : Nat} (hk : 1 < k) (h : k ≤ l.length) :
    pyDrop l (-(k : Int) + 1) = pyDrop l ((l.length : Int) - k + 1) := by
  have h1 : -(k : Int) + 1 = -((k - 1 : Nat) : Int) := by omega
  have h2 : (l.length : Int) - k + 1 = (l.length : Int) - ((k - 1 : Nat) : Int) := by omega
  unfold pyDrop
  rw [h1, h2, sliceBound_wrap (by omega) (by omega)]

/-- The operations that wrap their dimension. -/
theorem run_wrap (op : DimOp) (self : List Int) (k : Nat) (hk : 0 < k) (h : k ≤ op.dims self)
    (hop : ∀ x2, op ≠ .cosineSimilarity x2) (hop2 : ∀ r, op ≠ .repeatInterleave r)
    (hop3 : ∀ o d, op ≠ .diagEmbedFst o d) (hop4 : ∀ o d, op ≠ .diagEmbedSnd o d) :
    op.run self (-(k : Int)) = op.run self ((op.dims self : Int) - k) := by
  cases op with
  | cosineSimilarity x2 => exact absurd rfl (hop x2)
  | repeatInterleave r => exact absurd rfl (hop2 r)
  | diagEmbedFst o d => exact absurd rfl (hop3 o d)
  | diagEmbedSnd o d => exact absurd rfl (hop4 o d)
  | unsqueeze =>
    simp only [DimOp.run, DimOp.dims, unsqueeze] at h ⊢
    rw [maybeWrapDim_neg hk h]
  | squeeze =>
    simp only [DimOp.run, DimOp.dims, squeeze] at h ⊢
    rw [maybeWrapDim_neg hk h]
  | select i =>
    simp only [DimOp.run, DimOp.dims, select] at h ⊢
    rw [maybeWrapDim_neg hk h]
  | slice a b st =>
    simp only [DimOp.run, DimOp.dims, sliceTensor, slice, negBound] at h ⊢
    rw [maybeWrapDim_neg hk h, pyGet_wrap self hk h]
  | narrow a l =>
    simp only [DimOp.run, DimOp.dims, narrow, slice] at h ⊢
    rw [maybeWrapDim_neg hk h]
  | narrowTensor l =>
    simp only [DimOp.run, DimOp.dims, narrowTensor] at h ⊢
    rw [pySet_wrap self l hk h]
  | indexSelect i =>
    simp only [DimOp.run, DimOp.dims, indexSelect] at h ⊢
    rw [maybeWrapDim_neg hk h]
  | flattenFrom e =>
    simp only [DimOp.run, DimOp.dims, flatten] at h ⊢
    rw [maybeWrapDim_neg hk h]
  | flattenTo b =>
    simp only [DimOp.run, DimOp.dims, flatten] at h ⊢
    rw [maybeWrapDim_neg hk h]
  | transposeFst b =>
    simp only [DimOp.run, DimOp.dims, transpose] at h ⊢
    rw [maybeWrapDim_neg hk h]
  | transposeSnd b =>
    simp only [DimOp.run, DimOp.dims, transpose] at h ⊢
    rw [maybeWrapDim_neg hk h]
  | reduce b =>
    simp only [DimOp.run, DimOp.dims, argmax] at h ⊢
    rw [maybeWrapDim_neg hk h]
  | glu =>
    simp only [DimOp.run, DimOp.dims, glu] at h ⊢
    rw [addRank_wrap hk h]
  | unflatten z =>
    simp only [DimOp.run, DimOp.dims, unflatten] at h ⊢
    have := addRank_wrap hk h
    unfold addRank at this
    rw [this]
    rfl
  | topk z =>
    simp only [DimOp.run, DimOp.dims, topk] at h ⊢
    rw [pyGet_wrap self hk h, pySet_wrap self z hk h]
  | fftRfft =>
    simp only [DimOp.run, DimOp.dims, fftRfft] at h ⊢
    rw [addRank_wrap hk h]
    rfl
  | unfold z st =>
    simp only [DimOp.run, DimOp.dims, unfold] at h ⊢
    have hl : self.length ≠ 0 := by omega
    rw [addRank_wrap hk h]
    simp only [hl, if_false]
    rfl
  | diagonalFst o d =>
    simp only [DimOp.run, DimOp.dims, diagonal] at h ⊢
    rw [maybeWrapDim_neg hk h]
  | diagonalSnd o d =>
    simp only [DimOp.run, DimOp.dims, diagonal] at h ⊢
    rw [maybeWrapDim_neg hk h]

theorem otherSizes_eq (d1 d2 : Nat) (l : List Int) (i : Nat) :
    (otherSizes d1 d2 i l).map some =
      ((List.range l.length).filter (fun j => decide (j + i ∉ [d1, d2]))).map (l[·]?) := by
  induction l generalizing i with
  | nil => rfl
  | cons x xs ih =>
    rw [List.length_cons, List.range_succ_eq_map, List.filter_cons, List.filter_map]
    have ih := ih (i + 1)
    have hf : ((fun j => decide (j + i ∉ [d1, d2])) ∘ Nat.succ) =
        (fun j => decide (j + (i + 1) ∉ [d1, d2])) := by
      funext j
      simp only [Function.comp, Nat.succ_eq_add_one]
      rw [show j + 1 + i = j + (i + 1) by omega]
    rw [hf]
    simp only [otherSizes]
    by_cases h : (i : Int) = d1 ∨ (i : Int) = d2
    · have h' : i = d1 ∨ i = d2 := by omega
      rw [if_pos h, ih]
      have : (decide (0 + i ∉ [d1, d2])) = false := by
        apply decide_eq_false
        simp only [Nat.zero_add, List.mem_cons, List.not_mem_nil, or_false, not_not]
        exact h'
      rw [this]
      simp only [Bool.false_eq_true, if_false, List.map_map]
      apply List.map_congr_left
      intro j _
      simp [Function.comp]
    · have h' : ¬ (i = d1 ∨ i = d2) := by omega
      rw [if_neg h, List.map_cons, ih]
      have : (decide (0 + i ∉ [d1, d2])) = true := by
        apply decide_eq_true
        simp only [Nat.zero_add, List.mem_cons, List.not_mem_nil, or_false]
        exact h'
      rw [this]
      simp only [if_true, List.map_cons, List.getElem?_cons_zero, List.map_map]
      rfl

theorem countBelow_interval (n a b : Nat) :
    countBelow n (fun i => decide (a ≤ i ∧ i < b)) = min n b - a := by
  have := count_up a b 1 n (by omega)
  simp only [Nat.one_dvd, and_true, Nat.div_one, Nat.add_sub_cancel] at this
  exact this

theorem diagonalSize_eq (n1 n2 : Nat) (offset : Int) :
    diagonalSize n1 n2 offset =
      (countBelow n1 (fun i => decide (0 ≤ (i : Int) + offset ∧ (i : Int) + offset < n2)) : Int) := by
  have h : countBelow n1 (fun i => decide (0 ≤ (i : Int) + offset ∧ (i : Int) + offset < n2)) =
      countBelow n1 (fun i => decide ((-offset).toNat ≤ i ∧ i < ((n2 : Int) - offset).toNat)) := by
    apply countBelow_congr
    intro i _
    apply decide_eq_decide.mpr
    omega
  rw [h, countBelow_interval]
  unfold diagonalSize
  split <;> omega

theorem diagonal_iff (self : List Int) (offset dim1 dim2 : Int) (c : List Int) (hn : NonNeg self) :
    diagonal self offset dim1 dim2 = .ok c ↔ IsDiagonal self offset dim1 dim2 c := by
  have hsz : ∀ {d : Nat} {x : Int}, self[d]? = some x → ∃ n : Nat, x = n := fun hx =>
    ⟨_, (Int.toNat_of_nonneg (hn _ (List.mem_of_getElem? hx))).symm⟩
  unfold diagonal
  constructor
  · intro h
    split at h
    · cases h
    rename_i hl
    split at h
    · cases h
    rename_i w1 hw1
    split at h
    · cases h
    rename_i w2 hw2
    obtain ⟨d1, rfl, hd1⟩ := maybeWrapDim_iff.mp hw1
    obtain ⟨d2, rfl, hd2⟩ := maybeWrapDim_iff.mp hw2
    have hl1 := hd1.lt_of_pos (by omega)
    have hl2 := hd2.lt_of_pos (by omega)
    rw [pyGet_nonneg _ _ hl1, pyGet_nonneg _ _ hl2] at h
    split at h
    · cases h
    rename_i hne
    obtain ⟨n1, hn1⟩ := hsz (List.getElem?_eq_getElem hl1)
    obtain ⟨n2, hn2⟩ := hsz (List.getElem?_eq_getElem hl2)
    simp only [hn1, hn2] at h
    cases h
    refine ⟨d1, d2, n1, n2, _, hd1, hd2, by omega, by rw [List.getElem?_eq_getElem hl1, hn1],
      by rw [List.getElem?_eq_getElem hl2, hn2], ?_, by rw [diagonalSize_eq]⟩
    exact otherSizes_eq d1 d2 self 0
  · rintro ⟨d1, d2, n1, n2, rest, hd1, hd2, hne, h1, h2, hp, rfl⟩
    obtain ⟨hl1, h1'⟩ := List.getElem?_eq_some_iff.mp h1
    obtain ⟨hl2, h2'⟩ := List.getElem?_eq_some_iff.mp h2
    rw [if_neg (by omega), maybeWrapDim_iff.mpr ⟨d1, rfl, hd1⟩, maybeWrapDim_iff.mpr ⟨d2, rfl, hd2⟩]
    simp only []
    rw [if_neg (by omega), pyGet_nonneg _ _ hl1, pyGet_nonneg _ _ hl2, h1', h2']
    simp only []
    rw [diagonalSize_eq]
    congr 2
    exact Picks.unique (otherSizes_eq d1 d2 self 0) hp

theorem countBelow_two (m d1 d2 : Nat) (hne : d1 ≠ d2) :
    countBelow m (fun i => decide (i ∉ [d1, d2])) + (if d1 < m then 1 else 0) + (if d2 < m then 1 else 0) = m := by
  induction m with
  | zero => simp [countBelow]
  | succ m ih =>
    rw [countBelow_succ]
    by_cases h1 : m = d1
    · subst h1
      have e1 : m < m + 1 ↔ True := by simp
      by_cases h2 : d2 < m
      · simp [h2, show d2 < m + 1 by omega] at ih ⊢; omega
      · simp [h2, show ¬ d2 < m + 1 by omega] at ih ⊢; omega
    · by_cases h2 : m = d2
      · subst h2
        by_cases h3 : d1 < m
        · simp [h3, show d1 < m + 1 by omega] at ih ⊢; omega
        · simp [h3, show ¬ d1 < m + 1 by omega] at ih ⊢; omega
      · have e1 : (d1 < m + 1) ↔ d1 < m := by omega
        have e2 : (d2 < m + 1) ↔ d2 < m := by omega
        simp only [e1, e2]
        simp [h1, h2] at ih ⊢
        omega

/-- The loop of `_diag_embed_shape_helper`. -/
theorem diagEmbed_fold (self : List Int) (offset : Int) (d1 d2 m : Nat) (n : Int)
    (hne : d1 ≠ d2) (hlast : pyGet self (-1) = .ok n)
    (hm : countBelow m (fun i => decide (i ∉ [d1, d2])) ≤ self.length) :
    ∃ out, pyFold (diagEmbedStep self offset d1 d2) ([], 0) (List.range m) =
        .ok (out, countBelow m (fun i => decide (i ∉ [d1, d2]))) ∧
      out.length = m ∧ (∀ i, i < m → i ∈ [d1, d2] → out[i]? = some (n + offset.natAbs)) ∧
      ((List.range m).filter (· ∉ [d1, d2])).map (out[·]?) =
        (self.take (countBelow m (fun i => decide (i ∉ [d1, d2])))).map some := by
  induction m with
  | zero => exact ⟨[], rfl, rfl, by simp, rfl⟩
  | succ m ih =>
    rw [countBelow_succ] at hm ⊢
    obtain ⟨out, h1, h2, h3, h4⟩ := ih (by omega)
    rw [List.range_succ, pyFold_append, h1, List.filter_append]
    simp only [pyFold, List.map_append]
    have hold : ∀ x, ((List.range m).filter (· ∉ [d1, d2])).map ((out ++ [x])[·]?) =
        ((List.range m).filter (· ∉ [d1, d2])).map (out[·]?) := by
      intro x
      apply List.map_congr_left
      intro i hi
      have : i < m := List.mem_range.mp (List.mem_of_mem_filter hi)
      rw [List.getElem?_append_left (by omega)]
    by_cases h : m ∈ [d1, d2]
    · have h' : (m : Int) = d1 ∨ (m : Int) = d2 := by
        simp at h; omega
      have hd : decide (m ∉ [d1, d2]) = false := decide_eq_false (not_not.mpr h)
      simp only [diagEmbedStep, if_pos h', hlast]
      refine ⟨out ++ [n + offset.natAbs], ?_, by simp [h2], ?_, ?_⟩
      · simp only [hd, Bool.false_eq_true, if_false, Nat.add_zero]
      · intro i hi hmem
        by_cases him : i = m
        · subst him
          rw [List.getElem?_append_right (by omega), h2]
          simp
        · rw [List.getElem?_append_left (by omega)]
          exact h3 i (by omega) hmem
      · rw [hold, h4]
        simp only [List.filter_cons, List.filter_nil, hd, Bool.false_eq_true, if_false, List.map_nil,
          List.append_nil, Nat.add_zero]
    · have h' : ¬ ((m : Int) = d1 ∨ (m : Int) = d2) := by
        simp at h; omega
      have hd : decide (m ∉ [d1, d2]) = true := decide_eq_true h
      rw [hd] at hm
      simp only [if_true] at hm
      have hlt : countBelow m (fun i => decide (i ∉ [d1, d2])) < self.length := by omega
      simp only [diagEmbedStep, if_neg h', pyGet_nonneg _ _ hlt]
      refine ⟨out ++ [self[countBelow m (fun i => decide (i ∉ [d1, d2]))]], ?_, by simp [h2], ?_, ?_⟩
      · simp only [hd, if_true]
      · intro i hi hmem
        by_cases him : i = m
        · subst him; exact absurd hmem h
        · rw [List.getElem?_append_left (by omega)]
          exact h3 i (by omega) hmem
      · rw [hold, h4]
        simp only [List.filter_cons, List.filter_nil, hd, if_true]
        rw [List.take_add_one, List.map_append, List.getElem?_eq_getElem hlt, List.map_cons, List.map_nil,
          List.getElem?_append_right (by omega), h2, Nat.sub_self]
        rfl

theorem addRank_isDim {dim : Int} {r d : Nat} (h : IsDim r dim d) (hr : 0 < r) : addRank dim r = d := by
  unfold addRank IsDim at *
  split <;> omega

theorem isDiagEmbed_unique {self : List Int} {offset : Int} {d1 d2 : Nat} {c c' : List Int}
    (h : IsDiagEmbed self offset d1 d2 c) (h' : IsDiagEmbed self offset d1 d2 c') : c = c' := by
  obtain ⟨n, h1, h2, h3, h4, h5⟩ := h
  obtain ⟨n', h1', h2', h3', h4', h5'⟩ := h'
  rw [h1] at h1'
  cases h1'
  apply List.ext_getElem?
  intro i
  by_cases hi : i < c.length
  · by_cases hm : i ∈ [d1, d2]
    · simp only [List.mem_cons, List.not_mem_nil, or_false] at hm
      rcases hm with rfl | rfl
      · rw [h3, h3']
      · rw [h4, h4']
    · unfold Picks at h5 h5'
      rw [h5, h2', ← h2] at h5'
      have := List.map_inj_left.mp h5' i (List.mem_filter.mpr ⟨List.mem_range.mpr hi, decide_eq_true hm⟩)
      exact this
  · rw [List.getElem?_eq_none (by omega), List.getElem?_eq_none (by omega)]

theorem diagEmbed_iff (self : List Int) (offset dim1 dim2 : Int) (d1 d2 : Nat)
    (hd1 : IsDim (self.length + 1) dim1 d1) (hd2 : IsDim (self.length + 1) dim2 d2) (hne : d1 ≠ d2) (c : List Int) :
    diagEmbed self offset dim1 dim2 = .ok c ↔ IsDiagEmbed self offset d1 d2 c := by
  have hl1 := hd1.lt_of_pos (by omega)
  have hl2 := hd2.lt_of_pos (by omega)
  have a1 := addRank_isDim hd1 (by omega)
  have a2 := addRank_isDim hd2 (by omega)
  have hc : ((self.length + 1 : Nat) : Int) = (self.length : Int) + 1 := by omega
  rw [hc] at a1 a2
  unfold diagEmbed
  simp only []
  rw [if_neg (by unfold IsDim at hd1 hd2; omega), a1, a2]
  by_cases h0 : self.length = 0
  · have hs : self = [] := List.length_eq_zero_iff.mp h0
    subst hs
    simp at hl1 hl2
    omega
  have hlast : pyGet self (-1) = .ok (self[self.length - 1]'(by omega)) := pyGet_neg self 1 (by omega) (by omega)
  have hcount := countBelow_two (self.length + 1) d1 d2 hne
  rw [if_pos hl1, if_pos hl2] at hcount
  obtain ⟨out, h1, h2, h3, h4⟩ := diagEmbed_fold self offset d1 d2 (self.length + 1) _ hne hlast (by omega)
  have hcnt : countBelow (self.length + 1) (fun i => decide (i ∉ [d1, d2])) = self.length - 1 := by omega
  rw [hcnt] at h4
  rw [h1]
  have hout : IsDiagEmbed self offset d1 d2 out := by
    refine ⟨_, List.getElem?_eq_getElem (by omega), h2, h3 d1 hl1 (by simp), h3 d2 hl2 (by simp), ?_⟩
    unfold Picks
    rw [h2, h4, List.dropLast_eq_take]
  constructor
  · intro h
    cases h
    exact hout
  · intro h
    rw [isDiagEmbed_unique h hout]

theorem windows_eq (n size step : Nat) (hst : 0 < step) (h : size ≤ n) :
    windows n size step = (n - size) / step + 1 := by
  unfold windows
  have h1 := count_up 0 (n - size + 1) step (n + 1) hst
  have h2 : countBelow (n + 1) (fun s => decide (step ∣ s ∧ s + size ≤ n)) =
      countBelow (n + 1) (fun i => decide (0 ≤ i ∧ i < n - size + 1 ∧ step ∣ (i - 0))) := by
    apply countBelow_congr
    intro i _
    apply decide_eq_decide.mpr
    rw [Nat.sub_zero]
    constructor
    · rintro ⟨ha, hb⟩; exact ⟨by omega, by omega, ha⟩
    · rintro ⟨_, hb, ha⟩; exact ⟨ha, by omega⟩
  rw [h2, h1, show min (n + 1) (n - size + 1) - 0 + step - 1 = (n - size) + step by omega,
    Nat.add_div_right _ hst]

theorem windows_int (n size step : Nat) (hst : 0 < step) (h : size ≤ n) :
    Int.fdiv ((n : Int) - size) step + 1 = (windows n size step : Int) := by
  rw [windows_eq n size step hst h, show ((n : Int) - size) = ((n - size : Nat) : Int) by omega,
    Int.fdiv_eq_ediv_of_nonneg _ (by omega)]
  rfl

theorem windows_zero (n size step : Nat) (h : n < size) : windows n size step = 0 := by
  unfold windows countBelow
  rw [List.length_eq_zero_iff, List.filter_eq_nil_iff]
  intro s _
  simp
  omega

theorem squeezeLoop_one (d : Nat) (l : List Int) (i : Nat) :
    squeezeLoop (fun j => (j : Int) == ((d + i : Nat) : Int)) i l =
      if l[d]? = some 1 then l.eraseIdx d else l := by
  induction l generalizing d i with
  | nil => simp [squeezeLoop]
  | cons x xs ih =>
    rw [squeezeLoop]
    cases d with
    | zero =>
      have hrest : ∀ (l : List Int) j, i < j → squeezeLoop (fun j => (j : Int) == ((0 + i : Nat) : Int)) j l = l := by
        intro l
        induction l with
        | nil => intro j _; rfl
        | cons y ys ihy =>
          intro j hj
          rw [squeezeLoop, if_neg, ihy (j + 1) (by omega)]
          simp
          omega
      rw [hrest xs (i + 1) (by omega)]
      by_cases h : x = 1
      · simp [h]
      · simp [h]
    | succ d =>
      have h1 : ((i : Int) == ((d + 1 + i : Nat) : Int)) = false := by
        simp; omega
      rw [h1]
      simp only [Bool.false_and, Bool.false_eq_true, if_false, List.getElem?_cons_succ, List.eraseIdx_cons_succ]
      have := ih d (i + 1)
      rw [show d + (i + 1) = d + 1 + i by omega] at this
      rw [this]
      split <;> rfl

theorem squeeze_iff (self : List Int) (dim : Int) (c : List Int) :
    squeeze self dim = .ok c ↔
      ∃ d, IsDim self.length dim d ∧ c = if self[d]? = some 1 then self.eraseIdx d else self := by
  unfold squeeze
  cases hw : maybeWrapDim dim self.length with
  | error e =>
    constructor
    · intro h; cases h
    · rintro ⟨d, h1, _⟩
      rw [maybeWrapDim_iff.mpr ⟨d, rfl, h1⟩] at hw
      cases hw
  | ok w =>
    obtain ⟨d, rfl, hd⟩ := maybeWrapDim_iff.mp hw
    have := squeezeLoop_one d self 0
    rw [Nat.add_zero] at this
    simp only []
    rw [this]
    constructor
    · intro h; cases h; exact ⟨d, hd, rfl⟩
    · rintro ⟨d', h1, h2⟩
      rw [hd.unique h1, h2]

end Verif.Shape
