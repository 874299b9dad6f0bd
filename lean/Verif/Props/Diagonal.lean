import Verif.Lemmas.DimOps

/-!
# C60: diagonals; C61: adding and removing dimensions; C62: sliding windows
-/

namespace Verif

open Shape

/-- The shape of a diagonal: the other dimensions in order, then the number of positions
`(i, i + offset)`; defined exactly for two different dimensions. -/
theorem C60_diagonal (self : List Int) (offset dim1 dim2 : Int) (c : List Int) (hn : NonNeg self) :
    diagonal self offset dim1 dim2 = .ok c ↔ IsDiagonal self offset dim1 dim2 c :=
  diagonal_iff self offset dim1 dim2 c hn

example : diagonal [2, 3, 4] 1 (-1) 1 = .ok [2, 2] ∧
    countBelow 4 (fun i => decide (0 ≤ (i : Int) + 1 ∧ (i : Int) + 1 < 3)) = 2 := by
  refine ⟨?_, ?_⟩ <;> decide +kernel

/-- The shape with the last dimension laid out on a diagonal, for different dimensions in range. -/
theorem C60_diag_embed_partial (self : List Int) (offset dim1 dim2 : Int) (d1 d2 : Nat)
    (hd1 : IsDim (self.length + 1) dim1 d1) (hd2 : IsDim (self.length + 1) dim2 d2) (hne : d1 ≠ d2)
    (c : List Int) :
    diagEmbed self offset dim1 dim2 = .ok c ↔ IsDiagEmbed self offset d1 d2 c :=
  diagEmbed_iff self offset dim1 dim2 d1 d2 hd1 hd2 hne c

example : diagEmbed [2, 3] (-1) 0 (-1) = .ok [4, 2, 4] := by decide +kernel

/-- Naming one dimension twice, once from each end, is accepted: the result has only one long dimension. -/
theorem C60_violated : ∃ (self c : List Int) (dim1 dim2 : Int) (d : Nat),
    IsDim (self.length + 1) dim1 d ∧ IsDim (self.length + 1) dim2 d ∧ diagEmbed self 0 dim1 dim2 = .ok c :=
  ⟨[4, 5], [5, 4, 5], 0, -3, 0, by unfold IsDim; simp, by unfold IsDim; simp, by decide +kernel⟩

/-- The diagonal of an embedded diagonal is the original. -/
theorem C60_back (self : List Int) (offset dim1 dim2 : Int) (d1 d2 : Nat)
    (hd1 : IsDim (self.length + 1) dim1 d1) (hd2 : IsDim (self.length + 1) dim2 d2) (hne : d1 ≠ d2)
    (hn : NonNeg self) (c : List Int) (h : diagEmbed self offset dim1 dim2 = .ok c) :
    diagonal c offset dim1 dim2 = .ok self := by
  obtain ⟨n, h1, h2, h3, h4, h5⟩ := (diagEmbed_iff self offset dim1 dim2 d1 d2 hd1 hd2 hne c).mp h
  obtain ⟨hl, hn'⟩ := List.getElem?_eq_some_iff.mp h1
  have hn0 : 0 ≤ n := hn n (List.mem_of_getElem? h1)
  have hself : self = self.dropLast ++ [n] := by
    have hne0 : self ≠ [] := by intro h0; simp [h0] at hl
    have := List.dropLast_append_getLast hne0
    rw [List.getLast_eq_getElem, hn'] at this
    exact this.symm
  have hcn : NonNeg c := by
    intro x hx
    obtain ⟨i, hi, hxi⟩ := List.getElem_of_mem hx
    by_cases hm : i ∈ [d1, d2]
    · simp only [List.mem_cons, List.not_mem_nil, or_false] at hm
      have : c[i]? = some (n + offset.natAbs) := by
        rcases hm with rfl | rfl
        · exact h3
        · exact h4
      rw [List.getElem?_eq_getElem hi, hxi] at this
      cases this
      omega
    · have hmem : (c[i]?) ∈ ((List.range c.length).filter (· ∉ [d1, d2])).map (c[·]?) :=
        List.mem_map.mpr ⟨i, List.mem_filter.mpr ⟨List.mem_range.mpr hi, decide_eq_true hm⟩, rfl⟩
      unfold Picks at h5
      rw [← h5, List.getElem?_eq_getElem hi, hxi] at hmem
      obtain ⟨y, hy, hxy⟩ := List.mem_map.mp hmem
      cases hxy
      exact hn _ (List.dropLast_subset _ hy)
  rw [diagonal_iff c offset dim1 dim2 self hcn]
  refine ⟨d1, d2, (n + offset.natAbs).toNat, (n + offset.natAbs).toNat, self.dropLast,
    by rw [h2]; exact hd1, by rw [h2]; exact hd2, hne, ?_, ?_, h5, ?_⟩
  · rw [h3]; congr 1; omega
  · rw [h4]; congr 1; omega
  · rw [← diagonalSize_eq]
    have : diagonalSize ((n + offset.natAbs).toNat : Int) ((n + offset.natAbs).toNat : Int) offset = n := by
      unfold diagonalSize
      split <;> omega
    rw [this]
    exact hself

example : diagEmbed [2, 3] 2 (-2) (-1) = .ok [2, 5, 5] ∧ diagonal [2, 5, 5] 2 (-2) (-1) = .ok [2, 3] := by
  refine ⟨?_, ?_⟩ <;> decide +kernel

/-- `unsqueeze` inserts one dimension of size one at the named position. -/
theorem C61_unsqueeze (self : List Int) (dim : Int) (c : List Int) :
    unsqueeze self dim = .ok c ↔ ∃ d, IsDim (self.length + 1) dim d ∧ IsUnsqueeze self d c := by
  rw [unsqueeze_iff]
  unfold IsUnsqueeze
  constructor
  · rintro ⟨d, h1, h2, h3, h4⟩
    refine ⟨d, h1, ?_, h3, h4⟩
    have := List.length_eraseIdx_of_lt h2
    rw [h4] at this
    omega
  · rintro ⟨d, h1, h2, h3, h4⟩
    exact ⟨d, h1, (List.getElem?_eq_some_iff.mp h3).1, h3, h4⟩

example : unsqueeze [2, 3] (-1) = .ok [2, 3, 1] := by decide +kernel

/-- `squeeze(dim)` removes the named dimension if its size is one and changes nothing otherwise. -/
theorem C61_squeeze (self : List Int) (dim : Int) (c : List Int) :
    squeeze self dim = .ok c ↔
      ∃ d, IsDim self.length dim d ∧ c = if self[d]? = some 1 then self.eraseIdx d else self :=
  squeeze_iff self dim c

example : squeeze [2, 1, 3] (-2) = .ok [2, 3] ∧ squeeze [2, 1, 3] 0 = .ok [2, 1, 3] := by
  refine ⟨?_, ?_⟩ <;> decide +kernel

/-- `squeeze` undoes `unsqueeze`. -/
theorem C61_back (self : List Int) (dim : Int) (c : List Int) (h : unsqueeze self dim = .ok c) :
    squeeze c dim = .ok self := by
  obtain ⟨d, h1, h2, h3, h4⟩ := (C61_unsqueeze self dim c).mp h
  rw [squeeze_iff]
  refine ⟨d, by rw [h2]; exact h1, ?_⟩
  rw [if_pos h3, h4]

example : unsqueeze [2, 1, 3] 1 = .ok [2, 1, 1, 3] ∧ squeeze [2, 1, 1, 3] 1 = .ok [2, 1, 3] := by
  refine ⟨?_, ?_⟩ <;> decide +kernel

/-- `squeeze()` keeps exactly the sizes other than one, in order; the number of elements stays the same. -/
theorem C61_squeeze_all (self : List Int) :
    (squeezeNodim self).Sublist self ∧ (∀ x, x ∈ squeezeNodim self ↔ x ∈ self ∧ x ≠ 1) ∧
    numel (squeezeNodim self) = numel self := by
  unfold squeezeNodim
  refine ⟨List.filter_sublist, by simp [List.mem_filter], ?_⟩
  induction self with
  | nil => rfl
  | cons x xs ih =>
    rw [List.filter_cons]
    by_cases hx : x = 1
    · subst hx
      rw [show (decide ((1 : Int) ≠ 1)) = false from rfl]
      simp only [Bool.false_eq_true, if_false]
      rw [ih]
      simp [numel]
    · rw [decide_eq_true hx]
      simp only [if_true]
      have h1 : ∀ l : List Int, numel (x :: l) = x * numel l := by
        intro l
        have := numel_append [x] l
        simpa [numel] using this
      rw [h1, h1, ih]

example : squeezeNodim [1, 2, 1, 3] = [2, 3] := by decide

/-- `select` removes the named dimension, exactly when the index is within it. -/
theorem C61_select (self : List Int) (dim index : Int) (c : List Int) :
    select self dim index = .ok c ↔
      ∃ d n, IsDim self.length dim d ∧ self[d]? = some n ∧ -n ≤ index ∧ index < n ∧ c = self.eraseIdx d := by
  unfold select
  by_cases h0 : self.length = 0
  · rw [if_pos h0]
    constructor
    · intro h; cases h
    · rintro ⟨d, n, _, h, _⟩
      rw [List.length_eq_zero_iff.mp h0] at h
      simp at h
  rw [if_neg h0]
  cases hw : maybeWrapDim dim self.length with
  | error e =>
    constructor
    · intro h; cases h
    · rintro ⟨d, x, h1, _⟩
      rw [maybeWrapDim_iff.mpr ⟨d, rfl, h1⟩] at hw
      cases hw
  | ok w =>
    obtain ⟨d, rfl, hd⟩ := maybeWrapDim_iff.mp hw
    have hdl : d < self.length := hd.lt_of_pos (by omega)
    simp only []
    rw [pyGet_nonneg _ _ hdl]
    simp only []
    constructor
    · intro h
      split at h
      · cases h
      · cases h
        exact ⟨d, self[d], hd, List.getElem?_eq_getElem hdl, by omega, by omega, rfl⟩
    · rintro ⟨d', n, h1, h2, h3, h4, h5⟩
      have := hd.unique h1
      subst this
      rw [List.getElem?_eq_getElem hdl] at h2
      cases h2
      rw [if_neg (by omega), h5]
      rfl

example : select [2, 3, 4] (-2) (-3) = .ok [2, 4] := by decide +kernel

/-- `embedding` replaces each index by a row of the table. -/
theorem C61_embedding (weight indices c : List Int) :
    embedding weight indices = .ok c ↔ ∃ v w, weight = [v, w] ∧ c = indices ++ [w] := by
  unfold embedding
  match weight with
  | [] => simp
  | [_] => simp
  | _ :: _ :: _ :: _ => simp
  | [v, w] =>
    match indices with
    | [n] =>
      have h1 : maybeWrapDim 0 2 = .ok 0 := by decide
      simp [indexSelect, h1, multiplyIntegers, eq_comm]
    | [] => simp [pyGet, eq_comm]
    | a :: b :: rest => simp [pyGet, eq_comm]

example : embedding [100, 8] [5, 7] = .ok [5, 7, 8] := by decide +kernel

/-- `unfold` of a dimension: the number of window positions, and the window as a new last dimension. -/
theorem C62_unfold_partial (self : List Int) (dim : Int) (size step : Nat) (hst : 0 < step)
    (hn : NonNeg self) (hr : 0 < self.length) (c : List Int) :
    unfold self dim size step = .ok c ↔
      ∃ d n : Nat, IsDim self.length dim d ∧ self[d]? = some (n : Int) ∧ size ≤ n ∧
        c = self.set d (windows n size step) ++ [(size : Int)] := by
  unfold Shape.unfold
  rw [if_neg (by omega)]
  simp only []
  by_cases hdim : ∃ d, IsDim self.length dim d
  · obtain ⟨d, hd⟩ := hdim
    have hdl := hd.lt_of_pos hr
    rw [addRank_isDim hd hr, if_neg (by omega), pyGet_nonneg _ _ hdl]
    simp only []
    rw [pySet_nat _ hdl]
    have hx := hn _ (List.getElem_mem hdl)
    obtain ⟨n, hn'⟩ : ∃ n : Nat, self[d] = n := ⟨self[d].toNat, by omega⟩
    rw [hn']
    constructor
    · intro h
      split at h
      · cases h
      · rename_i hle
        rw [if_neg (by omega), windows_int n size step hst (by omega)] at h
        cases h
        exact ⟨d, n, hd, by rw [List.getElem?_eq_getElem hdl, hn'], by omega, rfl⟩
    · rintro ⟨d', n', h1, h2, h3, h4⟩
      have := hd.unique h1
      subst this
      rw [List.getElem?_eq_getElem hdl, hn'] at h2
      have : n = n' := by
        have := Option.some.inj h2
        omega
      subst this
      rw [if_neg (by omega), if_neg (by omega), windows_int n size step hst h3, h4]
  · rw [if_pos]
    · constructor
      · intro h; cases h
      · rintro ⟨d, _, h, _⟩; exact absurd ⟨d, h⟩ hdim
    · intro h
      apply hdim
      refine ⟨(addRank dim self.length).toNat, ?_⟩
      unfold addRank at h ⊢
      unfold IsDim
      split at h <;> rename_i h0 <;> simp only [h0, if_true, if_false] <;> omega

example : unfold [6, 4] 0 2 3 = .ok [2, 4, 2] ∧ windows 6 2 3 = 2 := by
  refine ⟨?_, ?_⟩ <;> decide +kernel

/-- A step of zero is a division by zero and a negative step gives negative sizes. -/
theorem C62_unfold_violated : unfold [6] 0 2 (-1) = .ok [-3, 2] ∧ unfold [6] 0 2 0 = .error .zeroDivision := by
  refine ⟨?_, ?_⟩ <;> decide +kernel

/-- The frames of a short-time Fourier transform without padding are the window positions. -/
theorem C62_stft (lead : List Int) (length nFft hop : Nat) (hlead : lead.length ≤ 1)
    (onesided : Option Bool) (rc : Option Bool) (c : List Int)
    (h : stft (lead ++ [(length : Int)]) nFft (some hop) onesided rc = .ok c) :
    ∃ m, (onesided ≠ some false → m = (nFft / 2 : Nat) + 1) ∧ (onesided = some false → m = nFft) ∧
      c = lead ++ [(m : Int), windows length nFft hop] ++ (if rc = some false then [2] else []) := by
  unfold stft stftWith at h
  have hlen : (lead ++ [(length : Int)]).length = lead.length + 1 := by simp
  rw [if_neg (by omega)] at h
  have hl : pyGet (lead ++ [(length : Int)]) (-1) = .ok (length : Int) := by
    have := pyGet_neg (lead ++ [(length : Int)]) 1 (by omega) (by simp)
    rw [show (-1 : Int) = -((1 : Nat) : Int) from rfl, this]
    simp
  rw [hl] at h
  simp only [Option.getD_some, List.dropLast_concat] at h
  split at h
  · cases h
  rename_i h1
  split at h
  · cases h
  rename_i h2
  have hw := windows_int length nFft hop (by omega) (by omega)
  rw [Int.add_comm 1, hw] at h
  cases h
  refine ⟨if onesided = some false then nFft else nFft / 2 + 1, ?_, ?_, ?_⟩
  · intro h; simp [h]
  · intro h; simp [h]
  · congr 2
    match onesided with
    | none => simp [Int.fdiv_eq_ediv_of_nonneg]
    | some true => simp [Int.fdiv_eq_ediv_of_nonneg]
    | some false => simp

example : stft [2, 10] 4 (some 3) none none = .ok [2, 3, 3] ∧ windows 10 4 3 = 3 := by
  refine ⟨?_, ?_⟩ <;> decide +kernel

/-- Centred frames, when the signal is padded by `n_fft // 2` on both sides: right for even `n_fft`. -/
theorem C62_stft_center_partial (length half hop : Nat) (hh : 0 < hop) (h0 : 0 < half) (h : 2 * half ≤ length) :
    stftCenter true [(length : Int)] (2 * half : Nat) (some hop) none none =
      .ok [(half + 1 : Nat), (windows (length + 2 * half) (2 * half) hop : Int)] := by
  unfold stftCenter stftWith
  have hl : pyGet [(length : Int)] (-1) = .ok (length : Int) := rfl
  rw [if_neg (by simp), hl]
  simp only [Option.getD_some]
  rw [if_neg (by omega), if_neg (by omega)]
  rw [windows_eq _ _ _ hh (by omega)]
  simp [Int.fdiv_eq_ediv_of_nonneg]
  omega

example : stftCenter true [8] 4 (some 2) none none = .ok [3, 5] := by decide +kernel

/-- For odd `n_fft` the count may be one too large. -/
theorem C62_stft_center_violated : stftCenter true [4] 3 (some 2) none none = .ok [2, 3] ∧
    windows (4 + 2 * (3 / 2)) 3 2 = 2 := by
  refine ⟨?_, ?_⟩ <;> decide +kernel

end Verif
