import Verif.Spec.Sparsity

/-!
# C20, C58: sparse encodings

C20: for every sparse tensor layout with any numbers of batch, sparse, dense and block dimensions, the
emitted encoding has one dimension variable per tensor dimension, defines each level from declared
dimensions, and uses every dimension.

C58: the encoding of a blocked layout divides each dimension by the block size of that dimension.
-/

namespace Verif

open Sparsity TypeText

namespace Sparsity

theorem join_cons_append {sep : Text} (x : Text) (l : List Text) (h : l ≠ []) :
    join sep (x :: l) = x ++ sep ++ join sep l := by
  cases l with
  | nil => exact absurd rfl h
  | cons y r => rfl

theorem join_append {sep : Text} {l l' : List Text} (h : l ≠ []) (h' : l' ≠ []) :
    join sep (l ++ l') = join sep l ++ sep ++ join sep l' := by
  induction l with
  | nil => exact absurd rfl h
  | cons x l ih =>
    cases l with
    | nil => rw [List.singleton_append, join_cons_append x l' h']; rfl
    | cons y l =>
      rw [List.cons_append, join_cons_append _ _ (by simp), ih (by simp),
        join_cons_append x (y :: l) (by simp)]
      simp

/-- Batch, sparse and dense levels. -/
def levelsOf (t : Tensor) (bm bn : Nat) : List Level :=
  (List.range t.batchDim).map (fun d => (⟨.dim d, .batch⟩ : Level)) ++
  sparseLevels t.layout t.batchDim t.sparseDim bm bn ++
  (range (t.batchDim + t.sparseDim) t.ndim).map (fun d => (⟨.dim d, .dense⟩ : Level))

theorem sparseLevels_ne (l : Layout) (b s m n : Nat) : sparseLevels l b s m n ≠ [] := by
  cases l <;> simp [sparseLevels]

theorem lvl_batch (d : Nat) : lvl d tBatch = Level.text ⟨.dim d, .batch⟩ := rfl
theorem lvl_dense (d : Nat) : lvl d tDense = Level.text ⟨.dim d, .dense⟩ := rfl
theorem lvl_compressed (d : Nat) : lvl d tCompressed = Level.text ⟨.dim d, .compressed⟩ := rfl
theorem lvl_compressed' (d : Nat) :
    lvl d tCompressedNonunique = Level.text ⟨.dim d, .compressedNonunique⟩ := rfl
theorem lvl_singleton (d : Nat) : lvl d tSingleton = Level.text ⟨.dim d, .singleton⟩ := rfl
theorem lvl_singleton' (d : Nat) :
    lvl d tSingletonNonunique = Level.text ⟨.dim d, .singletonNonunique⟩ := rfl
theorem lvl_floordiv (d m : Nat) (ty : LvlType) :
    dimVar d ++ tFloordiv ++ num m ++ tColon ++ ty.text = Level.text ⟨.floordiv d m, ty⟩ := rfl
theorem lvl_mod (d m : Nat) (ty : LvlType) :
    dimVar d ++ tMod ++ num m ++ tColon ++ ty.text = Level.text ⟨.mod d m, ty⟩ := rfl

/-- The text of the sparse levels. -/
theorem sparseLvls_text {t : Tensor} {s : Text} (h : sparseLvls t = .ok s) :
    ∃ bm bn, s = join [','] ((sparseLevels t.layout t.batchDim t.sparseDim bm bn).map Level.text) ∧
      (t.layout = .bsr ∨ t.layout = .bsc →
        pySlice t.valuesShape (t.batchDim + 1) (t.batchDim + 3) = [bm, bn]) ∧
      2 ≤ t.sparseDim ∧ (t.layout ≠ .coo → t.sparseDim = 2) := by
  unfold sparseLvls at h
  dsimp only at h
  cases hl : t.layout <;> rw [hl] at h <;> dsimp only at h
  · split at h
    · rename_i h2
      cases h
      refine ⟨0, 0, ?_, by simp, h2, by simp⟩
      simp only [sparseLevels, List.map_cons, List.map_append, List.map_map]
      rw [join_cons_append _ _ (by simp)]
      by_cases h3 : t.sparseDim > 2
      · have hr : range (t.batchDim + 1) (t.batchDim + t.sparseDim - 1) =
            (List.range (t.sparseDim - 2)).map (fun k => t.batchDim + 1 + k) := by
          unfold range
          have : t.batchDim + t.sparseDim - 1 - (t.batchDim + 1) = t.sparseDim - 2 := by omega
          rw [this]
          apply List.map_congr_left
          intro k _
          omega
        rw [join_append (by simp; omega) (by simp), if_pos h3, hr]
        simp only [List.map_map, lvl_compressed', lvl_singleton, lvl_singleton', List.append_assoc]
        rfl
      · have hs : t.sparseDim = 2 := by omega
        have hr : range (t.batchDim + 1) (t.batchDim + t.sparseDim - 1) = [] := by
          unfold range
          have : t.batchDim + t.sparseDim - 1 - (t.batchDim + 1) = 0 := by omega
          rw [this]; rfl
        rw [if_neg h3, hr, hs]
        simp [join, lvl_compressed', lvl_singleton]
    · cases h
  · split at h
    · cases h
      refine ⟨0, 0, ?_, by simp, by omega, fun _ => ‹_›⟩
      simp [sparseLevels, join, lvl_dense, lvl_compressed]
    · cases h
  · split at h
    · cases h
      refine ⟨0, 0, ?_, by simp, by omega, fun _ => ‹_›⟩
      simp [sparseLevels, join, lvl_dense, lvl_compressed]
    · cases h
  · split at h
    · split at h
      · rename_i m n hmn
        refine ⟨m, n, (Except.ok.inj h).symm.trans ?_, fun _ => hmn, by omega, fun _ => ‹_›⟩
        rw [show tDense = LvlType.dense.text from rfl, show tCompressed = LvlType.compressed.text from rfl]
        simp only [sparseLevels, join, List.map_cons, List.map_nil, ← lvl_floordiv, ← lvl_mod,
          List.append_assoc]
        rfl
      · cases h
    · cases h
  · split at h
    · split at h
      · rename_i m n hmn
        refine ⟨m, n, (Except.ok.inj h).symm.trans ?_, fun _ => hmn, by omega, fun _ => ‹_›⟩
        rw [show tDense = LvlType.dense.text from rfl, show tCompressed = LvlType.compressed.text from rfl]
        simp only [sparseLevels, join, List.map_cons, List.map_nil, ← lvl_floordiv, ← lvl_mod,
          List.append_assoc]
        rfl
      · cases h
    · cases h

theorem sparsityEncoding_text {t : Tensor} {s : Text} (h : sparsityEncoding t = .ok s)
    (hd : t.sparseDim + t.denseDim ≤ t.ndim) :
    ∃ bm bn, s = encodingText t.ndim (levelsOf t bm bn) t.idxBits ∧
      (t.layout = .bsr ∨ t.layout = .bsc →
        pySlice t.valuesShape (t.batchDim + 1) (t.batchDim + 3) = [bm, bn]) ∧
      2 ≤ t.sparseDim ∧ (t.layout ≠ .coo → t.sparseDim = 2) := by
  unfold sparsityEncoding at h
  dsimp only at h
  split at h
  · cases h
  · rename_i lv hlv
    obtain ⟨bm, bn, htext, hblock, h2, h2'⟩ := sparseLvls_text hlv
    cases h
    refine ⟨bm, bn, ?_, hblock, h2, h2'⟩
    have hne : (sparseLevels t.layout t.batchDim t.sparseDim bm bn).map Level.text ≠ [] := by
      simp [sparseLevels_ne]
    have key : (if t.denseDim > 0 then
          (if t.batchDim > 0 then
            join [','] ((List.range t.batchDim).map (fun d => lvl d tBatch)) ++ [','] ++ lv else lv) ++
          [','] ++ join [','] ((range (t.batchDim + t.sparseDim) t.ndim).map (fun d => lvl d tDense))
        else (if t.batchDim > 0 then
            join [','] ((List.range t.batchDim).map (fun d => lvl d tBatch)) ++ [','] ++ lv else lv)) =
        join [','] ((levelsOf t bm bn).map Level.text) := by
      have hb : (if t.batchDim > 0 then
            join [','] ((List.range t.batchDim).map (fun d => lvl d tBatch)) ++ [','] ++ lv else lv) =
          join [','] (((List.range t.batchDim).map (fun d => (⟨.dim d, .batch⟩ : Level)) ++
            sparseLevels t.layout t.batchDim t.sparseDim bm bn).map Level.text) := by
        rw [List.map_append, htext]
        split
        · rw [join_append (by simp; omega) hne]
          simp only [List.map_map, lvl_batch]
          rfl
        · have : t.batchDim = 0 := by omega
          rw [this]; rfl
      unfold levelsOf
      rw [hb]
      split
      · rw [List.map_append (l₂ := List.map _ (range _ _)), join_append (by simp [sparseLevels_ne])]
        · simp only [List.map_map, lvl_dense]
          rfl
        · simp only [ne_eq, List.map_eq_nil_iff, range, List.range_eq_nil]
          simp only [Tensor.batchDim]
          omega
      · have : range (t.batchDim + t.sparseDim) t.ndim = [] := by
          simp only [range, List.map_eq_nil_iff, List.range_eq_nil, Tensor.batchDim]
          omega
        rw [this]; simp
    rw [key]
    rfl

theorem mem_range {a b d : Nat} : d ∈ range a b ↔ a ≤ d ∧ d < b := by
  unfold range
  simp only [List.mem_map, List.mem_range]
  constructor
  · rintro ⟨k, hk, rfl⟩; omega
  · rintro ⟨h1, h2⟩; exact ⟨d - a, by omega, by omega⟩

/-- The expressions of the sparse levels. -/
theorem sparse_vars {l : Layout} {b s m n : Nat} (h2 : 2 ≤ s) (h2' : l ≠ .coo → s = 2) :
    (∀ lv ∈ sparseLevels l b s m n, b ≤ lv.expr.var ∧ lv.expr.var < b + s) ∧
    (∀ d, b ≤ d → d < b + s → (∃ lv ∈ sparseLevels l b s m n, lv.expr = .dim d) ∨
      ∃ k, (∃ lv ∈ sparseLevels l b s m n, lv.expr = .floordiv d k) ∧
        ∃ lv ∈ sparseLevels l b s m n, lv.expr = .mod d k) := by
  cases l
  · refine ⟨?_, ?_⟩
    · intro lv hlv
      simp only [sparseLevels, List.mem_cons, List.mem_append, List.mem_map, List.mem_range,
        List.not_mem_nil, or_false] at hlv
      rcases hlv with rfl | ⟨k, hk, rfl⟩ | rfl <;> simp only [LvlExpr.var] <;> omega
    · intro d h1 h3
      left
      by_cases hb : d = b
      · exact ⟨⟨.dim b, .compressedNonunique⟩, by simp [sparseLevels], by rw [hb]⟩
      · by_cases ht : d = b + s - 1
        · exact ⟨⟨.dim (b + s - 1), .singleton⟩, by simp [sparseLevels], by rw [ht]⟩
        · refine ⟨⟨.dim (b + 1 + (d - b - 1)), .singletonNonunique⟩, ?_, ?_⟩
          · simp only [sparseLevels, List.mem_cons, List.mem_append, List.mem_map, List.mem_range]
            exact Or.inr (Or.inl ⟨d - b - 1, by omega, rfl⟩)
          · show LvlExpr.dim (b + 1 + (d - b - 1)) = .dim d
            congr 1; omega
  all_goals
    have hs : s = 2 := h2' (by decide)
    subst hs
    refine ⟨?_, ?_⟩
    · intro lv hlv
      simp only [sparseLevels, List.mem_cons, List.not_mem_nil, or_false] at hlv
      rcases hlv with rfl | rfl | rfl | rfl <;> simp only [LvlExpr.var] <;> omega
    · intro d h1 h3
      have hd : d = b ∨ d = b + 1 := by omega
      rcases hd with rfl | rfl <;> simp [sparseLevels]

theorem levels_ok {t : Tensor} {bm bn : Nat} (hd : t.sparseDim + t.denseDim ≤ t.ndim)
    (h2 : 2 ≤ t.sparseDim) (h2' : t.layout ≠ .coo → t.sparseDim = 2) :
    (∀ lv ∈ levelsOf t bm bn, lv.expr.var < t.ndim) ∧
    (∀ d, d < t.ndim → (∃ lv ∈ levelsOf t bm bn, lv.expr = .dim d) ∨
      ∃ k, (∃ lv ∈ levelsOf t bm bn, lv.expr = .floordiv d k) ∧
        ∃ lv ∈ levelsOf t bm bn, lv.expr = .mod d k) := by
  obtain ⟨hv, hu⟩ := sparse_vars (l := t.layout) (b := t.batchDim) (s := t.sparseDim) (m := bm)
    (n := bn) h2 h2'
  have hb : t.batchDim + t.sparseDim + t.denseDim = t.ndim := by unfold Tensor.batchDim; omega
  refine ⟨?_, ?_⟩
  · intro lv hlv
    simp only [levelsOf, List.mem_append, List.mem_map, List.mem_range, mem_range] at hlv
    rcases hlv with (⟨d, h, rfl⟩ | h) | ⟨d, h, rfl⟩
    · simp only [LvlExpr.var]; omega
    · have := hv lv h; omega
    · simp only [LvlExpr.var]; omega
  · intro d hdn
    by_cases h1 : d < t.batchDim
    · left
      refine ⟨⟨.dim d, .batch⟩, ?_, rfl⟩
      simp only [levelsOf, List.mem_append, List.mem_map, List.mem_range]
      exact Or.inl (Or.inl ⟨d, h1, rfl⟩)
    · by_cases h3 : d < t.batchDim + t.sparseDim
      · rcases hu d (by omega) h3 with ⟨lv, h, e⟩ | ⟨k, ⟨lv, h, e⟩, lv', h', e'⟩
        · left
          exact ⟨lv, by simp only [levelsOf, List.mem_append]; exact Or.inl (Or.inr h), e⟩
        · right
          exact ⟨k, ⟨lv, by simp only [levelsOf, List.mem_append]; exact Or.inl (Or.inr h), e⟩,
            lv', by simp only [levelsOf, List.mem_append]; exact Or.inl (Or.inr h'), e'⟩
      · left
        refine ⟨⟨.dim d, .dense⟩, ?_, rfl⟩
        simp only [levelsOf, List.mem_append, List.mem_map, mem_range]
        exact Or.inr ⟨d, by omega, rfl⟩

end Sparsity

/-- The encoding is the text of a map from `ndim` variables to levels, each level using a declared
variable, and the level coordinates determine the index along every dimension (so each dimension is
used, and used fully). -/
theorem C20_well_formed (t : Tensor) (s : Text) (h : sparsityEncoding t = .ok s)
    (hd : t.sparseDim + t.denseDim ≤ t.ndim) :
    ∃ levels : List Level, s = encodingText t.ndim levels t.idxBits ∧
      (∀ l ∈ levels, l.expr.var < t.ndim) ∧ (∀ d, d < t.ndim → ∃ l ∈ levels, l.expr.var = d) ∧
      ∀ idx idx' : Nat → Nat, (∀ l ∈ levels, l.expr.eval idx = l.expr.eval idx') →
        ∀ d, d < t.ndim → idx d = idx' d := by
  obtain ⟨bm, bn, htext, -, h2, h2'⟩ := sparsityEncoding_text h hd
  obtain ⟨hv, hu⟩ := levels_ok (bm := bm) (bn := bn) hd h2 h2'
  refine ⟨levelsOf t bm bn, htext, hv, ?_, ?_⟩
  · intro d hdn
    rcases hu d hdn with ⟨lv, hm, e⟩ | ⟨k, ⟨lv, hm, e⟩, -⟩
    · exact ⟨lv, hm, by rw [e]; rfl⟩
    · exact ⟨lv, hm, by rw [e]; rfl⟩
  · intro idx idx' heq d hdn
    rcases hu d hdn with ⟨lv, hm, e⟩ | ⟨k, ⟨lv, hm, e⟩, lv', hm', e'⟩
    · have := heq lv hm
      rw [e] at this
      exact this
    · have h1 := heq lv hm
      have h3 := heq lv' hm'
      rw [e] at h1; rw [e'] at h3
      simp only [LvlExpr.eval] at h1 h3
      rw [← Nat.div_add_mod (idx d) k, ← Nat.div_add_mod (idx' d) k, h1, h3]

/-- The encoding exists for every tensor torch can make, COO tensors with a single sparse dimension
excepted (they are refused). -/
theorem C20_total (t : Tensor) (ht : t.Ok) (hcoo : t.layout = .coo → 2 ≤ t.sparseDim) :
    ∃ s, sparsityEncoding t = .ok s := by
  have : ∃ s, sparseLvls t = .ok s := by
    unfold sparseLvls
    dsimp only
    cases hl : t.layout <;> dsimp only
    · exact ⟨_, if_pos (hcoo hl)⟩
    · exact ⟨_, if_pos (ht.two (by simp [hl]))⟩
    · exact ⟨_, if_pos (ht.two (by simp [hl]))⟩
    all_goals
      have h2 := ht.two (by simp [hl])
      have hb := ht.block (by simp [hl])
      rw [if_pos h2]
      have hlen : (pySlice t.valuesShape (t.batchDim + 1) (t.batchDim + 3)).length = 2 := by
        have e1 : pySliceBound t.valuesShape.length ((t.batchDim : Int) + 1) = t.batchDim + 1 := by
          unfold pySliceBound
          dsimp only
          split <;> omega
        have e2 : pySliceBound t.valuesShape.length ((t.batchDim : Int) + 3) = t.batchDim + 3 := by
          unfold pySliceBound
          dsimp only
          split <;> omega
        unfold pySlice
        rw [e1, e2]
        simp
        omega
      match hp : pySlice t.valuesShape (t.batchDim + 1) (t.batchDim + 3), hlen with
      | [m, n], _ => exact ⟨_, rfl⟩
  obtain ⟨s, hs⟩ := this
  unfold sparsityEncoding
  dsimp only
  rw [hs]
  exact ⟨_, rfl⟩

/-- A batched CSR tensor with a dense dimension. -/
example : (sparsityEncoding ⟨.csr, 4, 2, 1, [], 64⟩).toOption.map String.ofList =
    some "#sparse_tensor.encoding<{map=(d0,d1,d2,d3)->(d0:batch,d1:dense,d2:compressed,d3:dense),posWidth=64,crdWidth=64}>" := by
  decide +kernel

/-- A three-dimensional COO tensor. -/
example : (sparsityEncoding ⟨.coo, 3, 3, 0, [], 64⟩).toOption.map String.ofList =
    some "#sparse_tensor.encoding<{map=(d0,d1,d2)->(d0:compressed(nonunique),d1:singleton(nonunique,soa),d2:singleton(soa)),posWidth=64,crdWidth=64}>" := by
  decide +kernel

/-! ## C58 -/

/-- A row-major blocked tensor (BSR) with block shape `[m, n]`: the row dimension (`batch`) is divided
by `m`, the column dimension (`batch + 1`) by `n`; block row, block column, row and column within the
block in that order, which is how torch stores the values. -/
theorem C58_partial (t : Tensor) (s : Text) (m n : Nat) (h : sparsityEncoding t = .ok s)
    (hd : t.sparseDim + t.denseDim ≤ t.ndim) (hl : t.layout = .bsr)
    (hb : pySlice t.valuesShape (t.batchDim + 1) (t.batchDim + 3) = [m, n]) :
    ∃ batch dense : List Level, s = encodingText t.ndim (batch ++
        [⟨.floordiv t.batchDim m, .dense⟩, ⟨.floordiv (t.batchDim + 1) n, .compressed⟩,
         ⟨.mod t.batchDim m, .dense⟩, ⟨.mod (t.batchDim + 1) n, .dense⟩] ++ dense) t.idxBits ∧
      (∀ l ∈ batch, ∃ d, d < t.batchDim ∧ l = ⟨.dim d, .batch⟩) ∧
      (∀ l ∈ dense, ∃ d, t.batchDim + 2 ≤ d ∧ l = ⟨.dim d, .dense⟩) := by
  obtain ⟨bm, bn, htext, hblock, h2, h2'⟩ := sparsityEncoding_text h hd
  have h2'' := h2' (by rw [hl]; decide)
  have := hblock (Or.inl hl)
  rw [hb] at this
  cases this
  refine ⟨(List.range t.batchDim).map (fun d => (⟨.dim d, .batch⟩ : Level)),
    (range (t.batchDim + t.sparseDim) t.ndim).map (fun d => (⟨.dim d, .dense⟩ : Level)), ?_, ?_, ?_⟩
  · rw [htext]
    unfold levelsOf
    rw [hl]
    simp only [sparseLevels]
  · intro l hl
    obtain ⟨d, hd, rfl⟩ := List.mem_map.mp hl
    exact ⟨d, List.mem_range.mp hd, rfl⟩
  · intro l hl
    obtain ⟨d, hd, rfl⟩ := List.mem_map.mp hl
    exact ⟨d, by have := (mem_range.mp hd).1; omega, rfl⟩

/-- For a column-major blocked tensor (BSC) with blocks of 2 rows and 3 columns, the importer divides
the column dimension `d1` by 2 and the row dimension `d0` by 3. -/
theorem C58_violated : (sparsityEncoding ⟨.bsc, 2, 2, 0, [4, 2, 3], 64⟩).toOption.map String.ofList =
    some "#sparse_tensor.encoding<{map=(d0,d1)->(d1 floordiv 2:dense,d0 floordiv 3:compressed,d1 mod 2:dense,d0 mod 3:dense),posWidth=64,crdWidth=64}>" := by
  decide +kernel

end Verif
