import Verif.Lemmas.LinDiag

/-!
# C86: diagonals and windows in the linalg backend
-/

namespace Verif

open Lin

variable {E : Type}

/-- Dimension `d`, counted from the front or from the end. -/
theorem Lin.dim_eq {r : Nat} {dim : Int} {d : Nat} (hd : d < r) (h : dim = d ∨ dim = (d : Int) - r) :
    Tm.positiveDim dim r = d ∧ Tm.validDim (d : Int) r = true := by
  refine ⟨?_, by simp [Tm.validDim, hd]⟩
  unfold Tm.positiveDim
  rcases h with h | h <;> split <;> omega

theorem Lin.hits_one {d m : Nat} (h : d < m) : hits d 0 m = 1 := if_pos (by omega)

/-- The lowering of `aten.diagonal` gives the diagonal, and reads nothing outside of the tensor. -/
theorem C86_diagonal (x : Tensor E) (hx : x.Ok) (offset dim1 dim2 : Int) (d1 d2 : Nat) (h1 : d1 < x.sizes.length) (h2 : d2 < x.sizes.length)
    (hne : d1 ≠ d2) (hd1 : dim1 = d1 ∨ dim1 = (d1 : Int) - x.sizes.length) (hd2 : dim2 = d2 ∨ dim2 = (d2 : Int) - x.sizes.length) :
    ∃ t, lowerDiagonal x offset dim1 dim2 = some t ∧ t.Ok ∧ IsDiagonalOf t x offset d1 d2 := by
  obtain ⟨e1, v1⟩ := dim_eq h1 hd1
  obtain ⟨e2, v2⟩ := dim_eq h2 hd2
  obtain ⟨n1, hn1⟩ : ∃ n : Nat, x.sizes.getD d1 0 = n := ⟨_, (Int.toNat_of_nonneg (hx.1 _ (List.mem_of_getElem? (getElem?_of_lt h1)))).symm⟩
  obtain ⟨n2, hn2⟩ : ∃ n : Nat, x.sizes.getD d2 0 = n := ⟨_, (Int.toNat_of_nonneg (hx.1 _ (List.mem_of_getElem? (getElem?_of_lt h2)))).symm⟩
  obtain ⟨s1, hs1⟩ : ∃ s : Int, s = if decide (offset ≤ 0) then offset * -1 else 0 := ⟨_, rfl⟩
  obtain ⟨s2, hs2⟩ : ∃ s : Int, s = if decide (offset ≤ 0) then 0 else offset := ⟨_, rfl⟩
  obtain ⟨sz, hsz⟩ : ∃ s : Int, s = if decide (offset ≤ 0) then max (min ((n1 : Int) + offset) n2) 0 else max (min ((n2 : Int) - offset) n1) 0 := ⟨_, rfl⟩
  have heq : lowerDiagonal x offset dim1 dim2 = some ⟨othersFrom d1 d2 0 x.sizes ++ [sz], fun idx =>
      x.get (weave x.sizes.length d1 d2 (idx.getD (x.sizes.length - 2) 0 + s1) (idx.getD (x.sizes.length - 2) 0 + s2) idx)⟩ := by
    unfold lowerDiagonal
    simp only [if_neg (show ¬x.sizes.length < 2 by omega), e1, e2, v1, v2, Bool.not_true, Bool.false_eq_true, if_false,
      if_neg (show ¬((d1 : Int) = d2) by omega), Int.toNat_natCast, hn1, hn2, ← hs1, ← hs2, ← hsz]
  have hstart : s1 ≥ 0 ∧ s2 ≥ 0 ∧ s2 - s1 = offset ∧ (s1 = 0 ∨ s2 = 0) := by
    by_cases h : offset ≤ 0
    · simp only [decide_eq_true h, if_true] at hs1 hs2; omega
    · simp only [decide_eq_false h, Bool.false_eq_true, if_false] at hs1 hs2; omega
  have hsize : sz = (Shape.countBelow (x.sizes.getD d1 0).toNat
      (fun i => decide (0 ≤ (i : Int) + offset ∧ (i : Int) + offset < x.sizes.getD d2 0)) : Int) := by
    rw [hn1, hn2, Int.toNat_natCast]
    have h : Shape.countBelow n1 (fun i => decide (0 ≤ (i : Int) + offset ∧ (i : Int) + offset < n2)) =
        Shape.countBelow n1 (fun i => decide ((-offset).toNat ≤ i ∧ i < ((n2 : Int) - offset).toNat)) := by
      apply Shape.countBelow_congr
      intro i _
      apply decide_eq_decide.mpr
      omega
    rw [h, Shape.countBelow_interval, hsz]
    by_cases h : offset ≤ 0
    · simp only [decide_eq_true h, if_true]; omega
    · simp only [decide_eq_false h, Bool.false_eq_true, if_false]; omega
  have hsz' : ∀ k, 0 ≤ k → (k < sz ↔ k + s1 < n1 ∧ k + s2 < n2) := by
    intro k hk
    rw [hsz]
    by_cases h : offset ≤ 0
    · simp only [decide_eq_true h, if_true] at hs1 hs2 ⊢; omega
    · simp only [decide_eq_false h, Bool.false_eq_true, if_false] at hs1 hs2 ⊢; omega
  have hol := othersFrom_length d1 d2 hne x.sizes 0
  rw [hits_one h1, hits_one h2] at hol
  -- an index of the diagonal, woven
  have key : ∀ is k, is.length = (othersFrom d1 d2 0 x.sizes).length → inRange (othersFrom d1 d2 0 x.sizes) is = true → 0 ≤ k → k < sz →
      let j := weave x.sizes.length d1 d2 (k + s1) (k + s2) (is ++ [k])
      inRange x.sizes j = true ∧ j.getD d1 0 = k + s1 ∧ j.getD d2 0 = k + s2 ∧ othersFrom d1 d2 0 j = is := by
    intro is k hl hin hk0 hk1 j
    have hjl : j.length = x.sizes.length := weaveFrom_length _ _ _ _ _ _ _
    have g1 : j.getD d1 0 = k + s1 := (weaveFrom_get d1 d2 _ _ _ 0 _ d1 h1).1 (by omega)
    have g2 : j.getD d2 0 = k + s2 := (weaveFrom_get d1 d2 _ _ _ 0 _ d2 h2).2 (by omega) hne
    have go : othersFrom d1 d2 0 j = is := by
      have := others_weaveFrom d1 d2 hne (k + s1) (k + s2) x.sizes.length 0 (is ++ [k])
        (by rw [hits_one h1, hits_one h2]; simp only [List.length_append, List.length_singleton]; omega)
      rw [hits_one h1, hits_one h2, show x.sizes.length - 1 - 1 = is.length by omega, List.take_left] at this
      exact this
    refine ⟨(inRange_others d1 d2 x.sizes j 0 hjl).2 ⟨by rw [go]; exact hin, ?_⟩, g1, g2, go⟩
    have hb := (hsz' k hk0).1 hk1
    intro i hi _
    rcases hi with hi | hi
    · rw [show i = d1 by omega, g1, hn1]; omega
    · rw [show i = d2 by omega, g2, hn2]; omega
  have hget : ∀ (is : List Int) (k : Int), is.length = (othersFrom d1 d2 0 x.sizes).length → (is ++ [k]).getD (x.sizes.length - 2) 0 = k := by
    intro is k hl
    rw [show x.sizes.length - 2 = is.length by omega, List.getD_eq_getElem?_getD, List.getElem?_append_right (Nat.le_refl _)]
    simp
  refine ⟨_, heq, ⟨?_, ?_⟩, ?_, ?_, ?_⟩
  · intro n hn
    rcases List.mem_append.1 hn with h | h
    · rw [others_eq] at h
      unfold others at h
      obtain ⟨p, hp, rfl⟩ := List.mem_map.1 h
      exact hx.1 _ (List.fst_mem_of_mem_zipIdx (List.mem_filter.1 hp).1)
    · rw [List.mem_singleton] at h
      rw [h, hsize]; omega
  · intro idx hi
    obtain ⟨is, k, rfl, hl, hin, hk⟩ := split_last hi
    have := key is k hl hin hk.1 hk.2
    show ∃ e, x.get (weave _ _ _ ((is ++ [k]).getD _ 0 + s1) ((is ++ [k]).getD _ 0 + s2) _) = some e
    rw [hget is k hl, get_of_range this.1]
    exact hx.2 _ this.1
  · show othersFrom d1 d2 0 x.sizes ++ [sz] = _
    rw [others_eq, hsize]
  · intro j hj hoff
    have hjl := inRange_length hj
    have hir := (inRange_others d1 d2 x.sizes j 0 hjl).1 hj
    have r1 := hir.2 d1 (by omega) h1
    have r2 := hir.2 d2 (by omega) h2
    have hmin : j.getD d1 0 = min (j.getD d1 0) (j.getD d2 0) + s1 ∧ j.getD d2 0 = min (j.getD d1 0) (j.getD d2 0) + s2 := by omega
    have hk0 : 0 ≤ min (j.getD d1 0) (j.getD d2 0) := by omega
    have hol' := othersFrom_length d1 d2 hne j 0
    rw [hits_one (by omega : d1 < j.length), hits_one (by omega : d2 < j.length)] at hol'
    rw [← others_eq]
    constructor
    · show inRange (othersFrom d1 d2 0 x.sizes ++ [sz]) _ = true
      rw [inRange_append (by omega), hir.1]
      simp only [inRange, Bool.and_true, Bool.true_and, decide_eq_true_eq]
      exact ⟨hk0, (hsz' _ hk0).2 (by omega)⟩
    · show x.get (weave _ _ _ ((othersFrom d1 d2 0 j ++ [_]).getD _ 0 + s1) ((othersFrom d1 d2 0 j ++ [_]).getD _ 0 + s2) _) = _
      rw [hget _ _ (by omega), ← hmin.1, ← hmin.2]
      unfold weave
      rw [← hjl, weaveFrom_others d1 d2 _ _ j 0 _ (fun k hk _ => by rw [show k = d1 by omega]) (fun k hk _ => by rw [show k = d2 by omega]),
        get_of_range hj]
  · intro idx hi
    obtain ⟨is, k, rfl, hl, hin, hk⟩ := split_last hi
    obtain ⟨q1, q2, q3, q4⟩ := key is k hl hin hk.1 hk.2
    refine ⟨_, q1, ?_, ?_⟩
    · rw [q2, q3]; omega
    · rw [q2, q3, ← others_eq, q4]
      congr 2
      omega

/-- The lowering of `aten.diag_embed` puts the tensor on the diagonal of a tensor of zeros, and reads nothing outside of the tensor.
What is missing: an empty last dimension with an offset (`C86_violated_embed`). -/
theorem C86_diag_embed_partial (zero : E) (x : Tensor E) (hx : x.Ok) (hr : 0 < x.sizes.length) (offset dim1 dim2 : Int) (d1 d2 : Nat)
    (h1 : d1 < x.sizes.length + 1) (h2 : d2 < x.sizes.length + 1) (hne : d1 ≠ d2)
    (hd1 : dim1 = d1 ∨ dim1 = (d1 : Int) - (x.sizes.length + 1 : Nat)) (hd2 : dim2 = d2 ∨ dim2 = (d2 : Int) - (x.sizes.length + 1 : Nat))
    (h0 : offset = 0 ∨ 0 < x.sizes.getD (x.sizes.length - 1) 0) :
    ∃ t, lowerDiagEmbed zero x offset dim1 dim2 = some t ∧ t.Ok ∧ IsDiagEmbedOf zero t x offset d1 d2 := by
  obtain ⟨e1, v1⟩ := dim_eq h1 hd1
  obtain ⟨e2, v2⟩ := dim_eq h2 hd2
  obtain ⟨n, hn⟩ : ∃ n : Nat, x.sizes.getD (x.sizes.length - 1) 0 = n :=
    ⟨_, (Int.toNat_of_nonneg (hx.1 _ (List.mem_of_getElem? (getElem?_of_lt (by omega))))).symm⟩
  rw [hn] at h0
  obtain ⟨f, hf⟩ : ∃ f : List Int → Option E, f = fun idx =>
      match x.get (othersFrom d1 d2 0 idx ++ [minui (if offset < 0 then idx.getD d2 0 else idx.getD d1 0) ((n : Int) - 1)]) with
      | none => none
      | some e => if (if offset < 0 then idx.getD d1 0 else idx.getD d1 0 + offset) = (if offset < 0 then idx.getD d2 0 + -offset else idx.getD d2 0)
          then some e else some zero := ⟨_, rfl⟩
  have heq : lowerDiagEmbed zero x offset dim1 dim2 = some ⟨weave (x.sizes.length + 1) d1 d2 ((n : Int) + offset.natAbs) (n + offset.natAbs) x.sizes, f⟩ := by
    unfold lowerDiagEmbed
    simp only [e1, e2, v1, v2, Bool.not_true, Bool.false_eq_true, if_false, if_neg (show ¬((d1 : Int) = d2) by omega), Int.toNat_natCast, hn, hf]
    rfl
  obtain ⟨sizes, hs⟩ : ∃ s, s = weave (x.sizes.length + 1) d1 d2 ((n : Int) + offset.natAbs) (n + offset.natAbs) x.sizes := ⟨_, rfl⟩
  rw [← hs] at heq
  have hsl : sizes.length = x.sizes.length + 1 := by rw [hs]; exact weaveFrom_length _ _ _ _ _ _ _
  have g1 : sizes.getD d1 0 = n + offset.natAbs := by rw [hs]; exact (weaveFrom_get d1 d2 _ _ _ 0 _ d1 h1).1 (by omega)
  have g2 : sizes.getD d2 0 = n + offset.natAbs := by rw [hs]; exact (weaveFrom_get d1 d2 _ _ _ 0 _ d2 h2).2 (by omega) hne
  have go : othersFrom d1 d2 0 sizes = x.sizes.dropLast := by
    have := others_weaveFrom d1 d2 hne ((n : Int) + offset.natAbs) (n + offset.natAbs) (x.sizes.length + 1) 0 x.sizes
      (by rw [hits_one h1, hits_one h2]; omega)
    rw [hits_one h1, hits_one h2] at this
    rw [hs, List.dropLast_eq_take]
    exact this
  have hsplit : x.sizes = x.sizes.dropLast ++ [(n : Int)] := by
    have hnil : x.sizes ≠ [] := by rintro h; rw [h] at hr; exact absurd hr (by simp)
    have := List.dropLast_concat_getLast hnil
    rw [← this]
    simp only [List.dropLast_concat]
    congr 2
    rw [← hn, List.getD_eq_getElem?_getD, List.getElem?_eq_getElem (by omega), List.getLast_eq_getElem]
    rfl
  have main : ∀ j, inRange sizes j = true → (∃ e, f j = some e) ∧
      f j = if j.getD d2 0 - j.getD d1 0 = offset then x.elem (others d1 d2 j ++ [min (j.getD d1 0) (j.getD d2 0)]) else some zero := by
    intro j hj
    have hjl := inRange_length hj
    have hir := (inRange_others d1 d2 sizes j 0 hjl).1 hj
    have r1 := hir.2 d1 (by omega) (by omega)
    have r2 := hir.2 d2 (by omega) (by omega)
    rw [g1] at r1
    rw [g2] at r2
    rw [go] at hir
    have hrange : ∀ k, 0 ≤ k → k < (n : Int) → inRange x.sizes (othersFrom d1 d2 0 j ++ [k]) = true := by
      intro k hk0 hk1
      rw [hsplit, inRange_append (inRange_length hir.1), hir.1]
      simp [inRange, hk0, hk1]
    have hpos : 0 < (n : Int) := by omega
    have hclamp : 0 ≤ minui (if offset < 0 then j.getD d2 0 else j.getD d1 0) ((n : Int) - 1) ∧
        minui (if offset < 0 then j.getD d2 0 else j.getD d1 0) ((n : Int) - 1) < n := by
      unfold minui
      rw [if_neg (by omega)]
      by_cases ho : offset < 0
      · rw [if_pos ho]; omega
      · rw [if_neg ho]; omega
    have hr' := hrange _ hclamp.1 hclamp.2
    obtain ⟨e, he⟩ := hx.2 _ hr'
    have hfj : f j = if (if offset < 0 then j.getD d1 0 else j.getD d1 0 + offset) = (if offset < 0 then j.getD d2 0 + -offset else j.getD d2 0)
        then some e else some zero := by
      rw [hf]
      simp only [get_of_range hr', he]
    refine ⟨?_, ?_⟩
    · rw [hfj]
      by_cases h : (if offset < 0 then j.getD d1 0 else j.getD d1 0 + offset) = (if offset < 0 then j.getD d2 0 + -offset else j.getD d2 0)
      · exact ⟨e, if_pos h⟩
      · exact ⟨zero, if_neg h⟩
    · rw [hfj]
      by_cases hd : j.getD d2 0 - j.getD d1 0 = offset
      · rw [if_pos hd, if_pos, ← he, others_eq]
        · congr 3
          unfold minui
          rw [if_neg (by omega)]
          by_cases ho : offset < 0
          · rw [if_pos ho]; omega
          · rw [if_neg ho]; omega
        · by_cases ho : offset < 0
          · rw [if_pos ho, if_pos ho]; omega
          · rw [if_neg ho, if_neg ho]; omega
      · rw [if_neg hd, if_neg]
        by_cases ho : offset < 0
        · rw [if_pos ho, if_pos ho]; omega
        · rw [if_neg ho, if_neg ho]; omega
  refine ⟨_, heq, ⟨fun m hm => ?_, fun j hj => (main j hj).1⟩, ?_, hsl, ?_, fun j hj => (main j hj).2⟩
  · obtain ⟨k, hk⟩ := List.getElem?_of_mem hm
    have hkl : k < sizes.length := (List.getElem?_eq_some_iff.1 hk).1
    by_cases hkd : k = d1 ∨ k = d2
    · have : sizes.getD k 0 = m := by rw [List.getD_eq_getElem?_getD, show sizes[k]? = some m from hk]; rfl
      rcases hkd with rfl | rfl
      · omega
      · omega
    · have hmo : m ∈ others d1 d2 sizes := by
        unfold others
        refine List.mem_map.2 ⟨(m, k), List.mem_filter.2 ⟨?_, by simp only [decide_eq_true_eq]; omega⟩, rfl⟩
        exact List.mem_zipIdx_iff_getElem?.2 hk
      rw [← others_eq, go] at hmo
      exact hx.1 m (List.dropLast_subset _ hmo)
  · show others d1 d2 sizes = _
    rw [← others_eq, go]
  · intro d hd
    show sizes.getD d 0 = _
    rw [hn]
    rcases hd with rfl | rfl
    · exact g1
    · exact g2

/-- The lowering of `aten.unfold` gives the windows, and reads nothing outside of the tensor. -/
theorem C86_unfold (x : Tensor E) (hx : x.Ok) (dim : Int) (d n size step : Nat) (hd : d < x.sizes.length)
    (hdim : dim = d ∨ dim = (d : Int) - x.sizes.length) (hn : x.sizes.getD d 0 = n) (hsize : size ≤ n) (hstep : 0 < step) :
    ∃ t, lowerUnfold x dim size step = some t ∧ t.Ok ∧ IsUnfoldOf t x d n size step := by
  obtain ⟨e, v⟩ := dim_eq hd hdim
  have e' : (if dim < 0 then Tm.positiveDim dim x.sizes.length else dim) = d := by
    by_cases h : dim < 0
    · rw [if_pos h, e]
    · rw [if_neg h]; omega
  obtain ⟨g, hg⟩ : ∃ g : List Int → List Int, g = fun idx : List Int =>
      (List.range x.sizes.length).map fun k => if k = d then idx.getD x.sizes.length 0 + idx.getD d 0 * step else idx.getD k 0 := ⟨_, rfl⟩
  have heq : lowerUnfold x dim size step = some ⟨x.sizes.set d (Shape.windows n size step) ++ [(size : Int)], fun idx => x.get (g idx)⟩ := by
    unfold lowerUnfold
    have hw : ((n : Int) - size) / step + 1 = (Shape.windows n size step : Int) := by
      rw [← Shape.windows_int n size step hstep hsize, Int.fdiv_eq_ediv_of_nonneg _ (by omega)]
    simp only [if_neg (show ¬(step : Int) ≤ 0 by omega), if_neg (show ¬x.sizes.length = 0 by omega), e', v, Bool.not_true, Bool.false_eq_true,
      if_false, Int.toNat_natCast, hn, if_neg (show ¬((size : Int) < 0 ∨ (n : Int) < size) by omega), hw, hg]
  have hgi : ∀ (idx : List Int) (k : Int), idx.length = x.sizes.length → g (idx ++ [k]) = idx.set d (idx.getD d 0 * step + k) := by
    intro idx k hl
    rw [hg]
    apply List.ext_getElem?
    intro i
    rw [List.getElem?_map, List.getElem?_set]
    by_cases hi : i < x.sizes.length
    · rw [List.getElem?_range hi]
      have ha : ∀ m, m < idx.length → (idx ++ [k]).getD m 0 = idx.getD m 0 := by
        intro m hm
        rw [List.getD_eq_getElem?_getD, List.getElem?_append_left hm, List.getD_eq_getElem?_getD]
      have hb : (idx ++ [k]).getD x.sizes.length 0 = k := by
        rw [← hl, List.getD_eq_getElem?_getD, List.getElem?_append_right (Nat.le_refl _)]
        simp
      by_cases hid : d = i
      · subst hid
        rw [if_pos rfl, if_pos (by omega)]
        simp only [Option.map_some, if_true, hb, ha d (by omega)]
        congr 1
        omega
      · rw [if_neg hid]
        simp only [Option.map_some, if_neg (Ne.symm hid), ha i (by omega)]
        exact (getElem?_of_lt (by omega)).symm
    · rw [List.getElem?_eq_none (by simpa using hi), if_neg (by omega), List.getElem?_eq_none (by omega)]
      rfl
  have hin : ∀ (idx : List Int) (k : Int), inRange (x.sizes.set d (Shape.windows n size step) ++ [(size : Int)]) (idx ++ [k]) = true →
      idx.length = x.sizes.length ∧ inRange x.sizes (idx.set d (idx.getD d 0 * step + k)) = true := by
    intro idx k hi
    have hl : idx.length = x.sizes.length := by
      have := inRange_length hi
      simpa using this
    rw [inRange_append (by rw [List.length_set]; exact hl)] at hi
    simp only [inRange, Bool.and_true, Bool.and_eq_true, decide_eq_true_eq] at hi
    refine ⟨hl, inRange_set hi.1 _ ?_⟩
    have hb := inRange_getD hi.1 (d := d) (by rw [List.length_set]; exact hd)
    rw [getD_set_self hd, Shape.windows_eq n size step hstep hsize] at hb
    rw [hn]
    obtain ⟨w, hw⟩ := Int.eq_ofNat_of_zero_le hb.1
    rw [hw] at hb ⊢
    have hw2 : w ≤ (n - size) / step := by omega
    have hw3 : w * step ≤ n - size := (Nat.le_div_iff_mul_le hstep).1 hw2
    have hcast : (w : Int) * step = ((w * step : Nat) : Int) := by push_cast; rfl
    rw [hcast]
    omega
  refine ⟨_, heq, ⟨?_, ?_⟩, rfl, ?_⟩
  · intro m hm
    rcases List.mem_append.1 hm with h | h
    · rcases List.mem_or_eq_of_mem_set h with h | rfl
      · exact hx.1 m h
      · omega
    · rw [List.mem_singleton] at h
      omega
  · intro idx hi
    obtain ⟨is, k, rfl, hl, -⟩ := split_last hi
    obtain ⟨h1, h2⟩ := hin is k hi
    show ∃ e, x.get (g (is ++ [k])) = some e
    rw [hgi is k h1, get_of_range h2]
    exact hx.2 _ h2
  · intro idx k hi
    obtain ⟨h1, h2⟩ := hin idx k hi
    show x.get (g (idx ++ [k])) = _
    rw [hgi idx k h1, get_of_range h2]

/-- Windows larger than the dimension, steps that are not positive, dimensions out of range and equal dimensions are turned down. -/
theorem C86_rejects (zero : E) (x : Tensor E) (offset dim1 dim2 dim size step : Int) (h0 : 0 < x.sizes.length) :
    (Tm.positiveDim dim1 x.sizes.length = Tm.positiveDim dim2 x.sizes.length → lowerDiagonal x offset dim1 dim2 = none) ∧
    (Tm.positiveDim dim1 (x.sizes.length + 1) = Tm.positiveDim dim2 (x.sizes.length + 1) → lowerDiagEmbed zero x offset dim1 dim2 = none) ∧
    (step ≤ 0 → lowerUnfold x dim size step = none) ∧
    (∀ d : Nat, dim = d → size < 0 ∨ x.sizes.getD d 0 < size → lowerUnfold x dim size step = none) ∧
    (dim < -(x.sizes.length : Int) ∨ (x.sizes.length : Int) ≤ dim → lowerUnfold x dim size step = none) := by
  refine ⟨fun h => ?_, fun h => ?_, fun h => ?_, fun d hd h => ?_, fun h => ?_⟩
  · unfold lowerDiagonal
    simp only [h, if_true, ite_self]
  · unfold lowerDiagEmbed
    simp only [h, if_true, ite_self]
  · unfold lowerUnfold
    simp only [if_pos h]
  · unfold lowerUnfold
    subst hd
    simp only [if_neg (show ¬((d : Int) < 0) by omega), Int.toNat_natCast, if_pos h, ite_self, if_neg (show ¬x.sizes.length = 0 by omega)]
  · have hv : Tm.validDim (if dim < 0 then Tm.positiveDim dim x.sizes.length else dim) x.sizes.length = false := by
      unfold Tm.validDim Tm.positiveDim
      simp only [decide_eq_false_iff_not]
      split
      · split <;> omega
      · omega
    unfold lowerUnfold
    simp only [hv, Bool.not_false, if_true, ite_self, if_neg (show ¬x.sizes.length = 0 by omega)]

namespace Test86

def iota (sizes : List Int) : Tensor (List Int) := ⟨sizes, fun idx => some idx⟩

theorem iota_ok {sizes : List Int} (h : ∀ n ∈ sizes, 0 ≤ n) : (iota sizes).Ok := ⟨h, fun idx _ => ⟨idx, rfl⟩⟩

example : ∃ t, lowerDiagonal (iota [4, 2, 3]) (-1) 0 (-1) = some t ∧ t.Ok ∧ IsDiagonalOf t (iota [4, 2, 3]) (-1) 0 2 :=
  C86_diagonal _ (iota_ok (by decide)) _ _ _ 0 2 (by decide) (by decide) (by decide) (by decide) (by decide)
example : (lowerDiagonal (iota [4, 2, 3]) (-1) 0 (-1)).map (fun t => (t.sizes, t.elem [1, 2])) = some ([2, 3], some [3, 1, 2]) := by decide
example : ∃ t, lowerDiagEmbed [] (iota [2, 3]) 1 0 2 = some t ∧ t.Ok ∧ IsDiagEmbedOf [] t (iota [2, 3]) 1 0 2 :=
  C86_diag_embed_partial _ _ (iota_ok (by decide)) (by decide) _ _ _ 0 2 (by decide) (by decide) (by decide) (by decide) (by decide) (by decide)
example : (lowerDiagEmbed [] (iota [2, 3]) 1 0 2).map (fun t => (t.sizes, t.elem [2, 1, 3], t.elem [3, 1, 3])) =
    some ([4, 2, 4], some [1, 2], some []) := by decide
example : ∃ t, lowerUnfold (iota [2, 7]) (-1) 3 2 = some t ∧ t.Ok ∧ IsUnfoldOf t (iota [2, 7]) 1 7 3 2 :=
  C86_unfold _ (iota_ok (by decide)) (-1) 1 7 3 2 (by decide) (by decide) (by decide) (by decide) (by decide)
example : (lowerUnfold (iota [2, 7]) (-1) 3 2).map (fun t => (t.sizes, t.elem [1, 2, 1])) = some ([2, 3, 3], some [1, 5]) := by decide

end Test86

open Test86

/-- An empty tensor put on a diagonal with an offset: the result should be zeros, but each is read from the empty tensor first. -/
theorem C86_violated_embed : (iota [0]).Ok ∧ (lowerDiagEmbed [] (iota [0]) 1 0 1).map (fun t => (t.sizes, t.elem [0, 0])) = some ([1, 1], none) :=
  ⟨iota_ok (by decide), by decide +kernel⟩

/-- A scalar has no window of five elements, but gets one of one element. -/
theorem C86_violated_scalar : (lowerUnfold (iota []) 0 5 1).map (fun t => t.sizes) = some [1] := by decide +kernel

end Verif
