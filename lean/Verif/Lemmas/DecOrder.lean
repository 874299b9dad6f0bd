import Verif.Lemmas.DecTurn

namespace Verif.Dec

open Lin

variable {E : Type}

/-! ## Permutations -/

theorem names_cast {r : Nat} : ∀ {ds : List Nat}, (∀ d ∈ ds, d < r) → Names r (ds.map fun (d : Nat) => (d : Int)) ds := by
  intro ds
  induction ds with
  | nil => intro _; exact .nil
  | cons d ds ih => intro h; exact .cons ⟨h d (by simp), .inl rfl⟩ (ih fun e he => h e (by simp [he]))

theorem map_getD_range (j : List Int) : (List.range j.length).map (fun (d : Nat) => j.getD d 0) = j := by
  apply ext_getD (by simp)
  intro k hk
  simp only [List.length_map, List.length_range] at hk
  rw [List.getD_eq_getElem?_getD, List.getElem?_map, List.getElem?_range hk]
  rfl

theorem permute_of {x : Tensor E} {ds : List Nat} (hp : ds.Perm (List.range x.sizes.length)) :
    ∃ t, permute x (ds.map fun (d : Nat) => (d : Int)) = some t ∧ t.sizes = ds.map (fun d => x.sizes.getD d 0) ∧
      ∀ j, inRange x.sizes j = true → t.elem (ds.map fun d => j.getD d 0) = x.elem j := by
  have hlt : ∀ d ∈ ds, d < x.sizes.length := fun d hd => List.mem_range.1 (hp.subset hd)
  have hlen : ds.length = x.sizes.length := by rw [hp.length_eq, List.length_range]
  have hnd : ds.Nodup := hp.nodup_iff.2 List.nodup_range
  refine ⟨⟨ds.map (fun d => x.sizes.getD d 0), fun idx => x.elem ((List.range ds.length).map fun (d : Nat) => idx.getD (ds.idxOf d) 0)⟩, ?_, rfl, ?_⟩
  · unfold permute
    rw [wrapDims_of (names_cast hlt)]
    exact if_pos ⟨hnd, hlen⟩
  · intro j hj
    have hl := inRange_length hj
    show x.elem _ = _
    congr 1
    rw [hlen, ← hl]
    refine Eq.trans ?_ (map_getD_range j)
    apply List.map_congr_left
    intro k hk
    have hmem : k ∈ ds := hp.symm.subset (by rw [← hl]; exact hk)
    have hi := List.idxOf_lt_length_of_mem hmem
    rw [List.getD_eq_getElem?_getD, List.getElem?_map, List.getElem?_eq_getElem hi, List.getElem_idxOf hi]
    rfl

theorem numpyT_ok (x : Tensor E) : ∃ t, decNumpyT x = some t ∧ IsReversalOf t x := by
  obtain ⟨t, h1, h2, h3⟩ := permute_of (x := x) (ds := (List.range x.sizes.length).reverse) (List.reverse_perm _)
  refine ⟨t, h1, ?_, fun j hj => ?_⟩
  · rw [h2, List.map_reverse, map_getD_range]
  · have := h3 j hj
    rwa [List.map_reverse, ← inRange_length hj, map_getD_range] at this

theorem order_perm {s d r : Nat} (hs : s < r) (hd : d < r) : (moveDimOrder s d r).Perm (List.range r) := by
  unfold moveDimOrder
  have hl : ((List.range r).eraseIdx s).length = r - 1 := by rw [List.length_eraseIdx_of_lt (by simpa using hs), List.length_range]
  have h1 := List.perm_insertIdx s ((List.range r).eraseIdx s) (i := d) (by omega)
  refine h1.trans ?_
  have h2 := List.getElem_cons_eraseIdx_perm (l := List.range r) (n := s) (by simpa using hs)
  rwa [List.getElem_range] at h2

theorem order_map {s d : Nat} {j : List Int} (hs : s < j.length) (hd : d < j.length) :
    (moveDimOrder s d j.length).map (fun k => j.getD k 0) = (j.eraseIdx s).insertIdx d (j.getD s 0) := by
  unfold moveDimOrder
  rw [List.map_insertIdx, ← List.eraseIdx_map, map_getD_range]

theorem movedim_ok {x : Tensor E} {source destination : Int} {s d : Nat} (hs : Dim x.sizes.length source s) (hd : Dim x.sizes.length destination d) :
    ∃ t, decMovedim x source destination = .ok t ∧ IsMoveOf t x s d := by
  have hsl := hs.1
  have hdl := hd.1
  unfold decMovedim
  by_cases h1 : x.sizes.length ≤ 1
  · rw [if_pos h1]
    have hs0 : s = 0 := by omega
    have hd0 : d = 0 := by omega
    subst hs0; subst hd0
    exact ⟨x, rfl, (insert_erase _ _ hsl).symm, fun j hj => by rw [insert_erase _ _ (by rw [inRange_length hj]; exact hsl)]⟩
  · rw [if_neg h1, wrapDim_of hs, wrapDim_of hd]
    obtain ⟨t, h1, h2, h3⟩ := permute_of (order_perm hsl hdl)
    refine ⟨t, by simp only [h1]; rfl, ?_, fun j hj => ?_⟩
    · rw [h2, order_map hsl hdl]
    · have hl := inRange_length hj
      have := h3 j hj
      rwa [← hl, order_map (by omega) (by omega)] at this

theorem t_ok {x : Tensor E} (h : x.sizes.length ≤ 2) : ∃ t, decT x = .ok t ∧ IsReversalOf t x := by
  unfold decT
  rw [if_neg (by omega)]
  by_cases h2 : x.sizes.length < 2
  · rw [if_pos h2]
    have hr : ∀ l : List Int, l.length < 2 → l.reverse = l := by
      intro l hl
      match l, hl with
      | [], _ => rfl
      | [a], _ => rfl
      | _ :: _ :: _, hl => simp at hl; omega
    exact ⟨x, rfl, (hr _ h2).symm, fun j hj => by rw [hr _ (by rw [inRange_length hj]; exact h2)]⟩
  · rw [if_neg h2]
    have hd0 : Dim x.sizes.length 0 0 := ⟨by omega, .inl rfl⟩
    have hd1 : Dim x.sizes.length 1 1 := ⟨by omega, .inl rfl⟩
    rw [transpose_of hd0 hd1]
    have hr : ∀ l : List Int, l.length = 2 → swapAt 0 1 l = l.reverse ∧ swapAt 0 1 l.reverse = l := by
      intro l hl
      match l, hl with
      | [a, b], _ => exact ⟨rfl, rfl⟩
    refine ⟨_, rfl, (hr _ (by omega)).1, fun j hj => ?_⟩
    show x.elem (swapAt 0 1 j.reverse) = _
    rw [(hr j (by rw [inRange_length hj]; omega)).2]

/-! ## Scatters -/

theorem selectScatter_ok {x src : Tensor E} {dim index i : Int} {d : Nat} (h : Dim x.sizes.length dim d) (hsrc : src.sizes = x.sizes.eraseIdx d)
    (hi : 0 ≤ i ∧ i < x.sizes.getD d 0) (hx : index = i ∨ (index = i - x.sizes.getD d 0 ∧ i < x.sizes.getD d 0 - 1)) :
    ∃ t, decSelectScatter x src dim index = some t ∧ IsSelectScatterOf t x src d i := by
  have hd := h.1
  have hsl : src.sizes.length + 1 = x.sizes.length := by rw [hsrc, length_erase _ _ hd]; omega
  have hs : clampBound (x.sizes.getD d 0) index = i := by
    rcases hx with hx | hx
    · rw [clampBound_in (by omega)]; exact hx
    · rw [clampBound_neg (by omega)]; omega
  have he : clampBound (x.sizes.getD d 0) (index + 1) = i + 1 := by
    rcases hx with hx | hx
    · rw [clampBound_in (by omega)]; omega
    · rw [clampBound_neg (by omega)]; omega
  unfold decSelectScatter
  rw [unsqueeze_of (by rw [hsl]; exact h)]
  show ∃ t, sliceScatter x (unsq d src) dim index (index + 1) = some t ∧ _
  unfold sliceScatter
  rw [wrapDim_of h]
  simp only [hs, he]
  rw [if_pos]
  · refine ⟨_, rfl, rfl, fun idx hidx => ?_⟩
    have hl := inRange_length hidx
    by_cases hc : idx.getD d 0 = i
    · rw [if_pos hc]
      show (if _ then _ else _) = _
      rw [if_pos (by omega)]
      show src.elem ((idx.set d _).eraseIdx d) = _
      rw [set_erase]
    · rw [if_neg hc]
      show (if _ then _ else _) = _
      rw [if_neg (by omega)]
  · show src.sizes.insertIdx d 1 = _
    rw [hsrc]
    apply ext_getD
    · rw [length_insert _ _ _ (by rw [length_erase _ _ hd]; omega), length_erase _ _ hd, List.length_set]; omega
    · intro k hk
      rw [getD_insert _ _ _ _ (by rw [length_erase _ _ hd]; omega), getD_set, getD_erase, getD_erase]
      rw [length_insert _ _ _ (by rw [length_erase _ _ hd]; omega), length_erase _ _ hd] at hk
      by_cases h1 : k < d
      · rw [if_pos h1, if_pos h1, if_neg (by omega)]
      · rw [if_neg h1]
        by_cases h2 : k = d
        · rw [if_pos h2, if_pos (by omega)]; omega
        · rw [if_neg h2, if_neg (by omega), if_neg (by omega), show k - 1 + 1 = k by omega]

theorem selectScatter_last {x src : Tensor E} {dim : Int} {d : Nat} (h : Dim x.sizes.length dim d) (hsrc : src.sizes = x.sizes.eraseIdx d)
    (hn : 1 ≤ x.sizes.getD d 0) : decSelectScatter x src dim (-1) = none := by
  have hd := h.1
  have hsl : src.sizes.length + 1 = x.sizes.length := by rw [hsrc, length_erase _ _ hd]; omega
  unfold decSelectScatter
  rw [unsqueeze_of (by rw [hsl]; exact h)]
  show sliceScatter x (unsq d src) dim (-1) (-1 + 1) = none
  unfold sliceScatter
  rw [wrapDim_of h]
  simp only []
  rw [if_neg]
  intro hc
  have hg := congrArg (fun (l : List Int) => l.getD d 0) hc
  replace hg : (src.sizes.insertIdx d 1).getD d 0 = _ := hg
  rw [getD_insert_self _ _ _ (by omega), getD_set, if_pos ⟨rfl, hd⟩, clampBound_in (i := -1 + 1) (by omega), clampBound_neg (i := -1) (by omega)] at hg
  omega

/-! ## Dimensions of size one -/

theorem without_from (ds : List Nat) (i : Nat) (l : List Int) (h : ∀ e ∈ ds, e < i) :
    ((l.zipIdx i).filter fun p => decide (p.2 ∉ ds)).map (·.1) = l := by
  induction l generalizing i with
  | nil => rfl
  | cons a l ih =>
    rw [List.zipIdx_cons, List.filter_cons_of_pos (by
      simp only [decide_eq_true_eq]
      intro hc
      have := h i hc
      omega), List.map_cons, ih (i + 1) (fun e he => by have := h e he; omega)]

theorem without_erase (d : Nat) (ds : List Nat) (h : ∀ e ∈ ds, e < d) (l : List Int) (i : Nat) (hi : i ≤ d) :
    ((l.zipIdx i).filter fun p => decide (p.2 ∉ d :: ds)).map (·.1) = (((l.eraseIdx (d - i)).zipIdx i).filter fun p => decide (p.2 ∉ ds)).map (·.1) := by
  induction l generalizing i with
  | nil => rfl
  | cons a l ih =>
    rw [List.zipIdx_cons]
    by_cases hd : i = d
    · subst hd
      rw [List.filter_cons_of_neg (by simp), Nat.sub_self]
      show _ = ((l.zipIdx i).filter _).map _
      rw [without_from ds i l h, without_from (i :: ds) (i + 1) l]
      intro e he
      rcases List.mem_cons.1 he with rfl | he
      · omega
      · have := h e he; omega
    · rw [show d - i = (d - (i + 1)) + 1 by omega, List.eraseIdx_cons_succ, List.zipIdx_cons]
      have := ih (i + 1) (by omega)
      by_cases hm : i ∈ ds
      · rw [List.filter_cons_of_neg (by simp [hm]), List.filter_cons_of_neg (by simp [hm])]
        exact this
      · rw [List.filter_cons_of_pos (by simp [hm, hd]), List.filter_cons_of_pos (by simp [hm]), List.map_cons, List.map_cons, this]

theorem without_cons (d : Nat) (ds : List Nat) (h : ∀ e ∈ ds, e < d) (l : List Int) : without (d :: ds) l = without ds (l.eraseIdx d) :=
  without_erase d ds h l 0 (by omega)

theorem squeezeDim_of {x : Tensor E} {dim : Int} {d : Nat} (h : Dim x.sizes.length dim d) (h1 : x.sizes.getD d 0 = 1) :
    squeezeDim x dim = some ⟨x.sizes.eraseIdx d, fun idx => x.elem (idx.insertIdx d 0)⟩ := by
  unfold squeezeDim
  rw [wrapDim_of h]
  exact if_pos h1

theorem squeeze_loop : ∀ (ds : List Nat), ds.Pairwise (· > ·) → ∀ (x : Tensor E), (∀ d ∈ ds, x.sizes[d]? = some 1) →
    ∃ t, squeezeLoop x (ds.map fun (d : Nat) => (d : Int)) = some t ∧ IsDropOf t x ds := by
  intro ds
  induction ds with
  | nil =>
    intro _ x _
    refine ⟨x, rfl, ?_, fun j _ => ?_⟩
    · exact (without_from [] 0 x.sizes (by simp)).symm
    · show x.elem ((j.zipIdx.filter _).map _) = _
      rw [without_from [] 0 j (by simp)]
  | cons d ds ih =>
    intro hp x h1
    rw [List.pairwise_cons] at hp
    have hx := h1 d (by simp)
    have hd : d < x.sizes.length := (List.getElem?_eq_some_iff.1 hx).1
    have hg : x.sizes.getD d 0 = 1 := by rw [List.getD_eq_getElem?_getD, hx]; rfl
    have hD : Dim x.sizes.length (d : Int) d := ⟨hd, .inl rfl⟩
    obtain ⟨t, ht, hs, he⟩ := ih hp.2 ⟨x.sizes.eraseIdx d, fun idx => x.elem (idx.insertIdx d 0)⟩ (by
      intro e he
      have := hp.1 e he
      show (x.sizes.eraseIdx d)[e]? = _
      rw [List.getElem?_eraseIdx, if_pos (by omega)]
      exact h1 e (by simp [he]))
    refine ⟨t, ?_, ?_, ?_⟩
    · rw [List.map_cons]
      unfold squeezeLoop
      rw [sizeInt_of hD]
      show (if _ then _ else _) = _
      rw [if_pos hg, squeezeDim_of hD hg]
      exact ht
    · rw [hs, without_cons d ds (fun e he => hp.1 e he)]
    · intro j hj
      rw [without_cons d ds (fun e he => hp.1 e he), he _ (inRange_erase d hj)]
      show x.elem ((j.eraseIdx d).insertIdx d 0) = _
      have hjl := inRange_length hj
      have hb := inRange_getD hj hd
      have := insert_erase j d (by omega)
      rw [show j.getD d 0 = 0 by omega] at this
      rw [this]

theorem without_congr {ds ds' : List Nat} (h : ds.Perm ds') (l : List Int) : without ds l = without ds' l := by
  unfold without
  congr 2
  funext p
  simp [h.mem_iff]

theorem sortDown_cast (ds : List Nat) : ∃ es : List Nat, sortDown (ds.map fun (d : Nat) => (d : Int)) = es.map (fun (d : Nat) => (d : Int)) ∧
    es.Perm ds ∧ es.Pairwise (· ≥ ·) := by
  refine ⟨ds.mergeSort fun a b => decide (b ≤ a), ?_, List.mergeSort_perm _ _, ?_⟩
  · unfold sortDown
    rw [List.map_mergeSort]
    intro a _ b _
    simp
  · have := List.pairwise_mergeSort (le := fun a b : Nat => decide (b ≤ a)) (fun a b c h1 h2 => by simp at *; omega) (fun a b => by simp; omega) ds
    exact this.imp (fun h => by simpa using h)

theorem primsSqueeze_ok {x : Tensor E} {ds : List Nat} (hn : ds.Nodup) (h1 : ∀ d ∈ ds, x.sizes[d]? = some 1) :
    ∃ t, decPrimsSqueeze x (ds.map fun (d : Nat) => (d : Int)) = some t ∧ IsDropOf t x ds := by
  obtain ⟨es, h2, h3, h4⟩ := sortDown_cast ds
  have hen : es.Nodup := h3.nodup_iff.2 hn
  have hgt : es.Pairwise (· > ·) := by
    have := List.Pairwise.and h4 hen
    exact this.imp (fun h => by have := h.1; have := h.2; omega)
  obtain ⟨t, ht, hs, he⟩ := squeeze_loop es hgt x (fun d hd => h1 d (h3.subset hd))
  refine ⟨t, ?_, ?_, fun j hj => ?_⟩
  · unfold decPrimsSqueeze
    rw [h2, ht]
  · rw [hs, without_congr h3]
  · rw [← without_congr h3]; exact he j hj

theorem atleast1d_ok (x : Tensor E) : ∃ t, decAtleast1d x = some t ∧ IsAtleast t x 1 := by
  unfold decAtleast1d
  by_cases h : x.sizes = []
  · rw [if_pos h, unsqueeze_of (dim := 0) (d := 0) ⟨by omega, .inl rfl⟩]
    refine ⟨_, rfl, ?_, fun j hj => ?_⟩
    · show x.sizes.insertIdx 0 1 = _
      rw [h]; rfl
    · rw [h]; rfl
  · rw [if_neg h]
    have hl : 1 - x.sizes.length = 0 := by have := List.length_pos_iff.2 h; omega
    refine ⟨x, rfl, ?_, fun j hj => ?_⟩ <;> rw [hl] <;> rfl

theorem atleast2d_ok (x : Tensor E) : ∃ t, decAtleast2d x = some t ∧ IsAtleast t x 2 := by
  unfold decAtleast2d
  by_cases h2 : 2 ≤ x.sizes.length
  · rw [if_pos h2]
    have hl : 2 - x.sizes.length = 0 := by omega
    refine ⟨x, rfl, ?_, fun j hj => ?_⟩ <;> rw [hl] <;> rfl
  · rw [if_neg h2]
    obtain ⟨t, h3, h4, h5⟩ := atleast1d_ok x
    rw [h3]
    show ∃ u, unsqueeze t 0 = some u ∧ _
    rw [unsqueeze_of (dim := 0) (d := 0) ⟨by omega, .inl rfl⟩]
    have hl : 2 - x.sizes.length = (1 - x.sizes.length) + 1 := by omega
    refine ⟨_, rfl, ?_, fun j hj => ?_⟩
    · show t.sizes.insertIdx 0 1 = _
      rw [h4, hl, List.replicate_succ]; rfl
    · rw [hl, List.replicate_succ]
      exact h5 j hj

end Verif.Dec
