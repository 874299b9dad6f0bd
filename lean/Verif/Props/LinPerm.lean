import Verif.Lemmas.LinPerm

/-!
# C87: flips, permutations and concatenation in the linalg backend
-/

namespace Verif

open Lin

variable {E : Type}

/-- The lowering of `aten.flip` reverses the dimensions named.  What is missing: a dimension named twice (`C87_violated_flip`). -/
theorem C87_flip_partial (x : Tensor E) (hx : x.Ok) (dims : List Int) (ds : List Nat) (h : Names x.sizes.length dims ds) (hn : ds.Nodup) :
    ∃ t, lowerFlip x dims = some t ∧ t.Ok ∧ IsFlipOf t x ds := by
  have hlt := names_lt h
  have hmap := names_map h (fun d => Tm.positiveDim d x.sizes.length) fun dim d hd hdim => (dim_eq' hd hdim).1
  have heq : lowerFlip x dims = some (flipTensor x ds) := by
    unfold lowerFlip
    simp only [hmap, map_toNat]
    rw [if_pos]
    rw [List.all_map, List.all_eq_true]
    intro d hd
    exact (dim_eq' (hlt d hd) (Or.inl rfl)).2
  have hin : ∀ idx, inRange x.sizes idx = true → inRange x.sizes (flipIndex x.sizes ds idx) = true := by
    intro idx hi
    rw [flipIndex_eq x.sizes ds hn hlt idx (inRange_length hi)]
    rw [inRange_iff] at hi ⊢
    refine ⟨by rw [List.length_map, List.length_zipIdx]; exact hi.1, fun d n i hdn hdi => ?_⟩
    rw [List.getElem?_map, List.getElem?_zipIdx] at hdi
    cases hd : idx[d]? with
    | none => rw [hd] at hdi; cases hdi
    | some v =>
      have := hi.2 d n v hdn hd
      rw [hd] at hdi
      simp only [Option.map_some, Option.some.injEq, Nat.zero_add, List.getD_eq_getElem?_getD, hdn, Option.getD_some] at hdi
      by_cases hm : d ∈ ds
      · rw [if_pos hm] at hdi; omega
      · rw [if_neg hm] at hdi; omega
  refine ⟨_, heq, ⟨hx.1, fun idx hi => ?_⟩, rfl, fun idx hi => ?_⟩
  · show ∃ e, x.get _ = some e
    rw [get_of_range (hin idx hi)]
    exact hx.2 _ (hin idx hi)
  · show x.get _ = _
    rw [get_of_range (hin idx hi), flipIndex_eq x.sizes ds hn hlt idx (inRange_length hi)]

/-- The lowering of `aten.permute` puts the dimensions in the order given. -/
theorem C87_permute (x : Tensor E) (hx : x.Ok) (dims : List Int) (ds : List Nat) (h : Names x.sizes.length dims ds)
    (hp : ds.Perm (List.range x.sizes.length)) : ∃ t, lowerPermute x dims = some t ∧ t.Ok ∧ IsPermuteOf t x ds := by
  have hlt := names_lt h
  have hlen : ds.length = x.sizes.length := by rw [hp.length_eq, List.length_range]
  have hdl : dims.length = x.sizes.length := by rw [← hlen]; exact h.length_eq
  have hmap := names_map h (fun d => if d < 0 then Tm.positiveDim d x.sizes.length else d) fun dim d hd hdim => by
    by_cases h0 : dim < 0
    · rw [if_pos h0, (dim_eq' hd hdim).1]
    · rw [if_neg h0]; omega
  have hself : ds = List.range x.sizes.length → IsPermuteOf x x ds := by
    rintro rfl
    refine ⟨(range_getD _).symm, fun j hj => ?_, fun idx hi => ⟨idx, hi, ?_⟩⟩
    · rw [← inRange_length hj, range_getD]
    · rw [← inRange_length hi, range_getD]
  by_cases h0 : x.sizes.length = 0
  · refine ⟨x, if_pos h0, hx, hself ?_⟩
    rw [h0] at hlen ⊢
    exact List.length_eq_zero_iff.1 hlen
  · have hall : (ds.map (fun d : Nat => (d : Int))).all (fun d => Tm.validDim d x.sizes.length) = true := by
      rw [List.all_map, List.all_eq_true]
      intro d hd
      exact (dim_eq' (hlt d hd) (Or.inl rfl)).2
    have heq : lowerPermute x dims = if ds.map (fun d : Nat => (d : Int)) = (List.range x.sizes.length).map (fun i : Nat => (i : Int)) then some x
        else linalgTranspose x ds := by
      unfold lowerPermute
      simp only [if_neg h0, if_neg (show ¬dims.length ≠ x.sizes.length by omega), hmap, hall, Bool.not_true, Bool.false_eq_true, if_false, map_toNat]
    by_cases hid : ds.map (fun d : Nat => (d : Int)) = (List.range x.sizes.length).map (fun i : Nat => (i : Int))
    · rw [if_pos hid] at heq
      refine ⟨x, heq, hx, hself ?_⟩
      have := congrArg (List.map Int.toNat) hid
      rwa [map_toNat, map_toNat] at this
    · rw [if_neg hid] at heq
      rw [heq]
      exact transpose_perm x hx ds hp

/-- Dimensions that are no permutation are turned down. -/
theorem C87_permute_rejects (x : Tensor E) (h0 : 0 < x.sizes.length) (dims : List Int) (t : Tensor E) (h : lowerPermute x dims = some t) :
    ∃ ds, Names x.sizes.length dims ds ∧ ds.Perm (List.range x.sizes.length) := by
  obtain ⟨r, hr⟩ : ∃ r, r = x.sizes.length := ⟨_, rfl⟩
  unfold lowerPermute at h
  rw [← hr] at h h0 ⊢
  simp only [if_neg (show ¬r = 0 by omega)] at h
  by_cases hl : dims.length ≠ r
  · rw [if_pos hl] at h; cases h
  rw [if_neg hl] at h
  by_cases hall : (dims.map fun d => if d < 0 then Tm.positiveDim d r else d).all (fun d => Tm.validDim d r) = true
  · simp only [hall, Bool.not_true, Bool.false_eq_true, if_false] at h
    refine ⟨(dims.map fun d => if d < 0 then Tm.positiveDim d r else d).map Int.toNat, ?_, ?_⟩
    · rw [List.all_map, List.all_eq_true] at hall
      unfold Names
      rw [List.map_map, List.forall₂_map_right_iff, List.forall₂_same]
      intro d hd
      have := hall d hd
      simp only [Function.comp, Tm.validDim, decide_eq_true_eq] at this ⊢
      by_cases hneg : d < 0
      · rw [if_pos hneg] at this ⊢
        unfold Tm.positiveDim at this ⊢
        rw [if_neg (by omega)] at this ⊢
        omega
      · rw [if_neg hneg] at this ⊢
        omega
    · by_cases hid : (dims.map fun d => if d < 0 then Tm.positiveDim d r else d) = (List.range r).map (fun i : Nat => (i : Int))
      · rw [hid, map_toNat]
      · rw [if_neg hid] at h
        rw [hr]
        exact transpose_none x _ (by rw [← hr, h]; simp)
  · simp only [Bool.not_eq_true] at hall
    simp only [hall, Bool.not_false, if_true] at h
    cases h

/-- The lowering of `aten.transpose.int` exchanges two dimensions, which may be the same. -/
theorem C87_transpose (x : Tensor E) (hx : x.Ok) (same : Bool) (dim0 dim1 : Int) (a b : Nat) (ha : a < x.sizes.length) (hb : b < x.sizes.length)
    (h0 : dim0 = a ∨ dim0 = (a : Int) - x.sizes.length) (h1 : dim1 = b ∨ dim1 = (b : Int) - x.sizes.length) :
    ∃ t, lowerTranspose x same dim0 dim1 = some t ∧ t.Ok ∧ IsTransposeOf t x a b := by
  have hself : ∀ l : List Int, exchange a a l = l := by
    intro l
    unfold exchange
    rw [List.set_set, set_getD_self]
  by_cases hs : x.sizes.length ≤ 1 ∧ same = true
  · have hab : a = b := by omega
    subst hab
    exact ⟨x, if_pos hs, hx, (hself _).symm, fun j _ => by rw [hself]⟩
  · obtain ⟨e0, v0⟩ := dim_eq' ha h0
    obtain ⟨e1, v1⟩ := dim_eq' hb h1
    have heq : lowerTranspose x same dim0 dim1 = linalgTranspose x (((List.range x.sizes.length).set a b).set b a) := by
      unfold lowerTranspose
      simp only [if_neg hs, e0, e1, v0, v1, Bool.not_true, Bool.false_eq_true, if_false, Int.toNat_natCast]
    have hget : ∀ k, k < x.sizes.length → (((List.range x.sizes.length).set a b).set b a)[k]? = some (if b = k then a else if a = k then b else k) := by
      intro k hk
      rw [List.getElem?_set, List.getElem?_set]
      by_cases hbk : b = k
      · rw [if_pos hbk, if_pos (by simp; omega), if_pos hbk]
      · rw [if_neg hbk, if_neg hbk]
        by_cases hak : a = k
        · rw [if_pos hak, if_pos (by simp; omega), if_pos hak]
        · rw [if_neg hak, if_neg hak, List.getElem?_range hk]
    have hp : (((List.range x.sizes.length).set a b).set b a).Perm (List.range x.sizes.length) := by
      have hsub : List.range x.sizes.length ⊆ ((List.range x.sizes.length).set a b).set b a := by
        intro k hk
        rw [List.mem_range] at hk
        by_cases hbk : b = k
        · refine List.mem_of_getElem? (hget a ha |>.trans ?_)
          by_cases hba : b = a
          · rw [if_pos hba]; congr 1; omega
          · rw [if_neg hba, if_pos rfl, hbk]
        · by_cases hak : a = k
          · refine List.mem_of_getElem? (hget b hb |>.trans ?_)
            rw [if_pos rfl, hak]
          · refine List.mem_of_getElem? (hget k hk |>.trans ?_)
            rw [if_neg hbk, if_neg hak]
      exact ((List.nodup_range.subperm hsub).perm_of_length_le (by simp)).symm
    obtain ⟨t, ht, hok, hsz, hel, -⟩ := transpose_perm x hx _ hp
    have hex : ∀ l : List Int, l.length = x.sizes.length →
        (((List.range x.sizes.length).set a b).set b a).map (fun d => l.getD d 0) = exchange a b l := by
      intro l hl
      apply List.ext_getElem?
      intro k
      unfold exchange
      have hr := List.getElem?_set (l := l.set a (l.getD b 0)) (i := b) (j := k) (a := l.getD a 0)
      rw [List.getElem?_map, hr, List.getElem?_set (l := l), List.length_set]
      by_cases hk : k < x.sizes.length
      · rw [hget k hk]
        simp only [Option.map_some]
        by_cases hbk : b = k
        · rw [if_pos hbk, if_pos hbk, if_pos (by omega)]
        · rw [if_neg hbk, if_neg hbk]
          by_cases hak : a = k
          · rw [if_pos hak, if_pos hak, if_pos (by omega)]
          · rw [if_neg hak, if_neg hak, getElem?_of_lt (by omega)]
      · rw [List.getElem?_eq_none (by simpa using hk), if_neg (by omega), if_neg (by omega), List.getElem?_eq_none (by omega)]
        rfl
    refine ⟨t, heq.trans ht, hok, by rw [hsz, hex _ rfl], fun j hj => ?_⟩
    rw [← hex j (inRange_length hj)]
    exact hel j hj

/-- The lowering of `aten.cat` puts the tensors one after the other.  What is missing: all operands known to be empty
(`C87_violated_empty`), operands of size `[0]` that are not known to be (`C87_violated_dynamic`). -/
theorem C87_cat_partial (r : Nat) (os : List (Operand E)) (dim : Int) (d : Nat) (hd : d < r) (hdim : dim = d ∨ dim = (d : Int) - r)
    (base : List Int) (hf : ∀ o ∈ os, o.Fits r d base) (hex : ∃ o ∈ os, o.type ≠ [some 0] ∧ o.type.getD d none ≠ some 0) :
    ∃ t, lowerCat r os dim = some t ∧ t.Ok ∧ IsCatOf t (os.map (·.tensor)) r d := by
  obtain ⟨e, v⟩ := dim_eq' hd hdim
  have heq : lowerCat r os dim = concat d (os.filter (keepOperand d)) := by
    unfold lowerCat
    simp only [e, v, Bool.not_true, Bool.false_eq_true, if_false, Int.toNat_natCast]
  have hkept : ∃ o ∈ os, keepOperand d o = true := by
    obtain ⟨o, ho, h1, h2⟩ := hex
    refine ⟨o, ho, ?_⟩
    unfold keepOperand
    rw [if_neg, decide_eq_true h2]
    rintro ⟨g1, g2⟩
    apply h1
    match hty : o.type, g1, g2 with
    | [v], _, g2 => rw [List.getD_cons_zero] at g2; rw [g2]
  obtain ⟨S, hS⟩ : ∃ S, S = (os.map fun o => share r d o.tensor).sum := ⟨_, rfl⟩
  have hbase : base.length = r := by
    obtain ⟨o, ho, hk⟩ := hkept
    obtain ⟨h1, h2, -⟩ := kept_full (hf o ho) hk
    rw [← h2, List.length_set, h1]
  have hconcat : concat d (os.filter (keepOperand d)) = some ⟨base.set d S, concatElem d (os.filter (keepOperand d))⟩ := by
    have hmem : ∀ o ∈ os.filter (keepOperand d), o ∈ os ∧ keepOperand d o = true := fun o ho => List.mem_filter.1 ho
    have hsum := sum_filter hd os hf
    rw [← hS] at hsum
    cases hl : os.filter (keepOperand d) with
    | nil =>
      obtain ⟨o, ho, hk⟩ := hkept
      have : o ∈ os.filter (keepOperand d) := List.mem_filter.2 ⟨ho, hk⟩
      rw [hl] at this
      cases this
    | cons o rest =>
      rw [hl] at hmem hsum
      have hrank : ∀ p ∈ o :: rest, p.type.length = r := by
        intro p hp
        obtain ⟨h1, h2⟩ := hmem p hp
        rw [(hf p h1).1.1, (kept_full (hf p h1) h2).1]
      have hall : ((o :: rest).all fun p => decide (p.type.length = o.type.length)) = true := by
        rw [List.all_eq_true]
        intro p hp
        exact decide_eq_true (by rw [hrank p hp, hrank o (by simp)])
      obtain ⟨h1, h2⟩ := hmem o (by simp)
      unfold concat
      dsimp only
      rw [if_pos hall, hsum, ← (kept_full (hf o h1) h2).2.1, List.set_set]
  rw [← heq] at hconcat
  have hshare : ∀ l : List (Operand E), (l.map (·.tensor)).map (share r d) = l.map fun o => share r d o.tensor := by
    intro l; rw [List.map_map]; rfl
  have hsizes : ∀ o ∈ os, o.tensor.sizes.length = r → base.set d S = o.tensor.sizes.set d S := by
    intro o ho hr
    rcases (hf o ho).2.2 with h | h
    · rw [← h.2, List.set_set]
    · have h0 := (hf o ho).1.1
      rw [h] at h0
      simp only [List.length_singleton] at h0
      have hr1 : r = 1 := by omega
      have hd0 : d = 0 := by omega
      subst hd0
      rw [hr1] at hbase hr
      obtain ⟨u, hu⟩ := List.length_eq_one_iff.1 hbase
      obtain ⟨v, hv⟩ := List.length_eq_one_iff.1 hr
      rw [hu, hv]
      rfl
  have hel := concat_elem hd os hf
  have hcov := concat_cover hd hbase os hf
  rw [← hS] at hcov
  refine ⟨_, hconcat, ⟨?_, ?_⟩, ?_, ?_, ?_⟩
  · intro n hn
    rcases List.mem_or_eq_of_mem_set hn with h | rfl
    · obtain ⟨o, ho, hk⟩ := hkept
      obtain ⟨h1, h2, -⟩ := kept_full (hf o ho) hk
      rw [← h2] at h
      rcases List.mem_or_eq_of_mem_set h with h | rfl
      · exact (hf o ho).2.1.1 n h
      · omega
    · rw [hS]
      exact sum_nonneg hd os hf
  · intro idx hi
    obtain ⟨k, o, j, h1, h2, h3⟩ := hcov idx hi
    obtain ⟨e, he⟩ := (hf o (List.mem_of_getElem? h1)).2.1.2 j h2
    refine ⟨e, ?_⟩
    show concatElem d _ idx = _
    rw [h3, hel k o h1 j h2, he]
  · intro x hx hr
    obtain ⟨o, ho, rfl⟩ := List.mem_map.1 hx
    rw [hshare, ← hS]
    exact hsizes o ho hr
  · intro k x hx j hj
    rw [List.getElem?_map] at hx
    cases hk : os[k]? with
    | none => rw [hk] at hx; cases hx
    | some o =>
      rw [hk] at hx
      simp only [Option.map_some, Option.some.injEq] at hx
      subst hx
      rw [← List.map_take, hshare]
      exact hel k o hk j hj
  · intro idx hi
    obtain ⟨k, o, j, h1, h2, h3⟩ := hcov idx hi
    refine ⟨k, o.tensor, j, by rw [List.getElem?_map, h1]; rfl, h2, ?_⟩
    rw [← List.map_take, hshare]
    exact h3

namespace Test87

def iota (sizes : List Int) (v : Int) : Tensor (List Int) := ⟨sizes, fun idx => some (v :: idx)⟩

theorem iota_ok {sizes : List Int} {v : Int} (h : ∀ n ∈ sizes, 0 ≤ n) : (iota sizes v).Ok := ⟨h, fun idx _ => ⟨v :: idx, rfl⟩⟩

example : ∃ t, lowerFlip (iota [2, 3, 4] 0) [-1, 0] = some t ∧ t.Ok ∧ IsFlipOf t (iota [2, 3, 4] 0) [2, 0] :=
  C87_flip_partial _ (iota_ok (by decide)) _ [2, 0] (.cons (by decide) (.cons (by decide) .nil)) (by decide)
example : (lowerFlip (iota [2, 3, 4] 0) [-1, 0]).map (fun t => t.elem [0, 2, 0]) = some (some [0, 1, 2, 3]) := by decide
example : ∃ t, lowerPermute (iota [2, 3, 4] 0) [-1, 0, 1] = some t ∧ t.Ok ∧ IsPermuteOf t (iota [2, 3, 4] 0) [2, 0, 1] :=
  C87_permute _ (iota_ok (by decide)) _ [2, 0, 1] (.cons (by decide) (.cons (by decide) (.cons (by decide) .nil))) (by decide)
example : (lowerPermute (iota [2, 3, 4] 0) [-1, 0, 1]).map (fun t => (t.sizes, t.elem [3, 0, 2])) = some ([4, 2, 3], some [0, 0, 2, 3]) := by decide
example : (lowerPermute (iota [2, 3] 0) [0, 0]).isNone = true := by decide
example : (lowerTranspose (iota [2, 3, 4] 0) false 0 (-1)).map (fun t => (t.sizes, t.elem [3, 2, 1])) = some ([4, 3, 2], some [0, 1, 2, 3]) := by decide
def a : Operand (List Int) := ⟨iota [2, 1] 5, [some 2, none]⟩
def b : Operand (List Int) := ⟨iota [2, 3] 6, [some 2, some 3]⟩
def z : Operand (List Int) := ⟨iota [0] 7, [some 0]⟩
theorem fits_ab : ∀ o ∈ [a, z, b], o.Fits 2 1 [2, 0] := by
  intro o ho
  simp only [List.mem_cons, List.not_mem_nil, or_false] at ho
  rcases ho with rfl | rfl | rfl
  · refine ⟨⟨rfl, fun d n h => ?_⟩, iota_ok (by decide), .inl ⟨rfl, rfl⟩⟩
    match d with
    | 0 => simp [a] at h; simp [a, iota, h]
    | 1 => simp [a] at h
    | d + 2 => simp [a] at h
  · refine ⟨⟨rfl, fun d n h => ?_⟩, iota_ok (by decide), .inr rfl⟩
    match d with
    | 0 => simp [z] at h; simp [z, iota, h]
    | d + 1 => simp [z] at h
  · refine ⟨⟨rfl, fun d n h => ?_⟩, iota_ok (by decide), .inl ⟨rfl, rfl⟩⟩
    match d with
    | 0 => simp [b] at h; simp [b, iota, h]
    | 1 => simp [b] at h; simp [b, iota, h]
    | d + 2 => simp [b] at h
example : ∃ t, lowerCat 2 [a, z, b] (-1) = some t ∧ t.Ok ∧ IsCatOf t [iota [2, 1] 5, iota [0] 7, iota [2, 3] 6] 2 1 :=
  C87_cat_partial 2 [a, z, b] (-1) 1 (by decide) (by decide) [2, 0] fits_ab ⟨a, by simp, by simp [a], by simp [a]⟩
example : (lowerCat 2 [a, z, b] (-1)).map (fun t => (t.sizes, t.elem [1, 0], t.elem [1, 3])) = some ([2, 4], some [5, 1, 0], some [6, 1, 2]) := by decide

end Test87

open Test87

/-- A dimension named twice, which PyTorch rejects, is not flipped at all. -/
theorem C87_violated_flip : (lowerFlip (iota [3] 0) [0, 0]).map (fun t => t.elem [0]) = some (some [0, 0]) := by decide +kernel

/-- The concatenation of tensors known to be empty is empty; the operation made for it has no operands. -/
theorem C87_violated_empty : lowerCat 2 [⟨iota [2, 0] 5, [some 2, some 0]⟩, ⟨iota [2, 0] 6, [some 2, some 0]⟩] 1 = none := rfl

/-- A tensor of size `[0]` can be concatenated with any other, but not if its size is not known. -/
theorem C87_violated_dynamic : lowerCat 2 [⟨iota [0] 5, [none]⟩, b] 1 = none := rfl

end Verif
