import Verif.Lemmas.DecMove

namespace Verif.Dec

open Lin

variable {E : Type}

/-! ## Flips -/

/-- The index with the dimensions `ds` counted from the end. -/
def flipIdx (ns : List Int) (ds : List Nat) (idx : List Int) : List Int :=
  idx.zipIdx.map fun p => if p.2 ∈ ds then ns.getD p.2 0 - 1 - p.1 else p.1

theorem flip_of {x : Tensor E} {dims : List Int} {ds : List Nat} (h : Names x.sizes.length dims ds) (hn : ds.Nodup) :
    flip x dims = some ⟨x.sizes, fun idx => x.elem (flipIdx x.sizes ds idx)⟩ := by
  unfold flip
  rw [wrapDims_of h]
  exact if_pos hn

theorem fliplr_ok {x : Tensor E} (h : 2 ≤ x.sizes.length) : ∃ t, decFliplr x = .ok t ∧ IsFlipOf t x [1] := by
  refine ⟨⟨x.sizes, fun idx => x.elem (flipIdx x.sizes [1] idx)⟩, ?_, rfl, fun idx _ => rfl⟩
  unfold decFliplr
  rw [if_neg (by omega), flip_of (dims := [1]) (ds := [1]) (.cons ⟨by omega, .inl rfl⟩ .nil) (by simp)]
  rfl

theorem flipud_ok {x : Tensor E} (h : 1 ≤ x.sizes.length) : ∃ t, decFlipud x = .ok t ∧ IsFlipOf t x [0] := by
  refine ⟨⟨x.sizes, fun idx => x.elem (flipIdx x.sizes [0] idx)⟩, ?_, rfl, fun idx _ => rfl⟩
  unfold decFlipud
  rw [if_neg (by omega), flip_of (dims := [0]) (ds := [0]) (.cons ⟨by omega, .inl rfl⟩ .nil) (by simp)]
  rfl

/-! ## Turns -/

theorem swapAt_length (a b : Nat) (l : List Int) : (swapAt a b l).length = l.length := by simp [swapAt]

theorem swapAt_getD (a b k : Nat) (l : List Int) (ha : a < l.length) (hb : b < l.length) :
    (swapAt a b l).getD k 0 = if k = b then l.getD a 0 else if k = a then l.getD b 0 else l.getD k 0 := by
  unfold swapAt
  rw [getD_set, getD_set, List.length_set]
  by_cases h1 : k = b
  · rw [if_pos ⟨h1.symm, by omega⟩, if_pos h1]
  · rw [if_neg (fun h => h1 h.1.symm), if_neg h1]
    by_cases h2 : k = a
    · rw [if_pos ⟨h2.symm, by omega⟩, if_pos h2]
    · rw [if_neg (fun h => h2 h.1.symm), if_neg h2]

theorem exchange_swapAt (a b : Nat) (l : List Int) : exchange a b l = swapAt a b l := rfl

theorem flipIdx_length (ns : List Int) (ds : List Nat) (idx : List Int) : (flipIdx ns ds idx).length = idx.length := by simp [flipIdx]

theorem flipIdx_getD (ns : List Int) (ds : List Nat) (idx : List Int) (k : Nat) (h : k < idx.length) :
    (flipIdx ns ds idx).getD k 0 = if k ∈ ds then ns.getD k 0 - 1 - idx.getD k 0 else idx.getD k 0 := by
  unfold flipIdx
  rw [getD_zipMap, if_pos h]

/-- A quarter turn. -/
def turn (a b : Nat) (x : Tensor E) : Tensor E :=
  ⟨swapAt a b x.sizes, fun idx => x.elem ((idx.set a (idx.getD b 0)).set b (x.sizes.getD b 0 - 1 - idx.getD a 0))⟩

theorem same_refl (t : Tensor E) : Same t t := ⟨rfl, fun _ _ => rfl⟩

theorem same_symm {t u : Tensor E} (h : Same t u) : Same u t := ⟨h.1.symm, fun idx hidx => (h.2 idx (by rw [← h.1]; exact hidx)).symm⟩

theorem same_trans {t u v : Tensor E} (h1 : Same t u) (h2 : Same u v) : Same t v :=
  ⟨h1.1.trans h2.1, fun idx hidx => (h1.2 idx (by rw [h2.1]; exact hidx)).trans (h2.2 idx hidx)⟩

/-- The place of an element after a quarter turn. -/
def toIdx (ns : List Int) (a b : Nat) (j : List Int) : List Int := (j.set b (j.getD a 0)).set a (ns.getD b 0 - 1 - j.getD b 0)

/-- The place of an element before a quarter turn. -/
def fromIdx (ns : List Int) (a b : Nat) (idx : List Int) : List Int := (idx.set a (idx.getD b 0)).set b (ns.getD b 0 - 1 - idx.getD a 0)

theorem toIdx_length (ns : List Int) (a b : Nat) (j : List Int) : (toIdx ns a b j).length = j.length := by simp [toIdx]

theorem fromIdx_length (ns : List Int) (a b : Nat) (j : List Int) : (fromIdx ns a b j).length = j.length := by simp [fromIdx]

theorem toIdx_getD (ns : List Int) {a b : Nat} (j : List Int) (hab : a ≠ b) (ha : a < j.length) (hb : b < j.length) (k : Nat) :
    (toIdx ns a b j).getD k 0 = if k = a then ns.getD b 0 - 1 - j.getD b 0 else if k = b then j.getD a 0 else j.getD k 0 := by
  unfold toIdx
  rw [getD_set, getD_set, List.length_set]
  by_cases h1 : k = a
  · rw [if_pos ⟨h1.symm, by omega⟩, if_pos h1]
  · rw [if_neg (fun h => h1 h.1.symm), if_neg h1]
    by_cases h2 : k = b
    · rw [if_pos ⟨h2.symm, by omega⟩, if_pos h2]
    · rw [if_neg (fun h => h2 h.1.symm), if_neg h2]

theorem fromIdx_getD (ns : List Int) {a b : Nat} (j : List Int) (hab : a ≠ b) (ha : a < j.length) (hb : b < j.length) (k : Nat) :
    (fromIdx ns a b j).getD k 0 = if k = b then ns.getD b 0 - 1 - j.getD a 0 else if k = a then j.getD b 0 else j.getD k 0 := by
  unfold fromIdx
  rw [getD_set, getD_set, List.length_set]
  by_cases h1 : k = b
  · rw [if_pos ⟨h1.symm, by omega⟩, if_pos h1]
  · rw [if_neg (fun h => h1 h.1.symm), if_neg h1]
    by_cases h2 : k = a
    · rw [if_pos ⟨h2.symm, by omega⟩, if_pos h2]
    · rw [if_neg (fun h => h2 h.1.symm), if_neg h2]

theorem from_to (ns : List Int) {a b : Nat} (j : List Int) (hab : a ≠ b) (ha : a < j.length) (hb : b < j.length) :
    fromIdx ns a b (toIdx ns a b j) = j := by
  apply ext_getD (by rw [fromIdx_length, toIdx_length])
  intro k _
  rw [fromIdx_getD _ _ hab (by rw [toIdx_length]; exact ha) (by rw [toIdx_length]; exact hb),
    toIdx_getD _ _ hab ha hb, toIdx_getD _ _ hab ha hb, toIdx_getD _ _ hab ha hb]
  by_cases h1 : k = b
  · rw [if_pos h1, if_pos rfl, h1]; omega
  · rw [if_neg h1]
    by_cases h2 : k = a
    · rw [if_pos h2, if_neg (fun h => hab h.symm), if_pos rfl, h2]
    · rw [if_neg h2, if_neg h2, if_neg h1]

theorem to_from (ns : List Int) {a b : Nat} (j : List Int) (hab : a ≠ b) (ha : a < j.length) (hb : b < j.length) :
    toIdx ns a b (fromIdx ns a b j) = j := by
  apply ext_getD (by rw [toIdx_length, fromIdx_length])
  intro k _
  rw [toIdx_getD _ _ hab (by rw [fromIdx_length]; exact ha) (by rw [fromIdx_length]; exact hb),
    fromIdx_getD _ _ hab ha hb, fromIdx_getD _ _ hab ha hb, fromIdx_getD _ _ hab ha hb]
  by_cases h1 : k = a
  · rw [if_pos h1, if_pos rfl, h1]; omega
  · rw [if_neg h1]
    by_cases h2 : k = b
    · rw [if_pos h2, if_neg hab, if_pos rfl, h2]
    · rw [if_neg h2, if_neg h2, if_neg h1]

theorem fromIdx_range {ns : List Int} {a b : Nat} {idx : List Int} (hab : a ≠ b) (ha : a < ns.length) (hb : b < ns.length)
    (h : inRange (swapAt a b ns) idx = true) : inRange ns (fromIdx ns a b idx) = true := by
  have hl := inRange_length h
  rw [swapAt_length] at hl
  rw [inRange_iff', fromIdx_length]
  refine ⟨hl, fun k hk => ?_⟩
  rw [fromIdx_getD _ _ hab (by omega) (by omega)]
  have hg := inRange_getD h (d := k) (by rw [swapAt_length]; exact hk)
  have hga := inRange_getD h (d := a) (by rw [swapAt_length]; exact ha)
  have hgb := inRange_getD h (d := b) (by rw [swapAt_length]; exact hb)
  rw [swapAt_getD _ _ _ _ ha hb] at hg hga hgb
  rw [if_neg hab, if_pos rfl] at hga
  rw [if_pos rfl] at hgb
  by_cases h1 : k = b
  · rw [if_pos h1, h1]; omega
  · rw [if_neg h1] at hg ⊢
    by_cases h2 : k = a
    · rw [if_pos h2, h2]; exact hgb
    · rw [if_neg h2] at hg ⊢; exact hg

theorem toIdx_range {ns : List Int} {a b : Nat} {j : List Int} (hab : a ≠ b) (ha : a < ns.length) (hb : b < ns.length)
    (h : inRange ns j = true) : inRange (swapAt a b ns) (toIdx ns a b j) = true := by
  have hl := inRange_length h
  rw [inRange_iff', toIdx_length, swapAt_length]
  refine ⟨hl, fun k hk => ?_⟩
  rw [toIdx_getD _ _ hab (by omega) (by omega), swapAt_getD _ _ _ _ ha hb]
  have hg := inRange_getD h hk
  have hga := inRange_getD h ha
  have hgb := inRange_getD h hb
  by_cases h1 : k = a
  · rw [if_pos h1, if_neg (by omega), if_pos h1]; omega
  · rw [if_neg h1]
    by_cases h2 : k = b
    · rw [if_pos h2, if_pos h2]; exact hga
    · rw [if_neg h2, if_neg h2, if_neg h1]; exact hg

theorem turn_iff {a b : Nat} (hab : a ≠ b) {t x : Tensor E} (ha : a < x.sizes.length) (hb : b < x.sizes.length) :
    IsQuarterTurn t x a b ↔ Same t (turn a b x) := by
  constructor
  · rintro ⟨h1, h2⟩
    refine ⟨h1, fun idx hidx => ?_⟩
    have hr := fromIdx_range hab ha hb hidx
    have hl := inRange_length hr
    rw [fromIdx_length] at hl
    have := h2 _ hr
    replace this : t.elem (toIdx x.sizes a b (fromIdx x.sizes a b idx)) = _ := this
    rw [to_from _ _ hab (by omega) (by omega)] at this
    exact this
  · rintro ⟨h1, h2⟩
    refine ⟨h1, fun j hj => ?_⟩
    have hl := inRange_length hj
    show t.elem (toIdx x.sizes a b j) = _
    rw [h2 _ (toIdx_range hab ha hb hj)]
    show x.elem (fromIdx x.sizes a b (toIdx x.sizes a b j)) = _
    rw [from_to _ _ hab (by omega) (by omega)]

theorem turn_congr {a b : Nat} (hab : a ≠ b) {u v : Tensor E} (ha : a < v.sizes.length) (hb : b < v.sizes.length) (h : Same u v) :
    Same (turn a b u) (turn a b v) := by
  refine ⟨by show swapAt a b u.sizes = swapAt a b v.sizes; rw [h.1], fun idx hidx => ?_⟩
  show u.elem (fromIdx u.sizes a b idx) = v.elem (fromIdx v.sizes a b idx)
  rw [h.1]
  exact h.2 _ (fromIdx_range hab ha hb hidx)

/-- `n` quarter turns. -/
def turns (a b : Nat) : Nat → Tensor E → Tensor E
  | 0, x => x
  | n + 1, x => turn a b (turns a b n x)

theorem turns_rank (a b : Nat) (x : Tensor E) : ∀ n, (turns a b n x).sizes.length = x.sizes.length := by
  intro n
  induction n with
  | zero => rfl
  | succ n ih =>
    show (swapAt a b (turns a b n x).sizes).length = _
    rw [swapAt_length, ih]

theorem turns_iff {a b : Nat} (hab : a ≠ b) {x : Tensor E} (ha : a < x.sizes.length) (hb : b < x.sizes.length) :
    ∀ (n : Nat) (t : Tensor E), Turns a b n t x ↔ Same t (turns a b n x) := by
  intro n
  induction n with
  | zero => exact fun t => Iff.rfl
  | succ n ih =>
    intro t
    have hra : a < (turns a b n x).sizes.length := by rw [turns_rank]; exact ha
    have hrb : b < (turns a b n x).sizes.length := by rw [turns_rank]; exact hb
    constructor
    · rintro ⟨u, hu, ht⟩
      have hs := (ih u).1 hu
      rw [turn_iff hab (by rw [hs.1]; exact hra) (by rw [hs.1]; exact hrb)] at ht
      exact same_trans ht (turn_congr hab hra hrb hs)
    · intro h
      refine ⟨turns a b n x, (ih _).2 (same_refl _), ?_⟩
      rw [turn_iff hab hra hrb]
      exact h

theorem turns_congr {a b : Nat} (hab : a ≠ b) {u v : Tensor E} (ha : a < v.sizes.length) (hb : b < v.sizes.length) (h : Same u v) :
    ∀ n, Same (turns a b n u) (turns a b n v) := by
  intro n
  induction n with
  | zero => exact h
  | succ n ih => exact turn_congr hab (by rw [turns_rank]; exact ha) (by rw [turns_rank]; exact hb) ih

theorem turns_add (a b : Nat) (x : Tensor E) (m : Nat) : ∀ n, turns a b (n + m) x = turns a b n (turns a b m x) := by
  intro n
  induction n with
  | zero => rw [Nat.zero_add]; rfl
  | succ n ih =>
    rw [show n + 1 + m = (n + m) + 1 by omega]
    show turn a b (turns a b (n + m) x) = turn a b (turns a b n _)
    rw [ih]

theorem swapAt_swapAt {a b : Nat} {l : List Int} (ha : a < l.length) (hb : b < l.length) : swapAt a b (swapAt a b l) = l := by
  apply ext_getD (by rw [swapAt_length, swapAt_length])
  intro k hk
  rw [swapAt_getD _ _ _ _ (by rw [swapAt_length]; exact ha) (by rw [swapAt_length]; exact hb),
    swapAt_getD _ _ _ _ ha hb, swapAt_getD _ _ _ _ ha hb, swapAt_getD _ _ _ _ ha hb]
  by_cases h1 : k = b
  · rw [if_pos h1, h1]
    by_cases h3 : a = b
    · rw [if_pos h3, h3]
    · rw [if_neg h3, if_pos rfl]
  · rw [if_neg h1]
    by_cases h2 : k = a
    · rw [if_pos h2, if_pos rfl, h2]
    · rw [if_neg h2, if_neg h1, if_neg h2]

/-- Two quarter turns are a flip of both dimensions. -/
theorem turns_two {a b : Nat} (hab : a ≠ b) {x : Tensor E} (ha : a < x.sizes.length) (hb : b < x.sizes.length) :
    Same ⟨x.sizes, fun idx => x.elem (flipIdx x.sizes [a, b] idx)⟩ (turns a b 2 x) := by
  have hs : (turns a b 2 x).sizes = x.sizes := swapAt_swapAt ha hb
  refine ⟨hs.symm, fun idx hidx => ?_⟩
  rw [hs] at hidx
  have hl := inRange_length hidx
  show x.elem _ = x.elem (fromIdx x.sizes a b (fromIdx (swapAt a b x.sizes) a b idx))
  congr 1
  apply ext_getD (by rw [flipIdx_length, fromIdx_length, fromIdx_length])
  intro k hk
  rw [flipIdx_length] at hk
  rw [flipIdx_getD _ _ _ _ hk, fromIdx_getD _ _ hab (by rw [fromIdx_length]; omega) (by rw [fromIdx_length]; omega),
    fromIdx_getD _ _ hab (by omega) (by omega), fromIdx_getD _ _ hab (by omega) (by omega), fromIdx_getD _ _ hab (by omega) (by omega),
    swapAt_getD _ _ _ _ ha hb, if_pos rfl, if_pos rfl, if_pos rfl, if_neg hab]
  by_cases h1 : k = b
  · rw [if_pos h1, if_pos (by simp [h1]), h1]
  · rw [if_neg h1]
    by_cases h2 : k = a
    · rw [if_pos h2, if_pos (by simp [h2]), h2]
    · rw [if_neg h2, if_neg (by simp [h1, h2]), if_neg h1, if_neg h2]

theorem turns_four {a b : Nat} (hab : a ≠ b) {x : Tensor E} (ha : a < x.sizes.length) (hb : b < x.sizes.length) :
    Same (turns a b 4 x) x := by
  have h2 := turns_two hab ha hb
  have h4 := turns_congr hab (u := turns a b 2 x) (by exact ha) (by exact hb) (same_symm h2) 2
  have h22 := turns_two hab (x := ⟨x.sizes, fun idx => x.elem (flipIdx x.sizes [a, b] idx)⟩) ha hb
  refine same_trans h4 (same_trans (same_symm h22) ⟨rfl, fun idx hidx => ?_⟩)
  have hl := inRange_length hidx
  show x.elem (flipIdx x.sizes [a, b] (flipIdx x.sizes [a, b] idx)) = _
  congr 1
  apply ext_getD (by rw [flipIdx_length, flipIdx_length])
  intro k hk
  rw [flipIdx_length, flipIdx_length] at hk
  rw [flipIdx_getD _ _ _ _ (by rw [flipIdx_length]; exact hk), flipIdx_getD _ _ _ _ hk]
  by_cases h1 : k ∈ [a, b]
  · rw [if_pos h1, if_pos h1]; omega
  · rw [if_neg h1, if_neg h1]

theorem turns_mod {a b : Nat} (hab : a ≠ b) {x : Tensor E} (ha : a < x.sizes.length) (hb : b < x.sizes.length) (r : Nat) :
    ∀ q, Same (turns a b (r + 4 * q) x) (turns a b r x) := by
  intro q
  induction q with
  | zero => exact same_refl _
  | succ q ih =>
    rw [show r + 4 * (q + 1) = (r + 4 * q) + 4 by omega, turns_add]
    exact same_trans (turns_congr hab (by exact ha) (by exact hb) (turns_four hab ha hb) _) ih

/-- The number of quarter turns left. -/
theorem rot_k (k : Int) : Int.tmod (Int.tmod k 4 + 4) 4 = k % 4 := by
  rcases Int.le_total 0 k with h | h
  · rw [Int.tmod_eq_emod_of_nonneg h, Int.tmod_eq_emod_of_nonneg (by omega)]
    omega
  · have h1 : Int.tmod k 4 = -((-k) % 4) := by
      have h2 := Int.neg_tmod (-k) 4
      rw [Int.neg_neg, Int.tmod_eq_emod_of_nonneg (a := -k) (by omega)] at h2
      exact h2
    rw [h1, Int.tmod_eq_emod_of_nonneg (by omega)]
    omega

theorem transpose_of {x : Tensor E} {d0 d1 : Int} {a b : Nat} (h0 : Dim x.sizes.length d0 a) (h1 : Dim x.sizes.length d1 b) :
    transpose x d0 d1 = some ⟨swapAt a b x.sizes, fun idx => x.elem (swapAt a b idx)⟩ := by
  unfold transpose
  rw [wrapDim_of h0, wrapDim_of h1]

theorem rot_same {x : Tensor E} {k d0 d1 : Int} {a b : Nat} (h0 : Dim x.sizes.length d0 a) (h1 : Dim x.sizes.length d1 b) (hab : a ≠ b) :
    ∃ t, decRot90 x k d0 d1 = some t ∧ Same t (turns a b (k % 4).toNat x) := by
  have ha := h0.1
  have hb := h1.1
  unfold decRot90
  simp only [rot_k]
  have hk : k % 4 = 0 ∨ k % 4 = 1 ∨ k % 4 = 2 ∨ k % 4 = 3 := by omega
  rcases hk with hk | hk | hk | hk
  · rw [hk, if_neg (by omega), if_neg (by omega), if_neg (by omega)]
    exact ⟨x, rfl, same_refl x⟩
  · rw [hk, if_pos rfl, flip_of (ds := [b]) (.cons h1 .nil) (by simp)]
    refine ⟨_, transpose_of (x := ⟨x.sizes, fun idx => x.elem (flipIdx x.sizes [b] idx)⟩) h0 h1, rfl, fun idx hidx => ?_⟩
    have hl := inRange_length hidx
    rw [turns_rank] at hl
    show x.elem (flipIdx x.sizes [b] (swapAt a b idx)) = x.elem (fromIdx x.sizes a b idx)
    congr 1
    apply ext_getD (by rw [flipIdx_length, swapAt_length, fromIdx_length])
    intro k hk
    rw [flipIdx_length, swapAt_length] at hk
    rw [flipIdx_getD _ _ _ _ (by rw [swapAt_length]; exact hk), swapAt_getD _ _ _ _ (by omega) (by omega), fromIdx_getD _ _ hab (by omega) (by omega)]
    by_cases h3 : k = b
    · rw [if_pos (by simp [h3]), if_pos h3, if_pos h3, h3]
    · rw [if_neg (by simp [h3]), if_neg h3, if_neg h3]
  · rw [hk, if_neg (by omega), if_pos rfl, flip_of (ds := [a, b]) (.cons h0 (.cons h1 .nil)) (by simp [hab])]
    exact ⟨_, rfl, turns_two hab ha hb⟩
  · rw [hk, if_neg (by omega), if_neg (by omega), if_pos rfl, flip_of (ds := [a]) (.cons h0 .nil) (by simp)]
    refine ⟨_, transpose_of (x := ⟨x.sizes, fun idx => x.elem (flipIdx x.sizes [a] idx)⟩) h0 h1, ?_⟩
    have h2 := turn_congr hab (v := turns a b 2 x) (by rw [turns_rank]; exact ha) (by rw [turns_rank]; exact hb) (turns_two hab ha hb)
    refine same_trans ?_ h2
    refine ⟨rfl, fun idx hidx => ?_⟩
    have hl := inRange_length hidx
    replace hl : idx.length = (swapAt a b x.sizes).length := hl
    rw [swapAt_length] at hl
    show x.elem (flipIdx x.sizes [a] (swapAt a b idx)) = x.elem (flipIdx x.sizes [a, b] (fromIdx x.sizes a b idx))
    congr 1
    apply ext_getD (by rw [flipIdx_length, swapAt_length, flipIdx_length, fromIdx_length])
    intro k hk
    rw [flipIdx_length, swapAt_length] at hk
    rw [flipIdx_getD _ _ _ _ (by rw [swapAt_length]; exact hk), swapAt_getD _ _ _ _ (by omega) (by omega),
      flipIdx_getD _ _ _ _ (by rw [fromIdx_length]; exact hk), fromIdx_getD _ _ hab (by omega) (by omega)]
    by_cases h3 : k = b
    · rw [if_neg (by simp [h3, Ne.symm hab]), if_pos h3, if_pos (by simp [h3]), if_pos h3, h3]; omega
    · rw [if_neg h3, if_neg h3]
      by_cases h4 : k = a
      · rw [if_pos (by simp [h4]), if_pos h4, if_pos (by simp [h4])]
      · rw [if_neg (by simp [h4]), if_neg h4, if_neg (by simp [h3, h4])]

theorem rot_ok {x : Tensor E} {k d0 d1 : Int} {a b : Nat} (h0 : Dim x.sizes.length d0 a) (h1 : Dim x.sizes.length d1 b) (hab : a ≠ b) :
    ∃ t, decRot90 x k d0 d1 = some t ∧ IsRot90Of t x k a b := by
  obtain ⟨t, ht, hs⟩ := rot_same (k := k) h0 h1 hab
  have ha := h0.1
  have hb := h1.1
  refine ⟨t, ht, ?_⟩
  unfold IsRot90Of
  by_cases hk : 0 ≤ k
  · rw [if_pos hk, turns_iff hab ha hb]
    have h := turns_mod hab ha hb (k % 4).toNat (k / 4).toNat
    rw [show (k % 4).toNat + 4 * (k / 4).toNat = k.toNat by omega] at h
    exact same_trans hs (same_symm h)
  · have hra : a < t.sizes.length := by rw [hs.1, turns_rank]; exact ha
    have hrb : b < t.sizes.length := by rw [hs.1, turns_rank]; exact hb
    rw [if_neg hk, turns_iff hab hra hrb]
    have h := turns_congr hab (v := turns a b (k % 4).toNat x) (by rw [turns_rank]; exact ha) (by rw [turns_rank]; exact hb) hs (-k).toNat
    rw [← turns_add] at h
    have h4 := turns_mod hab ha hb 0 (((-k).toNat + (k % 4).toNat) / 4)
    rw [show 0 + 4 * (((-k).toNat + (k % 4).toNat) / 4) = (-k).toNat + (k % 4).toNat by omega] at h4
    exact same_symm (same_trans h h4)

end Verif.Dec
