import Verif.Spec.LinIndirect
import Verif.Lemmas.LinPoolCount
import Verif.Lemmas.LinPad
import Verif.Lemmas.LinDiag
import Mathlib.Data.List.Sort
import Mathlib.Tactic.Ring
import Mathlib.Tactic.Linarith

/-! # Gathering, embeddings, resizing to the nearest -/

namespace Verif.Ind

open Lin

variable {E : Type}

theorem namesDim_ok {dim : Int} {rank d : Nat} (h : NamesDim dim rank d) : toPositiveDim dim rank = d ∧ isValidDim (toPositiveDim dim rank) rank = true := by
  obtain ⟨h1, h2⟩ := h
  have : toPositiveDim dim rank = d := by
    unfold toPositiveDim
    rcases h2 with h2 | h2
    · rw [if_pos (by omega), h2]
    · rw [if_neg (by omega)]; omega
  refine ⟨this, ?_⟩
  rw [this]
  simp only [isValidDim, decide_eq_true_eq]
  omega

theorem gatherIndex_same {rank d : Nat} {out : List Int} (h : out.length = rank) (v : Int) : gatherIndex rank v d rank out = out.set d v := by
  apply List.ext_getElem?
  intro k
  unfold gatherIndex
  rw [List.getElem?_map, List.getElem?_set]
  by_cases hk : k < rank
  · rw [List.getElem?_range hk]
    by_cases hd : k = d
    · subst hd
      simp [h, hk]
    · rw [if_neg (fun h => hd h.symm), getElem?_of_lt (by omega)]
      simp [hd]
  · rw [List.getElem?_eq_none (by simpa using hk), List.getElem?_eq_none (by omega)]
    by_cases hd : d = k
    · rw [if_pos hd, if_neg (by omega)]; rfl
    · rw [if_neg hd]; rfl

theorem gatherIndex_embedding (idx : List Int) (k v : Int) : gatherIndex 2 v 0 (idx.length + 1) (idx ++ [k]) = [v, k] := by
  unfold gatherIndex
  have h1 : List.range 2 = [0, 1] := rfl
  rw [h1]
  simp only [List.map_cons, List.map_nil, if_true]
  have h2 : (((1 : Nat) : Int) + (if (1 : Nat) < 0 then 0 else ((idx.length + 1 : Nat) : Int) - ((2 : Nat) : Int))).toNat = idx.length := by
    rw [if_neg (by omega)]; omega
  rw [if_neg (by omega), h2]
  simp

/-- An index with one entry exchanged, in another shape. -/
theorem inRange_gather {ns ms idx : List Int} {d : Nat} {v : Int} (hl : ms.length = ns.length) (h : inRange ms idx = true)
    (hs : ∀ (i : Nat), i ≠ d → ms.getD i 0 ≤ ns.getD i 0) (hv : 0 ≤ v ∧ v < ns.getD d 0) : inRange ns (idx.set d v) = true := by
  have h' := inRange_length h
  rw [inRange_iff]
  refine ⟨by simp [h', hl], fun k n i hn hi => ?_⟩
  have hk : k < ns.length := (List.getElem?_eq_some_iff.1 hn).1
  have hn' : ns.getD k 0 = n := by rw [List.getD_eq_getElem?_getD, hn]; rfl
  rw [List.getElem?_set] at hi
  by_cases hd : d = k
  · subst hd
    rw [if_pos rfl, if_pos (by omega)] at hi
    cases hi
    omega
  · rw [if_neg hd] at hi
    have h1 := inRange_getD h (d := k) (by omega)
    have h2 := hs k (fun h => hd h.symm)
    have hi' : idx.getD k 0 = i := by rw [List.getD_eq_getElem?_getD, hi]; rfl
    omega

/-! ## Bags -/

theorem vector_get {l : List E} {j : Nat} (h : j < l.length) : (vector l).get [(j : Int)] = l[j]? := by
  unfold Tensor.get vector
  rw [if_pos (by simp [inRange]; omega)]
  simp

theorem foldl_bind_some {α : Type} (f : E → α → Option E) (g : E → α → E) : ∀ (l : List α) (a : E), (∀ b ∈ l, ∀ a, f a b = some (g a b)) →
    l.foldl (fun acc b => acc.bind fun a => f a b) (some a) = some (l.foldl g a)
  | [], _, _ => rfl
  | b :: l, a, h => by
    rw [List.foldl_cons, List.foldl_cons, Option.bind_some, h b (by simp) a]
    exact foldl_bind_some f g l _ fun b hb => h b (by simp [hb])

theorem foldl_if {α : Type} (P : α → Bool) (g : α → E) (add : E → E → E) : ∀ (l : List α) (a : E),
    l.foldl (fun acc b => if P b then add (g b) acc else acc) a = ((l.filter P).map g).foldl (fun acc w => add w acc) a
  | [], _ => rfl
  | b :: l, a => by
    rw [List.foldl_cons, List.filter_cons]
    by_cases h : P b = true
    · rw [if_pos h, if_pos h, List.map_cons, List.foldl_cons]
      exact foldl_if P g add l _
    · rw [if_neg h, if_neg h]
      exact foldl_if P g add l _

theorem bagStep_ok {add : E → E → E} {weight : Tensor E} {W : Int → Int → E} {N D : Int} (hs : weight.sizes = [N, D])
    (hw : ∀ r c, 0 ≤ r → r < N → 0 ≤ c → c < D → weight.elem [r, c] = some (W r c)) {indices offsets : List Int}
    (hi : ∀ v ∈ indices, 0 ≤ v ∧ v < N) {i : Nat} (hi' : i < offsets.length) {k : Int} (hk : 0 ≤ k ∧ k < D) {j : Nat} (hj : j < indices.length) (a : E) :
    bagStep add weight (vector indices) (vector offsets) i k a j =
      some (if decide (offsets.getD i 0 ≤ j) && (decide (offsets.length ≤ i + 1) || decide ((j : Int) < offsets.getD (i + 1) 0))
        then add (W (indices.getD j 0) k) a else a) := by
  have hn : nextOffset (vector offsets) ((vector indices).sizes.getD 0 0) i =
      some (if offsets.length ≤ i + 1 then (indices.length : Int) else offsets.getD (i + 1) 0) := by
    unfold nextOffset
    have h0 : (vector offsets).sizes.getD 0 0 = offsets.length := rfl
    have h1 : (vector indices).sizes.getD 0 0 = indices.length := rfl
    rw [h0, h1]
    by_cases h : offsets.length ≤ i + 1
    · have : ((offsets.length : Int) = i + 1) := by omega
      have h3 := vector_get (l := offsets) (j := 0) (by omega)
      rw [getElem?_of_lt (by omega)] at h3
      simp only [this, decide_true, if_true, if_pos h]
      rw [show ((0 : Nat) : Int) = 0 from rfl] at h3
      rw [h3]
      rfl
    · have h2 : ¬ ((offsets.length : Int) = i + 1) := by omega
      have h3 := vector_get (l := offsets) (j := i + 1) (by omega)
      rw [getElem?_of_lt (by omega)] at h3
      simp only [h2, decide_false, if_neg h, Bool.false_eq_true, if_false]
      rw [show ((i + 1 : Nat) : Int) = (i : Int) + 1 from by omega] at h3
      rw [h3]
      rfl
  unfold bagStep
  rw [hn, vector_get hj, vector_get hi', getElem?_of_lt hj, getElem?_of_lt hi']
  have hv := hi (indices.getD j 0) (by rw [List.getD_eq_getElem?_getD, List.getElem?_eq_getElem hj]; exact List.getElem_mem hj)
  have hg : weight.get [indices.getD j 0, k] = some (W (indices.getD j 0) k) := by
    rw [get_of_range (by rw [hs]; simp only [inRange, Bool.and_eq_true, decide_eq_true_eq, Bool.and_true]; exact ⟨hv, hk⟩), hw _ _ hv.1 hv.2 hk.1 hk.2]
  simp only [hg, Option.map_some, Option.some.injEq]
  congr 1
  simp only [eq_iff_iff]
  by_cases h : offsets.length ≤ i + 1
  · simp only [h, if_true, decide_true, Bool.true_or, Bool.and_true, Bool.and_eq_true, Bool.or_eq_true, decide_eq_true_eq]
    omega
  · simp only [h, if_false, decide_false, Bool.false_or, Bool.and_eq_true, Bool.or_eq_true, decide_eq_true_eq]
    omega

/-! ## Resizing -/

theorem scaleFactor_whole {scale : Option (Int × Int)} {small large k : Int} (h : Whole scale small large k) : scaleFactor scale small large = k := by
  obtain ⟨h1, h2, h3, h4, -⟩ := h
  have key : ∀ d : Int, 0 < d → Pool.ceilDiv (k * d) d = k := by
    intro d hd
    unfold Pool.ceilDiv
    rw [Int.fdiv_eq_ediv_of_nonneg _ (by omega), ← Int.neg_mul, Int.mul_ediv_cancel _ (by omega)]
    omega
  rcases h3 with h3 | ⟨d, hd, h3⟩
  · subst h3
    simp only [scaleFactor]
    rw [h4 rfl, key _ h2]
  · subst h3
    simp only [scaleFactor]
    exact key d hd

theorem nearest_whole {scale : Option (Int × Int)} {small large k o : Int} (h : Whole scale small large k) (ho : o < large) :
    nearest scale small large o = o / k := by
  obtain ⟨h1, h2, h3, h4, h5⟩ := h
  have hlt : o / k < small := by
    rw [Int.ediv_lt_iff_lt_mul h1]
    have : k * small = small * k := Int.mul_comm _ _
    omega
  rcases h3 with h3 | ⟨d, hd, h3⟩
  · subst h3
    simp only [nearest]
    rw [h4 rfl, Int.mul_ediv_mul_of_pos_left _ _ h2]
    omega
  · subst h3
    simp only [nearest]
    rw [Int.mul_ediv_mul_of_pos_left _ _ hd]
    omega

theorem ceilDiv_of {small large k : Int} (hs : 0 < small) (h1 : (k - 1) * small < large) (h2 : large ≤ k * small) : Pool.ceilDiv large small = k := by
  have h3 := (Pool.ceilDiv_lt (a := large) (c := k - 1) hs).2 h1
  have h4 := (Pool.ceilDiv_le (a := large) (c := k) hs).2 h2
  omega

theorem ceilDiv_spec {small large : Int} (hs : 0 < small) (hl : 0 < large) : 0 < Pool.ceilDiv large small ∧
    (Pool.ceilDiv large small - 1) * small < large ∧ large ≤ Pool.ceilDiv large small * small := by
  refine ⟨(Pool.ceilDiv_lt hs).2 (by omega), (Pool.ceilDiv_lt hs).1 (by omega), (Pool.ceilDiv_le hs).1 (le_refl _)⟩

theorem nearest_none {small large o : Int} (hl : 0 < large) (h0 : 0 ≤ o) (ho : o < large) (hs : 0 < small) : nearest none small large o = o * small / large := by
  simp only [nearest]
  have : o * small / large < small := by
    rw [Int.ediv_lt_iff_lt_mul hl, Int.mul_comm]
    exact Int.mul_lt_mul_of_pos_left ho hs
  omega

/-- The place over the scale rounded up is the right one, if and only if the scale is close to it. -/
theorem close_iff {small large : Int} (hs : 0 < small) (hl : 0 < large) :
    (∀ o, 0 ≤ o → o < large → o / Pool.ceilDiv large small = nearest none small large o) ↔ Close small large := by
  obtain ⟨hk, h1, h2⟩ := ceilDiv_spec hs hl
  constructor
  · intro h
    refine ⟨_, h1, h2, ?_⟩
    generalize Pool.ceilDiv large small = k at hk h1 h2 h
    have hJ0 : 0 ≤ large / k := Int.ediv_nonneg (by omega) (by omega)
    by_cases hJ : large / k = 0
    · rw [hJ]; omega
    · have hJk : large / k * k ≤ large := Int.ediv_mul_le _ (by omega)
      generalize hJe : large / k = J at *
      have hJ1 : 1 ≤ J := by omega
      have hJk1 : k ≤ J * k := by nlinarith
      have h3 := h (J * k - 1) (by omega) (by omega)
      rw [nearest_none hl (by omega) (by omega) hs] at h3
      have h4 : (J * k - 1) / k = J - 1 := by
        rw [show J * k - 1 = (k - 1) + (J - 1) * k by ring, Int.add_mul_ediv_right _ _ (by omega), Int.ediv_eq_zero_of_lt (by omega) (by omega)]
        omega
      rw [h4] at h3
      have h5 : (J * k - 1) * small / large < J := by omega
      rw [Int.ediv_lt_iff_lt_mul hl] at h5
      nlinarith
  · rintro ⟨k', h3, h4, h5⟩ o ho ho'
    have : Pool.ceilDiv large small = k' := ceilDiv_of hs h3 h4
    rw [this] at hk h1 h2 ⊢
    generalize k' = k at *
    rw [nearest_none hl ho ho' hs]
    generalize hj : o / k = j
    have hj0 : 0 ≤ j := by rw [← hj]; exact Int.ediv_nonneg ho (by omega)
    have e1 : j * k ≤ o := by rw [← hj]; exact Int.ediv_mul_le _ (by omega)
    have e2 : o < (j + 1) * k := by rw [← hj]; exact Int.lt_ediv_add_one_mul_self _ hk
    apply Int.le_antisymm
    · rw [Int.le_ediv_iff_mul_le hl]
      have a1 : j * large ≤ j * (k * small) := Int.mul_le_mul_of_nonneg_left h2 hj0
      have a2 : j * k * small ≤ o * small := Int.mul_le_mul_of_nonneg_right e1 (by omega)
      have a3 : j * (k * small) = j * k * small := by ring
      omega
    · apply Int.lt_add_one_iff.1
      rw [Int.ediv_lt_iff_lt_mul hl]
      by_cases hc : (j + 1) * k ≤ large
      · have a1 : j + 1 ≤ large / k := by rw [Int.le_ediv_iff_mul_le hk]; exact hc
        have a2 : (j + 1) * (k * small - large) ≤ large / k * (k * small - large) := Int.mul_le_mul_of_nonneg_right a1 (by omega)
        have a3 : o * small ≤ ((j + 1) * k - 1) * small := Int.mul_le_mul_of_nonneg_right (by omega) (by omega)
        nlinarith
      · have a1 : small - 1 < j + 1 := by
          by_contra hn
          have b0 : (j + 1) * k ≤ (small - 1) * k := Int.mul_le_mul_of_nonneg_right (by omega) (by omega)
          have b1 : 2 ≤ k := by
            by_contra hk1
            have : k = 1 := by omega
            subst this
            simp only [Int.ediv_one] at hj
            omega
          have b2 : 1 ≤ large / k := by
            rw [Int.le_ediv_iff_mul_le hk]
            nlinarith
          have b3 : large < (large / k + 1) * k := Int.lt_ediv_add_one_mul_self _ hk
          generalize large / k = J at h5 b2 b3
          have b4 : k * small - large ≤ 1 := by
            by_contra hr
            have c1 : k * (J * (k * small - large) + 1) ≤ k * small := Int.mul_le_mul_of_nonneg_left (by omega) (by omega)
            have c2 : 2 ≤ k * J := by nlinarith
            generalize hr' : k * small - large = r at *
            have c3 : k * J * (r - 1) ≤ r - 1 := by nlinarith
            have c4 : 2 * (r - 1) ≤ k * J * (r - 1) := Int.mul_le_mul_of_nonneg_right c2 (by omega)
            omega
          nlinarith
        have a2 : o * small < large * small := Int.mul_lt_mul_of_pos_right ho' hs
        have a3 : large * small ≤ large * (j + 1) := Int.mul_le_mul_of_nonneg_left (by omega) (by omega)
        nlinarith

/-- The places taken from `p` are those of the kernel at `p`. -/
theorem takenFrom_whole {scale : Option (Int × Int)} {small large k p : Int} (h : Whole scale small large k) (hp : 0 ≤ p) :
    takenFrom scale small large p = ((List.range k.toNat).map fun (x : Nat) => p * k + (x : Int)).filter fun a => decide (a ≤ large - 1) := by
  have hk := h.1
  unfold takenFrom
  apply List.Pairwise.eq_of_mem_iff (r := (· < ·))
  · apply List.Pairwise.filter
    rw [List.pairwise_map]
    exact List.Pairwise.imp (fun h => by omega) List.pairwise_lt_range
  · apply List.Pairwise.filter
    rw [List.pairwise_map]
    exact List.Pairwise.imp (fun h => by omega) List.pairwise_lt_range
  · intro a
    simp only [List.mem_filter, List.mem_map, List.mem_range, decide_eq_true_eq]
    constructor
    · rintro ⟨⟨o, ho, rfl⟩, h1⟩
      rw [nearest_whole h (by omega)] at h1
      have h2 := Int.emod_add_mul_ediv (o : Int) k
      have h3 := Int.emod_nonneg (o : Int) (by omega : k ≠ 0)
      have h4 := Int.emod_lt_of_pos (o : Int) hk
      rw [h1, Int.mul_comm] at h2
      exact ⟨⟨((o : Int) % k).toNat, by omega, by omega⟩, by omega⟩
    · rintro ⟨⟨x, hx, rfl⟩, h1⟩
      have h0 : 0 ≤ p * k := Int.mul_nonneg hp (by omega)
      refine ⟨⟨(p * k + x).toNat, by omega, by omega⟩, ?_⟩
      rw [nearest_whole h (by omega), Int.add_comm, Int.add_mul_ediv_right _ _ (by omega), Int.ediv_eq_zero_of_lt (by omega) (by omega)]
      omega

theorem product_filter {α β : Type} (xs : List α) (ys : List β) (P : α → Bool) (Q : β → Bool) :
    (xs.flatMap fun x => ys.map fun y => (x, y)).filter (fun p => P p.1 && Q p.2) = (xs.filter P).flatMap fun x => (ys.filter Q).map fun y => (x, y) := by
  induction xs with
  | nil => rfl
  | cons x xs ih =>
    rw [List.flatMap_cons, List.filter_append, ih, List.filter_cons]
    have : (ys.map fun y => (x, y)).filter (fun p => P p.1 && Q p.2) = if P x then (ys.filter Q).map (fun y => (x, y)) else [] := by
      rw [List.filter_map]
      by_cases h : P x = true
      · rw [if_pos h]
        congr 1
        apply List.filter_congr
        intro y _
        simp [h]
      · rw [if_neg h]
        simp [Bool.not_eq_true _ ▸ h]
    rw [this]
    by_cases h : P x = true
    · rw [if_pos h, if_pos h, List.flatMap_cons]
    · rw [if_neg h, if_neg h, List.nil_append]

theorem gradValue_ok {zero : E} {g : Tensor E} {N C H W : Int} {val : Int → Int → Int → Int → E} (hs : g.sizes = [N, C, H, W])
    (hg : ∀ n c a b, inRange g.sizes [n, c, a, b] = true → g.elem [n, c, a, b] = some (val n c a b)) {kh kw n c p q x y : Int}
    (hn : 0 ≤ n ∧ n < N) (hc : 0 ≤ c ∧ c < C) (hH : 0 < H) (hW : 0 < W) (h1 : 0 ≤ p * kh + x) (h2 : 0 ≤ q * kw + y) :
    gradValue zero g kh kw n c p q x y =
      some (if decide (p * kh + x ≤ H - 1) && decide (q * kw + y ≤ W - 1) then val n c (p * kh + x) (q * kw + y) else zero) := by
  unfold gradValue
  have e1 : g.sizes.getD 2 0 = H := by rw [hs]; rfl
  have e2 : g.sizes.getD 3 0 = W := by rw [hs]; rfl
  simp only [e1, e2]
  have hr : inRange g.sizes [n, c, if p * kh + x ≤ H - 1 then p * kh + x else H - 1, if q * kw + y ≤ W - 1 then q * kw + y else W - 1] = true := by
    rw [hs]
    simp only [inRange, Bool.and_eq_true, decide_eq_true_eq, Bool.and_true]
    refine ⟨hn, hc, ?_, ?_⟩
    · by_cases h : p * kh + x ≤ H - 1
      · rw [if_pos h]; omega
      · rw [if_neg h]; omega
    · by_cases h : q * kw + y ≤ W - 1
      · rw [if_pos h]; omega
      · rw [if_neg h]; omega
  rw [get_of_range hr, hg _ _ _ _ hr]
  simp only [Option.map_some, Option.some.injEq]
  by_cases h : p * kh + x ≤ H - 1
  · by_cases h' : q * kw + y ≤ W - 1
    · simp [h, h']
    · simp [h']
  · simp [h]

/-- The sum over the kernel is that over the places in range. -/
theorem kernel_sum {add : E → E → E} {zero : E} (h0 : ∀ a, add a zero = a) (kh kw p q H W : Int) (val : Int → Int → E) (a : E) :
    (kernelLoops kh kw).foldl (fun acc r =>
        add acc (if decide (p * kh + r.1 ≤ H - 1) && decide (q * kw + r.2 ≤ W - 1) then val (p * kh + r.1) (q * kw + r.2) else zero)) a =
      (((List.range kh.toNat).map fun (x : Nat) => p * kh + (x : Int)).filter (fun a => decide (a ≤ H - 1)) |>.flatMap fun a =>
        (((List.range kw.toNat).map fun (y : Nat) => q * kw + (y : Int)).filter fun b => decide (b ≤ W - 1)).map fun b => val a b).foldl add a := by
  have h1 : kernelLoops kh kw = ((List.range kh.toNat).map fun (x : Nat) => (x : Int)).flatMap fun x =>
      ((List.range kw.toNat).map fun (y : Nat) => (y : Int)).map fun y => (x, y) := by
    unfold kernelLoops
    rw [List.flatMap_map]
    apply List.flatMap_congr
    intro x _
    simp
  have h2 := Pool.foldl_skip add zero h0 (fun r : Int × Int => decide (p * kh + r.1 ≤ H - 1) && decide (q * kw + r.2 ≤ W - 1))
    (fun r => val (p * kh + r.1) (q * kw + r.2)) (kernelLoops kh kw) a
  rw [List.foldl_map] at h2
  rw [h2, h1, product_filter _ _ (fun x => decide (p * kh + x ≤ H - 1)) (fun y => decide (q * kw + y ≤ W - 1)), List.map_flatMap]
  have e1 : ((List.range kh.toNat).map fun (x : Nat) => p * kh + (x : Int)) = ((List.range kh.toNat).map fun (x : Nat) => (x : Int)).map (p * kh + ·) := by
    simp
  have e2 : ((List.range kw.toNat).map fun (y : Nat) => q * kw + (y : Int)) = ((List.range kw.toNat).map fun (y : Nat) => (y : Int)).map (q * kw + ·) := by
    simp
  rw [e1, e2]
  generalize (List.range kh.toNat).map (fun (x : Nat) => (x : Int)) = A
  generalize (List.range kw.toNat).map (fun (x : Nat) => (x : Int)) = B
  rw [List.filter_map, List.filter_map, List.flatMap_map]
  congr 1
  apply List.flatMap_congr
  intro x _
  rw [List.map_map, List.map_map]
  rfl

end Verif.Ind
