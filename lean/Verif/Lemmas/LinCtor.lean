import Verif.Spec.LinCtor
import Verif.Lemmas.LinMatmulVec

/-! # Lemmas for C97 -/

namespace Verif.Ctor

open Lin Red

variable {E : Type}

theorem cast_ok {resTy : List (Option Int)} {t : Tensor E} (h : TypeOf resTy t.sizes) : cast resTy t = .ok t := by
  unfold cast
  rw [if_pos (castOk_iff.2 h)]

/-- Lists of numbers are equal if their entries are. -/
theorem ext_getD {l m : List Int} (h : l.length = m.length) (hd : ∀ d, d < l.length → l.getD d 0 = m.getD d 0) : l = m := by
  apply List.ext_getElem h
  intro d h1 h2
  have := hd d h1
  rwa [List.getD_eq_getElem?_getD, List.getD_eq_getElem?_getD, List.getElem?_eq_getElem h1, List.getElem?_eq_getElem h2] at this

/-! ## Constant padding -/

theorem padLoop_length (pads : List Int) : ∀ i, (padLoop pads i).1.length = i ∧ (padLoop pads i).2.length = i
  | 0 => ⟨rfl, rfl⟩
  | i + 1 => by
    have := padLoop_length pads i
    unfold padLoop
    simp [this.1, this.2]

theorem padLoop_getD (pads : List Int) : ∀ i k, k < i →
    (padLoop pads i).1.getD k 0 = pads.getD (2 * (i - 1 - k)) 0 ∧ (padLoop pads i).2.getD k 0 = pads.getD (2 * (i - 1 - k) + 1) 0
  | i + 1, 0, _ => by
    unfold padLoop
    simp only [List.getD_cons_zero]
    exact ⟨by congr 1; omega, by congr 1; omega⟩
  | i + 1, k + 1, h => by
    have := padLoop_getD pads i k (by omega)
    unfold padLoop
    simp only [List.getD_cons_succ]
    rw [this.1, this.2]
    exact ⟨by congr 1; omega, by congr 1; omega⟩

theorem getD_zipWith (f : Int → Int → Int) {l m : List Int} {d : Nat} (hl : d < l.length) (hm : d < m.length) :
    (List.zipWith f l m).getD d 0 = f (l.getD d 0) (m.getD d 0) := by
  rw [List.getD_eq_getElem?_getD, List.getElem?_zipWith, getElem?_of_lt hl, getElem?_of_lt hm]
  rfl

theorem getD_lead {z : Nat} {l : List Int} {d : Nat} : (List.replicate z (0 : Int) ++ l).getD d 0 = if d < z then 0 else l.getD (d - z) 0 := by
  rw [List.getD_eq_getElem?_getD]
  by_cases h : d < z
  · rw [if_pos h, List.getElem?_append_left (by simpa using h), List.getElem?_replicate, if_pos h]
    rfl
  · rw [if_neg h, List.getElem?_append_right (by simp; omega), List.length_replicate, List.getD_eq_getElem?_getD]

theorem pads_getD {pads : List Int} {rank : Nat} (h : pads.length / 2 * 2 = pads.length) (hr : pads.length / 2 ≤ rank) {d : Nat} (hd : d < rank) :
    (List.replicate (rank - pads.length / 2) (0 : Int) ++ (padLoop pads (pads.length / 2)).1).getD d 0 = before rank pads d ∧
    (List.replicate (rank - pads.length / 2) (0 : Int) ++ (padLoop pads (pads.length / 2)).2).getD d 0 = after rank pads d := by
  rw [getD_lead, getD_lead]
  unfold before after
  by_cases hz : d < rank - pads.length / 2
  · rw [if_pos hz, if_pos hz, List.getD_eq_getElem?_getD, List.getD_eq_getElem?_getD, List.getElem?_eq_none (by omega), List.getElem?_eq_none (by omega)]
    exact ⟨rfl, rfl⟩
  · rw [if_neg hz, if_neg hz]
    have := padLoop_getD pads (pads.length / 2) (d - (rank - pads.length / 2)) (by omega)
    rw [this.1, this.2]
    exact ⟨by congr 1; omega, by congr 1; omega⟩

theorem constantPad_spec (x : Tensor E) (pads : List Int) (v : E) (h : pads.length / 2 * 2 = pads.length) (hr : pads.length / 2 ≤ x.sizes.length) :
    IsConstantPadOf (Pool.pad x (List.replicate (x.sizes.length - pads.length / 2) 0 ++ (padLoop pads (pads.length / 2)).1)
      (List.replicate (x.sizes.length - pads.length / 2) 0 ++ (padLoop pads (pads.length / 2)).2) v) x (before x.sizes.length pads) (after x.sizes.length pads) v := by
  have hlen := padLoop_length pads (pads.length / 2)
  have hget := fun (d : Nat) (hd : d < x.sizes.length) => pads_getD h hr hd
  generalize hlo : List.replicate (x.sizes.length - pads.length / 2) (0 : Int) ++ (padLoop pads (pads.length / 2)).1 = lo at *
  generalize hhi : List.replicate (x.sizes.length - pads.length / 2) (0 : Int) ++ (padLoop pads (pads.length / 2)).2 = hi at *
  have l1 : lo.length = x.sizes.length := by rw [← hlo]; simp [hlen.1]; omega
  have l2 : hi.length = x.sizes.length := by rw [← hhi]; simp [hlen.2]; omega
  refine ⟨⟨by simp [Pool.pad, l1, l2], fun d hd => ?_⟩, fun idx j hi' hj hjd => ?_⟩
  · show (List.zipWith (· + ·) x.sizes (List.zipWith (· + ·) lo hi)).getD d 0 = _
    rw [getD_zipWith _ hd (by simp; omega), getD_zipWith _ (by omega) (by omega), (hget d hd).1, (hget d hd).2]
    omega
  · have hil : idx.length = x.sizes.length := by rw [inRange_length hi']; simp [Pool.pad, l1, l2]
    have : List.zipWith (· - ·) idx lo = j := by
      apply ext_getD
      · simp; omega
      · intro d hd
        have hd' : d < x.sizes.length := by simp at hd; omega
        rw [getD_zipWith _ (by omega) (by omega), (hget d hd').1, hjd d hd']
    show (if inRange x.sizes (List.zipWith (· - ·) idx lo) then _ else _) = _
    rw [this]

/-! ## Replication padding -/

theorem slice_spec (x : Tensor E) {d : Nat} (hd : d < x.sizes.length) (hn : 0 < x.sizes.getD d 0) (atEnd : Bool) :
    (sliceAt x d atEnd).sizes = x.sizes.set d 1 ∧ ∀ idx, inRange (x.sizes.set d 1) idx = true →
      (sliceAt x d atEnd).get idx = x.elem (idx.set d (if atEnd then x.sizes.getD d 0 - 1 else 0)) := by
  refine ⟨rfl, fun idx hi => ?_⟩
  have hl : idx.length = x.sizes.length := by simpa using inRange_length hi
  have h0 := inRange_getD hi (d := d) (by simpa using hd)
  rw [getD_set_self hd] at h0
  rw [get_of_range hi]
  show x.get (place _ _ idx) = _
  have hp := place_set (if atEnd then x.sizes.getD d 0 - 1 else 0) 1 x.sizes.length d idx hl hd
  have hones : (List.replicate x.sizes.length (1 : Int)).set d 1 = List.replicate x.sizes.length 1 := by
    apply List.ext_getElem?
    intro k
    rw [List.getElem?_set, List.getElem?_replicate]
    by_cases h : d = k
    · subst h; simp [hd]
    · rw [if_neg h]
  rw [hones] at hp
  rw [hp, show idx.getD d 0 = 0 by omega]
  have hr : inRange x.sizes (idx.set d ((if atEnd then x.sizes.getD d 0 - 1 else 0) + 0 * 1)) = true := by
    have := inRange_set hi ((if atEnd then x.sizes.getD d 0 - 1 else 0) + 0 * 1) (by cases atEnd <;> simp only [Bool.false_eq_true, if_false, if_true] <;> omega)
    exact this
  rw [get_of_range hr]
  congr 2
  omega

/-- Copies of a tensor of size one in dimension `d`. -/
theorem copies_elem (s : Operand E) {d : Nat} (h1 : s.tensor.sizes.getD d 0 = 1) (hd : d < s.tensor.sizes.length) : ∀ (n : Nat) (idx : List Int),
    inRange (s.tensor.sizes.set d n) idx = true → concatElem d (List.replicate n s) idx = s.tensor.get (idx.set d 0)
  | 0, idx, h => by
    have := inRange_getD h (d := d) (by simpa using hd)
    rw [getD_set_self hd] at this
    omega
  | n + 1, idx, h => by
    have h0 := inRange_getD h (d := d) (by simpa using hd)
    rw [getD_set_self hd] at h0
    have hl : idx.length = s.tensor.sizes.length := by simpa using inRange_length h
    rw [List.replicate_succ]
    unfold concatElem
    rw [h1]
    by_cases hc : idx.getD d 0 < 1
    · rw [if_pos hc]
      have hz : idx.getD d 0 = 0 := by omega
      conv_lhs => rw [← set_getD_self idx d, hz]
    · rw [if_neg hc, copies_elem s h1 hd n _ (by rw [inRange_set1 h hd]; omega), List.set_set]

theorem cat_ok {d : Nat} {ts : List (Tensor E)} {t : Tensor E} {r : Nat} (ht : ∀ u ∈ t :: ts, u.sizes.length = r) :
    cat d (t :: ts) = some ⟨t.sizes.set d (((t :: ts).map fun u => u.sizes.getD d 0).sum), concatElem d ((t :: ts).map fun t => ⟨t, t.sizes.map some⟩)⟩ := by
  unfold cat
  rw [List.map_cons]
  unfold concat
  simp only
  rw [if_pos]
  · simp [Function.comp_def]
  · rw [← List.map_cons (f := fun t : Tensor E => (⟨t, t.sizes.map some⟩ : Operand E)), List.all_map, List.all_eq_true]
    intro u hu
    simp only [Function.comp_apply, List.length_map, decide_eq_true_eq]
    rw [ht u hu, ht t (by simp)]

theorem tile_spec (x : Tensor E) {d : Nat} (hd : d < x.sizes.length) (hn : 0 < x.sizes.getD d 0) (atEnd : Bool) (w : Nat) (hw : 0 < w) :
    ∃ t, createTile (sliceAt x d atEnd) w d = some t ∧ t.sizes = x.sizes.set d w ∧ ∀ idx, inRange (x.sizes.set d w) idx = true →
      t.elem idx = x.elem (idx.set d (if atEnd then x.sizes.getD d 0 - 1 else 0)) := by
  obtain ⟨hs, he⟩ := slice_spec x hd hn atEnd
  unfold createTile
  by_cases h1 : w = 1
  · subst h1
    rw [if_pos rfl]
    refine ⟨_, rfl, hs, fun idx hi => ?_⟩
    rw [← he idx hi, get_of_range (by rw [hs]; exact hi)]
  · rw [if_neg h1]
    obtain ⟨n, rfl⟩ : ∃ n, w = n + 1 := ⟨w - 1, by omega⟩
    have hsz : (sliceAt x d atEnd).sizes.getD d 0 = 1 := by rw [hs, getD_set_self hd]
    rw [List.replicate_succ, cat_ok (r := x.sizes.length) (by
      intro u hu
      rw [← List.replicate_succ] at hu
      rw [List.eq_of_mem_replicate hu, hs, List.length_set])]
    refine ⟨_, rfl, ?_, fun idx hi => ?_⟩
    · simp only
      rw [← List.replicate_succ, List.map_replicate, hsz, hs, List.set_set, List.sum_replicate]
      simp
    · simp only
      rw [← List.replicate_succ, List.map_replicate, copies_elem _ hsz (by rw [hs]; simpa using hd) (n + 1) idx (by rw [hs, List.set_set]; exact_mod_cast hi)]
      show (sliceAt x d atEnd).get _ = _
      rw [he _ (by rw [inRange_set1 hi hd]; omega), List.set_set]

theorem edge_spec (x : Tensor E) {d : Nat} (hd : d < x.sizes.length) (hn : 0 < x.sizes.getD d 0) (atEnd : Bool) {w : Int} (hw : 0 ≤ w) :
    (w = 0 ∧ edge x d atEnd w = some []) ∨ (0 < w ∧ ∃ t, edge x d atEnd w = some [t] ∧ t.sizes = x.sizes.set d w ∧ ∀ idx, inRange (x.sizes.set d w) idx = true →
      t.elem idx = x.elem (idx.set d (if atEnd then x.sizes.getD d 0 - 1 else 0))) := by
  unfold edge
  by_cases h : 0 < w
  · right
    obtain ⟨t, e1, e2, e3⟩ := tile_spec x hd hn atEnd w.toNat (by omega)
    rw [Int.toNat_of_nonneg hw] at e2 e3
    rw [if_pos h, e1]
    exact ⟨h, t, rfl, e2, e3⟩
  · left
    rw [if_neg h]
    exact ⟨by omega, rfl⟩

theorem padDim_spec (x : Tensor E) {d : Nat} (hd : d < x.sizes.length) (hn : 0 < x.sizes.getD d 0) {l r : Int} (hl : 0 ≤ l) (hr : 0 ≤ r) :
    ∃ t, padDim x d l r = some t ∧ t.sizes = x.sizes.set d (l + x.sizes.getD d 0 + r) ∧
      ∀ idx, inRange t.sizes idx = true → t.elem idx = x.elem (idx.set d (nearest (x.sizes.getD d 0) (idx.getD d 0 - l))) := by
  generalize hN : x.sizes.getD d 0 = n at *
  have hself : ∀ (m : Int) (idx : List Int), inRange (x.sizes.set d m) idx = true → ∀ p, 0 ≤ p → p < n → inRange x.sizes (idx.set d p) = true := by
    intro m idx hi p p0 p1
    exact inRange_set hi p ⟨p0, by rw [hN]; exact p1⟩
  unfold padDim
  rcases edge_spec x hd (by omega) false hl with ⟨rfl, e1⟩ | ⟨hl', t1, e1, s1, v1⟩ <;>
    rcases edge_spec x hd (by omega) true hr with ⟨rfl, e2⟩ | ⟨hr', t2, e2, s2, v2⟩ <;>
    rw [e1, e2] <;> simp only [Option.bind_some, List.nil_append, List.append_nil, List.cons_append, List.length_cons, List.length_nil]
  · rw [if_neg (by decide)]
    have hset : x.sizes.set d (0 + n + 0) = x.sizes := by rw [show 0 + n + 0 = x.sizes.getD d 0 by omega, set_getD_self]
    refine ⟨x, rfl, hset.symm, fun idx hi => ?_⟩
    have h0 := inRange_getD hi hd
    unfold nearest
    rw [if_neg (by omega), if_neg (by omega), Int.sub_zero, set_getD_self]
  · rw [if_pos (by decide), cat_ok (r := x.sizes.length) (by intro u hu; simp only [List.mem_cons, List.not_mem_nil, or_false] at hu; rcases hu with rfl | rfl <;> simp [s2])]
    refine ⟨_, rfl, by simp only [List.map_cons, List.map_nil, List.sum_cons, List.sum_nil, s2, hN, getD_set_self hd, List.set_set]; congr 1; omega, fun idx hi => ?_⟩
    simp only [List.map_cons, List.map_nil, s2, hN, getD_set_self hd, List.sum_cons, List.sum_nil] at hi ⊢
    have h0 := inRange_getD hi (d := d) (by simpa using hd)
    rw [getD_set_self hd] at h0
    have hil : idx.length = x.sizes.length := by simpa using inRange_length hi
    simp only [concatElem, hN, s2, getD_set_self hd]
    unfold nearest
    by_cases hc : idx.getD d 0 < n
    · rw [if_pos hc, if_neg (by omega), if_neg (by omega), Int.sub_zero, set_getD_self, get_of_range]
      have := hself _ idx hi (idx.getD d 0) h0.1 hc
      rwa [set_getD_self] at this
    · have hg : (idx.set d (idx.getD d 0 - n)).getD d 0 = idx.getD d 0 - n := getD_set_self (by omega)
      have q1 : idx.getD d 0 - n < r := by omega
      have q2 : ¬(idx.getD d 0 - 0 < 0) := by omega
      have q3 : n ≤ idx.getD d 0 - 0 := by omega
      rw [if_neg hc, hg, if_pos q1, if_neg q2, if_pos q3]
      have hr2 : inRange (x.sizes.set d r) (idx.set d (idx.getD d 0 - n)) = true := by rw [inRange_set1 hi hd]; omega
      rw [get_of_range (by rw [s2]; exact hr2), v2 _ hr2, List.set_set, hN]
      rfl
  · rw [if_pos (by decide), cat_ok (r := x.sizes.length) (by intro u hu; simp only [List.mem_cons, List.not_mem_nil, or_false] at hu; rcases hu with rfl | rfl <;> simp [s1])]
    refine ⟨_, rfl, by simp only [List.map_cons, List.map_nil, List.sum_cons, List.sum_nil, s1, hN, getD_set_self hd, List.set_set]; congr 1; omega, fun idx hi => ?_⟩
    simp only [List.map_cons, List.map_nil, s1, hN, getD_set_self hd, List.sum_cons, List.sum_nil, List.set_set] at hi ⊢
    have h0 := inRange_getD hi (d := d) (by simpa using hd)
    rw [getD_set_self hd] at h0
    have hil : idx.length = x.sizes.length := by simpa using inRange_length hi
    simp only [concatElem, hN, s1, getD_set_self hd]
    unfold nearest
    by_cases hc : idx.getD d 0 < l
    · have hr1 : inRange (x.sizes.set d l) idx = true := by
        have := (inRange_set1 hi hd l (idx.getD d 0)).2 ⟨h0.1, hc⟩
        rwa [set_getD_self] at this
      rw [if_pos hc, if_pos (by omega), get_of_range (by rw [s1]; exact hr1), v1 _ hr1]
      rfl
    · have hg : (idx.set d (idx.getD d 0 - l)).getD d 0 = idx.getD d 0 - l := getD_set_self (by omega)
      have q1 : idx.getD d 0 - l < n := by omega
      have q2 : ¬(idx.getD d 0 - l < 0) := by omega
      have q3 : ¬(n ≤ idx.getD d 0 - l) := by omega
      rw [if_neg hc, hg, if_pos q1, if_neg q2, if_neg q3, get_of_range (hself _ idx hi _ (by omega) (by omega))]
  · rw [if_pos (by decide), cat_ok (r := x.sizes.length) (by intro u hu; simp only [List.mem_cons, List.not_mem_nil, or_false] at hu; rcases hu with rfl | rfl | rfl <;> simp [s1, s2])]
    refine ⟨_, rfl, by simp only [List.map_cons, List.map_nil, List.sum_cons, List.sum_nil, s1, s2, hN, getD_set_self hd, List.set_set]; congr 1; omega, fun idx hi => ?_⟩
    simp only [List.map_cons, List.map_nil, s1, s2, hN, getD_set_self hd, List.sum_cons, List.sum_nil, List.set_set] at hi ⊢
    have h0 := inRange_getD hi (d := d) (by simpa using hd)
    rw [getD_set_self hd] at h0
    have hil : idx.length = x.sizes.length := by simpa using inRange_length hi
    simp only [concatElem, hN, s1, s2, getD_set_self hd]
    unfold nearest
    by_cases hc : idx.getD d 0 < l
    · have hr1 : inRange (x.sizes.set d l) idx = true := by
        have := (inRange_set1 hi hd l (idx.getD d 0)).2 ⟨h0.1, hc⟩
        rwa [set_getD_self] at this
      rw [if_pos hc, if_pos (by omega), get_of_range (by rw [s1]; exact hr1), v1 _ hr1]
      rfl
    · have hg : (idx.set d (idx.getD d 0 - l)).getD d 0 = idx.getD d 0 - l := getD_set_self (by omega)
      have q2 : ¬(idx.getD d 0 - l < 0) := by omega
      rw [if_neg hc, hg, if_neg q2]
      by_cases hc2 : idx.getD d 0 - l < n
      · have q3 : ¬(n ≤ idx.getD d 0 - l) := by omega
        rw [if_pos hc2, if_neg q3, get_of_range (hself _ idx hi _ (by omega) (by omega))]
      · have q3 : n ≤ idx.getD d 0 - l := by omega
        have q4 : idx.getD d 0 - l - n < r := by omega
        have hg2 : (idx.set d (idx.getD d 0 - l - n)).getD d 0 = idx.getD d 0 - l - n := getD_set_self (by omega)
        rw [if_neg hc2, if_pos q3, List.set_set, hg2, if_pos q4]
        have hr2 : inRange (x.sizes.set d r) (idx.set d (idx.getD d 0 - l - n)) = true := by rw [inRange_set1 hi hd]; omega
        rw [get_of_range (by rw [s2]; exact hr2), v2 _ hr2, List.set_set, hN]
        rfl

theorem nearest_range {n i : Int} (h : 0 < n) : 0 ≤ nearest n i ∧ nearest n i < n := by
  unfold nearest
  by_cases h1 : i < 0
  · rw [if_pos h1]; omega
  · rw [if_neg h1]
    by_cases h2 : n ≤ i
    · rw [if_pos h2]; omega
    · rw [if_neg h2]; omega

theorem nearest_self {n i : Int} (h : 0 ≤ i ∧ i < n) : nearest n i = i := by
  unfold nearest
  rw [if_neg (by omega), if_neg (by omega)]

theorem replication_congr {t x : Tensor E} {l l' r r' : Nat → Int} (hl : ∀ d, d < x.sizes.length → l d = l' d) (hr : ∀ d, d < x.sizes.length → r d = r' d)
    (h : IsReplicationPadOf t x l r) : IsReplicationPadOf t x l' r' := by
  refine ⟨⟨h.1.1, fun d hd => ?_⟩, fun idx j hi hj hjd => h.2 idx j hi hj fun d hd => ?_⟩
  · rw [h.1.2 d hd, hl d hd, hr d hd]
  · rw [hjd d hd, hl d hd]

/-- The padding of the last `k` dimensions. -/
def upTo (rank k : Nat) (f : Nat → Int) (d : Nat) : Int := if rank - k ≤ d then f d else 0

theorem replicate_spec (x : Tensor E) (pads : List Int) (hp : ∀ p ∈ pads, 0 ≤ p) : ∀ (n k : Nat) (y : Tensor E), k + n ≤ x.sizes.length →
    (∀ d, d < x.sizes.length → x.sizes.length - (k + n) ≤ d → 0 < x.sizes.getD d 0) →
    IsReplicationPadOf y x (upTo x.sizes.length k (before x.sizes.length pads)) (upTo x.sizes.length k (after x.sizes.length pads)) →
    ∃ t, replicate x.sizes.length pads k n y = some t ∧
      IsReplicationPadOf t x (upTo x.sizes.length (k + n) (before x.sizes.length pads)) (upTo x.sizes.length (k + n) (after x.sizes.length pads))
  | 0, k, y, _, _, h => ⟨y, rfl, h⟩
  | n + 1, k, y, hk, hpos, h => by
    obtain ⟨⟨hlen, hsz⟩, hel⟩ := h
    have hnn : ∀ i, 0 ≤ pads.getD i 0 := by
      intro i
      rw [List.getD_eq_getElem?_getD]
      cases hg : pads[i]? with
      | none => exact Int.le_refl _
      | some v => exact hp v (List.mem_of_getElem? hg)
    have hd : x.sizes.length - 1 - k < x.sizes.length := by omega
    have hz : ∀ f, upTo x.sizes.length k f (x.sizes.length - 1 - k) = 0 := fun f => if_neg (by omega)
    have hy : y.sizes.getD (x.sizes.length - 1 - k) 0 = x.sizes.getD (x.sizes.length - 1 - k) 0 := by rw [hsz _ hd, hz, hz]; omega
    have hn := hpos (x.sizes.length - 1 - k) hd (by omega)
    obtain ⟨t, e1, e2, e3⟩ := padDim_spec y (d := x.sizes.length - 1 - k) (by omega) (by rw [hy]; exact hn) (hnn (2 * k)) (hnn (2 * k + 1))
    have hb : upTo x.sizes.length (k + 1) (before x.sizes.length pads) (x.sizes.length - 1 - k) = pads.getD (2 * k) 0 := by
      unfold upTo before
      rw [if_pos (by omega)]
      congr 1
      omega
    have ha : upTo x.sizes.length (k + 1) (after x.sizes.length pads) (x.sizes.length - 1 - k) = pads.getD (2 * k + 1) 0 := by
      unfold upTo after
      rw [if_pos (by omega)]
      congr 1
      omega
    have ho : ∀ f d, d ≠ x.sizes.length - 1 - k → d < x.sizes.length → upTo x.sizes.length (k + 1) f d = upTo x.sizes.length k f d := by
      intro f d h1 h2
      unfold upTo
      by_cases h3 : x.sizes.length - k ≤ d
      · rw [if_pos h3, if_pos (by omega)]
      · rw [if_neg h3, if_neg (by omega)]
    obtain ⟨u, f1, f2⟩ := replicate_spec x pads hp n (k + 1) t (by omega) (fun d h1 h2 => hpos d h1 (by omega)) (by
      refine ⟨⟨by rw [e2, List.length_set, hlen], fun d h1 => ?_⟩, fun idx j hi hj hjd => ?_⟩
      · rw [e2]
        by_cases hde : d = x.sizes.length - 1 - k
        · subst hde
          rw [getD_set_self (by omega), hb, ha, hy]
        · rw [getD_set_ne (fun h => hde h.symm), ho _ _ hde h1, ho _ _ hde h1, hsz d h1]
      · have hil : idx.length = x.sizes.length := by rw [inRange_length hi, e2, List.length_set, hlen]
        rw [e3 idx hi]
        have hr := nearest_range (i := idx.getD (x.sizes.length - 1 - k) 0 - pads.getD (2 * k) 0) hn
        rw [e2] at hi
        refine hel _ j (inRange_set hi _ (by rw [hy]; exact hr)) hj fun d h1 => ?_
        rw [hjd d h1]
        by_cases hde : d = x.sizes.length - 1 - k
        · subst hde
          rw [getD_set_self (by omega), hb, hz, Int.sub_zero, hy, nearest_self hr]
        · rw [getD_set_ne (fun h => hde h.symm), ho _ _ hde h1])
    refine ⟨u, ?_, ?_⟩
    · unfold replicate
      rw [e1]
      exact f1
    · rw [show k + (n + 1) = k + 1 + n by omega]
      exact f2

theorem replicated_spec (x : Tensor E) (pads : List Int) (dims : Nat) (hlen : pads.length = 2 * dims) (hdims : dims ≤ x.sizes.length) (hp : ∀ p ∈ pads, 0 ≤ p)
    (hpos : ∀ d, d < x.sizes.length → x.sizes.length - dims ≤ d → 0 < x.sizes.getD d 0) (resTy : List (Option Int)) (out : List Int)
    (hout : IsPaddedSize x.sizes out (before x.sizes.length pads) (after x.sizes.length pads)) (hty : TypeOf resTy out) :
    ∃ t, replicated x pads dims resTy = .ok t ∧ IsReplicationPadOf t x (before x.sizes.length pads) (after x.sizes.length pads) := by
  obtain ⟨t, e1, e2⟩ := replicate_spec x pads hp dims 0 x (by omega) (fun d h1 h2 => hpos d h1 (by omega)) (by
    have hz : ∀ f d, d < x.sizes.length → upTo x.sizes.length 0 f d = 0 := fun f d hd => if_neg (by omega)
    refine ⟨⟨rfl, fun d hd => by rw [hz _ _ hd, hz _ _ hd]; omega⟩, fun idx j hi hj hjd => ?_⟩
    have : idx = j := by
      apply ext_getD
      · rw [inRange_length hi, hj]
      · intro d hd
        have hd' : d < x.sizes.length := by rw [← inRange_length hi]; exact hd
        rw [hjd d hd', hz _ _ hd', Int.sub_zero, nearest_self (inRange_getD hi hd')]
    rw [this])
  rw [Nat.zero_add] at e2
  have hall : ∀ d, d < x.sizes.length → ∀ c, c ≤ 1 → ¬(x.sizes.length - dims ≤ d) → pads.getD (2 * (x.sizes.length - 1 - d) + c) 0 = 0 := by
    intro d hd c hc h
    rw [List.getD_eq_getElem?_getD, List.getElem?_eq_none (by omega)]
    rfl
  have e3 : IsReplicationPadOf t x (before x.sizes.length pads) (after x.sizes.length pads) := by
    refine replication_congr (fun d hd => ?_) (fun d hd => ?_) e2
    · unfold upTo
      by_cases h : x.sizes.length - dims ≤ d
      · rw [if_pos h]
      · rw [if_neg h]; exact (hall d hd 0 (by omega) h).symm
    · unfold upTo
      by_cases h : x.sizes.length - dims ≤ d
      · rw [if_pos h]
      · rw [if_neg h]; exact (hall d hd 1 (by omega) h).symm
  have hs : t.sizes = out := by
    apply ext_getD
    · rw [e3.1.1, hout.1]
    · intro d hd
      rw [e3.1.1] at hd
      rw [e3.1.2 d hd, hout.2 d hd]
  refine ⟨t, ?_, e3⟩
  unfold replicated
  rw [if_neg (by omega), e1]
  exact cast_ok (by rw [hs]; exact hty)

/-! ## Ranges -/

theorem ceilDiv_within {a s : Int} (hs : s ≠ 0) (i : Int) : i < ceilDiv a s ↔ if 0 < s then i * s < a else a < i * s := by
  unfold ceilDiv
  by_cases h : 0 < s
  · rw [if_pos h, Int.fdiv_eq_ediv_of_nonneg _ (by omega)]
    have := Int.ediv_lt_iff_lt_mul (a := -a) (b := -i) h
    rw [Int.neg_mul] at this
    constructor
    · intro h1
      have := this.1 (by omega)
      omega
    · intro h1
      have := this.2 (by omega)
      omega
  · rw [if_neg h, show (-a).fdiv s = a.fdiv (-s) by rw [← Int.neg_fdiv_neg, Int.neg_neg], Int.fdiv_eq_ediv_of_nonneg _ (by omega)]
    have := Int.ediv_lt_iff_lt_mul (a := a) (b := -i) (c := -s) (by omega)
    rw [Int.neg_mul_neg] at this
    constructor
    · intro h1
      exact this.1 (by omega)
    · intro h1
      have := this.2 h1
      omega

theorem toInt_fits {w : Nat} (hw : 1 ≤ w) {v : Int} (h : FitsIn w v) : (BitVec.ofInt w v).toInt = v := by
  rw [BitVec.toInt_ofInt]
  obtain ⟨h1, h2⟩ := h
  have hp : (2 : Nat) ^ w = 2 * 2 ^ (w - 1) := by
    conv_lhs => rw [show w = (w - 1) + 1 by omega]
    rw [Nat.pow_succ]; omega
  have hc : ((2 : Int) ^ (w - 1)) = ((2 ^ (w - 1) : Nat) : Int) := by push_cast; rfl
  rw [hc] at h1 h2
  rw [hp]
  generalize 2 ^ (w - 1) = q at *
  apply Int.bmod_eq_of_le <;> omega

theorem arange_spec {w : Nat} (h1 : 2 ≤ w) (h2 : w ≤ 64) (h8 : w ≠ 8) (start stop step : BitVec 64) (hstep : FitsIn w step.toInt)
    (hfit : FitsIn w (stop.toInt - start.toInt)) (hdir : 0 < step.toInt ∧ start.toInt ≤ stop.toInt ∨ step.toInt < 0 ∧ stop.toInt ≤ start.toInt)
    (resTy : List (Option Int))
    (hty : ∀ n, 0 ≤ n → (∀ i, 0 ≤ i → (i < n ↔ Within stop.toInt step.toInt (start.toInt + i * step.toInt))) → TypeOf resTy [n]) :
    ∃ t, lowerArange w start stop step resTy = .ok t ∧ IsRange t start.toInt stop.toInt step.toInt := by
  have hc : ∀ b : BitVec 64, convert 64 w b = BitVec.ofInt w b.toInt := by
    intro b
    conv_lhs => rw [← BitVec.ofInt_toInt (x := b)]
    exact Mat.convert_ofInt h2 (.inl (by omega)) _
  have hsub : BitVec.ofInt w stop.toInt - BitVec.ofInt w start.toInt = BitVec.ofInt w (stop.toInt - start.toInt) := by
    rw [BitVec.sub_eq_add_neg, ← BitVec.ofInt_neg, ← BitVec.ofInt_add, Int.sub_eq_add_neg]
  have hs0 : step.toInt ≠ 0 := by omega
  unfold lowerArange
  have hcv : convertible 64 w = true := by unfold convertible; simp [h8]
  rw [hcv]
  simp only [Bool.not_true, Bool.false_eq_true, if_false, hc, hsub, toInt_fits (by omega) hfit, toInt_fits (by omega) hstep]
  have hn : 0 ≤ ceilDiv (stop.toInt - start.toInt) step.toInt := by
    have := ceilDiv_within (a := stop.toInt - start.toInt) hs0 (-1)
    have hm : -1 < ceilDiv (stop.toInt - start.toInt) step.toInt := by
      rw [this]
      by_cases h : 0 < step.toInt
      · rw [if_pos h]; omega
      · rw [if_neg h]; omega
    omega
  have hw : ∀ i, 0 ≤ i → (i < ceilDiv (stop.toInt - start.toInt) step.toInt ↔ Within stop.toInt step.toInt (start.toInt + i * step.toInt)) := by
    intro i _
    rw [ceilDiv_within hs0]
    unfold Within
    by_cases h : 0 < step.toInt
    · rw [if_pos h, if_pos h]; omega
    · rw [if_neg h, if_neg h]; omega
  rw [cast_ok (hty _ hn hw)]
  refine ⟨_, rfl, _, hn, rfl, fun i hi => ⟨hw i hi, fun _ => ?_⟩⟩
  · simp only [List.getD_cons_zero]
    have hi : BitVec.ofInt w (BitVec.ofInt 64 i).toInt = BitVec.ofInt w i := by
      rw [← hc, Mat.convert_ofInt h2 (.inl (by omega))]
    rw [hi, ← BitVec.ofInt_mul, ← BitVec.ofInt_add, Int.mul_comm]

end Verif.Ctor
