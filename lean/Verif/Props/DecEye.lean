import Mathlib.Algebra.BigOperators.Intervals
import Mathlib.Tactic.SplitIfs
import Verif.Spec.DecEye

/-! # C106: identity matrices, diagonals and gated linear units -/

namespace Verif

open Lin Eye

variable {E : Type}

theorem Eye.known_ok {size type : Int} {const : Option Int} (h : SizeOk type size) (hc : ∀ c, const = some c → c = size) : SizeOk (known type const) size := by
  unfold known
  split_ifs with q
  · cases const with
    | none => exact Or.inl rfl
    | some c => exact Or.inr (hc c rfl)
  · exact h

/-- Identity matrices: what is on the diagonal is one, all else zero; and the types made up for the ranges are right. -/
theorem C106_eyeM_partial (one zero : E) {n m : Int} (hn : 0 ≤ n) (hm : 0 ≤ m) {a b : Int} (ha : SizeOk a n) (hb : SizeOk b m) {constN constM : Option Int}
    (h1 : ∀ c, constN = some c → c = n) (h2 : ∀ c, constM = some c → c = m) :
    ∃ typeN typeM t, eyeM one zero true (some [a, b]) constN constM n m = .ok (typeN, typeM, t) ∧ SizeOk typeN n ∧ SizeOk typeM m ∧
      IsMatrix t n m fun i j => if i = j then one else zero := by
  refine ⟨known a constN, known b constM, Bucket.convert (fun b => if b then one else zero) (Bucket.across (fun a b => decide (a = b)) (Bucket.unsqueezeLast ⟨[n], fun idx => idx.head?⟩) ⟨[m], fun idx => idx.head?⟩),
    ?_, known_ok ha h1, known_ok hb h2, ?_⟩
  · simp only [eyeM, Bucket.arange, if_neg (not_lt.mpr hn), if_neg (not_lt.mpr hm), Outcome.bind]
    rfl
  · refine ⟨rfl, fun i j _ _ _ _ => ?_⟩
    by_cases q : i = j <;> simp [Bucket.convert, Bucket.across, Bucket.unsqueezeLast, q]

/-- Square ones. -/
theorem C106_eye_partial (one zero : E) {n : Int} (hn : 0 ≤ n) {a b : Int} (ha : SizeOk a n) (hb : SizeOk b n) {constN : Option Int} (h1 : ∀ c, constN = some c → c = n) :
    ∃ typeN typeM t, eye one zero true (some [a, b]) constN n = .ok (typeN, typeM, t) ∧ SizeOk typeN n ∧ SizeOk typeM n ∧
      IsMatrix t n n fun i j => if i = j then one else zero :=
  C106_eyeM_partial one zero hn hn ha hb h1 h1

/-- If the number of sizes of the result is not known, the compiler stops, for any arguments. -/
theorem C106_violated_sizes (one zero : E) (constN constM : Option Int) (n m : Int) : eyeM one zero true none constN constM n m = .crash := rfl

/-- A diagonal of a matrix. -/
theorem C106_diagonal (zero : E) {t : Tensor E} {n m : Int} {a : Int → Int → E} (h : IsMatrix t n m a) (k : Int) :
    ∃ u s, diag zero (some 2) t k = .ok u ∧ IsVector u s (fun i => a (i + max (-k) 0) (i + max k 0)) ∧ 0 ≤ s ∧
      ∀ i, 0 ≤ i → (i < s ↔ i + max (-k) 0 < n ∧ i + max k 0 < m) := by
  obtain ⟨hs, he⟩ := h
  simp only [diag, diagonal, hs]
  by_cases q : 0 ≤ k
  · refine ⟨⟨[max (min n (m - k)) 0], fun idx => t.elem [idx.headD 0, idx.headD 0 + k]⟩, max (min n (m - k)) 0, by rw [if_neg (by decide), if_pos trivial, if_pos q], ⟨rfl, fun i h0 h1 => ?_⟩, by omega, fun i h0 => by omega⟩
    have e1 : max (-k) 0 = 0 := by omega
    have e2 : max k 0 = k := by omega
    simp only [List.headD_cons, e1, e2, Int.add_zero]
    exact he _ _ (by omega) (by omega) (by omega) (by omega)
  · refine ⟨⟨[max (min (n + k) m) 0], fun idx => t.elem [idx.headD 0 - k, idx.headD 0]⟩, max (min (n + k) m) 0, by rw [if_neg (by decide), if_pos trivial, if_neg q], ⟨rfl, fun i h0 h1 => ?_⟩, by omega, fun i h0 => by omega⟩
    have e1 : max (-k) 0 = -k := by omega
    have e2 : max k 0 = 0 := by omega
    simp only [List.headD_cons, e1, e2, Int.add_zero]
    exact he _ _ (by omega) (by omega) (by omega) (by omega)

/-- A matrix made of a diagonal: it is zero elsewhere, and the diagonal can be had back. -/
theorem C106_embed (zero : E) {t : Tensor E} {n : Int} {a : Int → E} (hn : 0 ≤ n) (h : IsVector t n a) (k : Int) :
    ∃ u s b, diag zero (some 1) t k = .ok u ∧ IsMatrix u s s b ∧ (∀ i j, j - i ≠ k → b i j = zero) ∧
      ∃ v, diag zero (some 2) u k = .ok v ∧ IsVector v n a := by
  obtain ⟨hs, he⟩ := h
  refine ⟨⟨[n + |k|, n + |k|], fun idx => if idx.getD 1 0 - idx.getD 0 0 = k then t.elem [min (idx.getD 0 0) (idx.getD 1 0)] else some zero⟩, n + |k|,
    fun i j => if j - i = k then a (min i j) else zero, ?_, ⟨rfl, fun i j h0 h1 h2 h3 => ?_⟩, fun i j hk => if_neg hk, ?_⟩
  · simp only [diag, if_true, diagEmbed, hs]
  · simp only [List.getD_cons_zero, List.getD_cons_succ]
    split_ifs with q
    · refine he _ (by omega) ?_
      rcases abs_cases k with ⟨e, _⟩ | ⟨e, _⟩ <;> omega
    · rfl
  · by_cases q : 0 ≤ k
    · have e : max (min (n + |k|) (n + |k| - k)) 0 = n := by
        rw [abs_of_nonneg q]; omega
      simp only [diag, diagonal, if_neg (show ¬ (2 : Nat) = 1 by decide), if_true, if_pos q, e]
      refine ⟨_, rfl, rfl, fun i h0 h1 => ?_⟩
      simp only [List.headD_cons, List.getD_cons_zero, List.getD_cons_succ]
      rw [if_pos (by omega), min_eq_left (by omega)]
      exact he i h0 h1
    · have e : max (min (n + |k| + k) (n + |k|)) 0 = n := by
        rw [abs_of_neg (by omega)]; omega
      simp only [diag, diagonal, if_neg (show ¬ (2 : Nat) = 1 by decide), if_true, if_neg q, e]
      refine ⟨_, rfl, rfl, fun i h0 h1 => ?_⟩
      simp only [List.headD_cons, List.getD_cons_zero, List.getD_cons_succ]
      rw [if_pos (by omega), min_eq_right (by omega)]
      exact he i h0 h1

/-- Tensors of other ranks are kept. -/
theorem C106_ranks (zero : E) (t : Tensor E) (k : Int) {rank : Option Nat} (h1 : rank ≠ some 1) (h2 : rank ≠ some 2) : diag zero rank t k = .unmatched := by
  cases rank with
  | none => rfl
  | some r =>
    simp only [diag]
    rw [if_neg fun e => h1 (by rw [e]), if_neg fun e => h2 (by rw [e])]

theorem Eye.row_sum [AddCommMonoid E] {t : Tensor E} {a : Int → E} : ∀ (n : Nat), (∀ i : Int, 0 ≤ i → i < n → t.elem [i] = some (a i)) →
    ∃ l, Bucket.rowOf t [] n = some l ∧ l.sum = ∑ i ∈ Finset.range n, a i
  | 0, _ => ⟨[], rfl, rfl⟩
  | n + 1, h => by
    obtain ⟨l, e, s⟩ := row_sum n fun i h0 h1 => h i h0 (by omega)
    refine ⟨l ++ [a n], ?_, ?_⟩
    · simp only [Bucket.rowOf, e, List.nil_append, h n (by omega) (by omega)]
    · rw [List.sum_append, s, Finset.sum_range_succ]
      simp

/-- The trace of a matrix, and the type made up for its diagonal, which is right even if only one size is known. -/
theorem C106_trace [AddCommMonoid E] {t : Tensor E} {n m : Nat} {a : Int → Int → E} (h : IsMatrix t n m a) {x y : Int} (hx : SizeOk x n) (hy : SizeOk y m) :
    ∃ s, trace (some [x, y]) t = .ok (s, some (∑ i ∈ Finset.range (min n m), a i i)) ∧ SizeOk s (min n m : Nat) := by
  obtain ⟨hs, he⟩ := h
  refine ⟨min x y, ?_, ?_⟩
  · have e : max (min (n : Int) ((m : Int) - 0)) 0 = ((min n m : Nat) : Int) := by omega
    simp only [trace, diagonal, hs, List.length_cons, List.length_nil, ne_eq, not_true_eq_false, if_false, le_refl, if_true, Outcome.bind, sum, e, Int.toNat_natCast, Nat.zero_add, Nat.reduceAdd, List.getD_cons_zero, List.getD_cons_succ]
    obtain ⟨l, e1, e2⟩ := row_sum (t := ⟨[((min n m : Nat) : Int)], fun idx => t.elem [idx.headD 0, idx.headD 0 + 0]⟩) (a := fun i => a i i) (min n m) fun i h0 h1 => by
      simp only [List.headD_cons, Int.add_zero]
      exact he i i h0 (by omega) h0 (by omega)
    rw [e1, Option.map_some, e2]
  · unfold SizeOk at *
    omega

/-- Gated linear units, along any dimension, counted from either end: the first half times the sigmoid of the second. -/
theorem C106_glu (mul : E → E → E) (sigmoid : E → E) (t : Tensor E) {d : Nat} (hd : d < t.sizes.length) {dim : Int} (hdim : dim = d ∨ dim = (d : Int) - t.sizes.length)
    {half : Int} (h0 : 0 ≤ half) (hh : t.sizes.getD d 0 = 2 * half) :
    ∃ u, glu mul sigmoid true t dim = .ok u ∧ u.sizes = t.sizes.set d half ∧
      ∀ idx x y, d < idx.length → t.elem idx = some x → t.elem (idx.set d (idx.getD d 0 + half)) = some y → u.elem idx = some (mul x (sigmoid y)) := by
  have hnd : (if dim < 0 then dim + (t.sizes.length : Int) else dim) = d := by
    split_ifs <;> omega
  have e1 : (2 * half).fmod 2 = 0 := by rw [Int.fmod_eq_emod_of_nonneg _ (by decide)]; omega
  have e2 : (2 * half).fdiv 2 = half := by rw [Int.fdiv_eq_ediv_of_nonneg _ (by decide)]; omega
  have hb : ¬ ((d : Int) < 0 ∨ (t.sizes.length : Int) ≤ d) := by omega
  simp only [glu, Bool.not_true, Bool.false_eq_true, if_false, hnd, if_neg hb, Int.toNat_natCast, hh, e1, e2, ne_eq, not_true_eq_false, narrow]
  rw [if_pos (by omega), if_pos (by omega)]
  simp only [Outcome.bind, if_true]
  refine ⟨_, rfl, rfl, ?_⟩
  intro idx x y hl hx hy
  have e : idx.set d (idx.getD d 0 + 0) = idx := by
    rw [Int.add_zero]
    simp [List.getD, List.getElem?_eq_getElem hl]
  simp only [e, hx, hy]

/-- An odd size fails the assertion. -/
theorem C106_glu_odd (mul : E → E → E) (sigmoid : E → E) (t : Tensor E) {d : Nat} (hd : d < t.sizes.length) {dim : Int} (hdim : dim = d ∨ dim = (d : Int) - t.sizes.length)
    (hh : t.sizes.getD d 0 % 2 = 1) : glu mul sigmoid true t dim = .aborts := by
  have hnd : (if dim < 0 then dim + (t.sizes.length : Int) else dim) = d := by
    split_ifs <;> omega
  have e1 : ¬ (t.sizes.getD d 0).fmod 2 = 0 := by rw [Int.fmod_eq_emod_of_nonneg _ (by decide)]; omega
  have hb : ¬ ((d : Int) < 0 ∨ (t.sizes.length : Int) ≤ d) := by omega
  simp only [glu, Bool.not_true, Bool.false_eq_true, if_false, hnd, if_neg hb, Int.toNat_natCast, ne_eq, e1, not_false_eq_true, if_true]

namespace Test106

/-- The matrix with elements 10 * i + j. -/
def grid (n m : Int) : Tensor Int := ⟨[n, m], fun idx => some (10 * idx.getD 0 0 + idx.getD 1 0)⟩

example : ∃ t, eyeM (1 : Int) 0 true (some [-1, 3]) (some 2) none 2 3 = .ok (2, 3, t) ∧ t.sizes = [2, 3] ∧ t.elem [1, 1] = some 1 ∧ t.elem [1, 2] = some 0 := ⟨_, rfl, rfl, rfl, rfl⟩

example : IsMatrix (grid 2 3) 2 3 fun i j => 10 * i + j := ⟨rfl, fun _ _ _ _ _ _ => rfl⟩

example : trace (some [-1, 3]) (grid 2 3) = .ok (-1, some 11) := rfl

example : ∃ u, diag 0 (some 2) (grid 2 3) 1 = .ok u ∧ u.sizes = [2] ∧ u.elem [1] = some 12 := ⟨_, rfl, rfl, rfl⟩

example : ∃ u, diag 0 (some 2) (grid 2 3) (-1) = .ok u ∧ u.sizes = [1] ∧ u.elem [0] = some 10 := ⟨_, rfl, rfl, rfl⟩

example : ∃ u, glu (fun x y => x * y) (fun x => x + 1) true (grid 2 4) (-1) = .ok u ∧ u.sizes = [2, 2] ∧ u.elem [1, 1] = some (11 * 14) := ⟨_, rfl, rfl, rfl⟩

example : glu (fun x y => x * y) (fun x => x + 1) true (grid 2 3) 1 = .aborts := rfl

end Test106

end Verif
