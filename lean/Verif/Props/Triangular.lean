import Verif.Lemmas.Slice
import Mathlib.Tactic.Ring
import Mathlib.Tactic.Linarith

/-!
# C36: the number of triangular indices
-/

namespace Verif

open Shape

namespace Shape

/-- Triangular numbers, for all integers. -/
def tri (x : Int) : Int := Int.fdiv (x * (x + 1)) 2

theorem two_tri (x : Int) : 2 * tri x = x * (x + 1) := by
  unfold tri
  apply Int.mul_fdiv_cancel'
  rcases Int.even_or_odd' x with ⟨k, rfl | rfl⟩
  · exact ⟨k * (2 * k + 1), by ring⟩
  · exact ⟨(2 * k + 1) * (k + 1), by ring⟩

theorem tri_succ (x : Int) : tri (x + 1) = tri x + (x + 1) := by
  have h1 := two_tri x
  have h2 := two_tri (x + 1)
  have h3 : (x + 1) * (x + 1 + 1) = x * (x + 1) + 2 * (x + 1) := by ring
  omega

theorem trapezoid_eq (f l : Int) : Int.fdiv ((f + l) * (l - f + 1)) 2 = tri l - tri (f - 1) := by
  have h1 := two_tri l
  have h2 := two_tri (f - 1)
  have h3 : (f + l) * (l - f + 1) = 2 * (tri l - tri (f - 1)) := by
    rw [Int.mul_sub, h1, h2]; ring
  rw [h3, Int.mul_fdiv_cancel_left _ (by decide)]

theorem trilSize_eq (row col o : Int) : trilSize row col o =
    tri (trilLastRow row col o) - tri (trilFirstRow row col o - 1) +
      max 0 ((trilRows row o - (trilLastRow row col o - trilFirstRow row col o + 1)) * col) := by
  unfold trilSize
  simp only [trapezoid_eq]

theorem tri_zero : tri 0 = 0 := by decide
theorem tri_neg_one : tri (-1) = 0 := by decide

/-- One row: column counts. -/
theorem countBelow_le (n : Nat) (x : Int) :
    (countBelow n (fun c => decide ((c : Int) ≤ x)) : Int) = max 0 (min (n : Int) (x + 1)) := by
  induction n with
  | zero => simp only [countBelow, List.range_zero, List.filter_nil, List.length_nil]; omega
  | succ n ih =>
    rw [countBelow_succ, Int.natCast_add, ih]
    by_cases h : (n : Int) ≤ x
    · simp only [h, decide_true, if_true]; omega
    · simp only [h, decide_false]
      simp
      omega

theorem trilSize_one (col o : Int) (hc : 1 ≤ col) : trilSize 1 col o = max 0 (min col (o + 1)) := by
  rw [trilSize_eq]
  unfold trilFirstRow trilLastRow trilRows boolInt
  by_cases h : o > 0
  · rw [if_pos h]
    have h1 : max 0 (min col (1 + o)) = min col (1 + o) := by omega
    have h2 : max 0 (min 1 (1 + o)) = 1 := by omega
    rw [h1, h2]
    have h3 := tri_succ (min col (1 + o) - 1)
    rw [show min col (1 + o) - 1 + 1 = min col (1 + o) by omega] at h3
    rw [h3]
    have h4 : (1 - (min col (1 + o) - min col (1 + o) + 1)) * col = 0 := by
      rw [show (1 - (min col (1 + o) - min col (1 + o) + 1)) = 0 by omega, Int.zero_mul]
    rw [h4]
    omega
  · rw [if_neg h]
    by_cases h0 : o = 0
    · subst h0
      have h1 : max 0 (min col (1 + 0)) = 1 := by omega
      have h2 : max 0 (min col (0 + 1)) = 1 := by omega
      rw [h1, h2]
      simp only [show decide ((1 : Int) + 0 > 0) = true from rfl, if_true]
      rw [show (max 0 (min (1 : Int) (1 + 0)) - (1 - 1 + 1)) = 0 from rfl, Int.zero_mul]
      decide
    · have h1 : max 0 (min col (1 + o)) = 0 := by omega
      have h2 : max 0 (min col (o + 1)) = 0 := by omega
      have h3 : max 0 (min 1 (1 + o)) = 0 := by omega
      have h4 : decide ((1 : Int) + o > 0) = false := by
        apply decide_eq_false; omega
      rw [h1, h2, h3, h4]
      simp only [Bool.false_eq_true, if_false]
      rw [show (0 - (0 - 0 + 1 : Int)) * col = -col by ring]
      rw [show ((0 : Int) - 1) = -1 from rfl, tri_zero, tri_neg_one]
      omega

theorem trilSize_succ (row col o : Int) (hr : 1 ≤ row) (hc : 1 ≤ col) :
    trilSize (row + 1) col o = trilSize row col o + max 0 (min col (row + o + 1)) := by
  rw [trilSize_eq, trilSize_eq]
  unfold trilFirstRow trilLastRow trilRows boolInt
  by_cases hneg : row + o < 0
  · have h0 : ¬ o > 0 := by omega
    rw [if_neg h0, if_neg h0]
    have h1 : max 0 (min col (row + 1 + o)) = 0 := by omega
    have h2 : max 0 (min col (row + o)) = 0 := by omega
    have h3 : max 0 (min col (row + o + 1)) = 0 := by omega
    have h4 : max 0 (min (row + 1) (row + 1 + o)) = 0 := by omega
    have h5 : max 0 (min row (row + o)) = 0 := by omega
    have h6 : decide (row + 1 + o > 0) = false := by apply decide_eq_false; omega
    have h7 : decide (row + o > 0) = false := by apply decide_eq_false; omega
    rw [h1, h2, h3, h4, h5, h6, h7]
    omega
  by_cases hzero : row + o = 0
  · have h0 : ¬ o > 0 := by omega
    rw [if_neg h0, if_neg h0]
    have h1 : max 0 (min col (row + 1 + o)) = 1 := by omega
    have h2 : max 0 (min col (row + o)) = 0 := by omega
    have h3 : max 0 (min col (row + o + 1)) = 1 := by omega
    have h4 : max 0 (min (row + 1) (row + 1 + o)) = 1 := by omega
    have h5 : max 0 (min row (row + o)) = 0 := by omega
    have h6 : decide (row + 1 + o > 0) = true := by apply decide_eq_true; omega
    have h7 : decide (row + o > 0) = false := by apply decide_eq_false; omega
    rw [h1, h2, h3, h4, h5, h6, h7]
    simp only [Bool.false_eq_true, if_false, if_true]
    rw [show (1 - (1 - 1 + 1 : Int)) = 0 from rfl, show (0 - (0 - 0 + 1 : Int)) * col = -col by ring,
      show ((0 : Int) - 1) = -1 from rfl, show ((1 : Int) - 1) = 0 from rfl, tri_zero, tri_neg_one,
      Int.zero_mul]
    have : tri 1 = 1 := by decide
    omega
  -- from here on the first row is the same and non-empty
  obtain ⟨f, hf, hf', hfle, hfo⟩ : ∃ f : Int,
      (if o > 0 then min col (1 + o) else if decide (row + 1 + o > 0) = true then 1 else 0) = f ∧
      (if o > 0 then min col (1 + o) else if decide (row + o > 0) = true then 1 else 0) = f ∧
      1 ≤ f ∧ f = max 1 (min col (1 + o)) := by
    by_cases h : o > 0
    · rw [if_pos h, if_pos h]
      exact ⟨_, rfl, rfl, by omega, by omega⟩
    · rw [if_neg h, if_neg h, if_pos (by apply decide_eq_true; omega), if_pos (by apply decide_eq_true; omega)]
      exact ⟨1, rfl, rfl, by omega, by omega⟩
  rw [hf, hf']
  by_cases hlt : row + o < col
  · have h1 : max 0 (min col (row + 1 + o)) = row + o + 1 := by omega
    have h2 : max 0 (min col (row + o)) = row + o := by omega
    have h3 : max 0 (min col (row + o + 1)) = row + o + 1 := by omega
    rw [h1, h2, h3, tri_succ]
    have h4 : max 0 (min (row + 1) (row + 1 + o)) - (row + o + 1 - f + 1) =
        max 0 (min row (row + o)) - (row + o - f + 1) := by omega
    rw [h4]
    omega
  · have h1 : max 0 (min col (row + 1 + o)) = col := by omega
    have h2 : max 0 (min col (row + o)) = col := by omega
    have h3 : max 0 (min col (row + o + 1)) = col := by omega
    rw [h1, h2, h3]
    have h4 : max 0 (min (row + 1) (row + 1 + o)) = max 0 (min row (row + o)) + 1 := by omega
    rw [h4]
    obtain ⟨k, hk⟩ : ∃ k, max 0 (min row (row + o)) - (col - f + 1) = k := ⟨_, rfl⟩
    have hk0 : 0 ≤ k := by omega
    rw [show max 0 (min row (row + o)) + 1 - (col - f + 1) = k + 1 by omega, hk, Int.add_mul]
    have := Int.mul_nonneg hk0 (show 0 ≤ col by omega)
    omega

theorem countPositions_succ (rows cols : Nat) (p : Nat → Nat → Bool) :
    countPositions (rows + 1) cols p = countPositions rows cols p + countBelow cols (p rows) := by
  unfold countPositions
  rw [List.range_succ, List.map_append, List.sum_append]
  simp

theorem countPositions_tril (rows cols : Nat) (o : Int) (hr : 0 < rows) (hc : 0 < cols) :
    (countPositions rows cols (fun r c => decide ((c : Int) ≤ r + o)) : Int) = trilSize rows cols o := by
  induction rows with
  | zero => omega
  | succ r ih =>
    rw [countPositions_succ, Int.natCast_add, countBelow_le]
    rcases Nat.eq_zero_or_pos r with rfl | hr
    · have h0 : countPositions 0 cols (fun r c => decide ((c : Int) ≤ r + o)) = 0 := rfl
      rw [h0]
      have := trilSize_one cols o (by omega)
      simp only [Nat.zero_add, Int.natCast_one, Int.natCast_zero, Int.zero_add] at this ⊢
      exact this.symm
    · rw [ih hr, Int.natCast_add, Int.natCast_one, trilSize_succ r cols o (by omega) (by omega)]

theorem countBelow_not (n : Nat) (p : Nat → Bool) :
    countBelow n (fun i => !(p i)) + countBelow n p = n := by
  induction n with
  | zero => rfl
  | succ n ih =>
    rw [countBelow_succ, countBelow_succ]
    cases h : p n <;> simp <;> omega

theorem countPositions_not (rows cols : Nat) (p : Nat → Nat → Bool) :
    countPositions rows cols (fun r c => !(p r c)) + countPositions rows cols p = rows * cols := by
  induction rows with
  | zero => simp [countPositions]
  | succ r ih =>
    rw [countPositions_succ, countPositions_succ, Nat.succ_mul]
    have := countBelow_not cols (p r)
    omega

theorem countPositions_zero (rows cols : Nat) (p : Nat → Nat → Bool) (h : rows = 0 ∨ cols = 0) :
    countPositions rows cols p = 0 := by
  induction rows with
  | zero => rfl
  | succ r ih =>
    have hc : cols = 0 := by omega
    rw [countPositions_succ, ih (Or.inr hc), hc]
    rfl

end Shape

/-- `tril_indices` lists the positions on or below the diagonal `offset`. -/
theorem C36_tril (rows cols : Nat) (offset : Int) :
    trilIndices rows cols offset =
      [2, (countPositions rows cols (fun r c => decide ((c : Int) - r ≤ offset)) : Int)] := by
  have hp : (fun (r c : Nat) => decide ((c : Int) - r ≤ offset)) =
      fun (r c : Nat) => decide ((c : Int) ≤ r + offset) := by
    funext r c
    apply decide_eq_decide.mpr
    omega
  rw [hp]
  unfold trilIndices
  by_cases h : (rows : Int) = 0 ∨ (cols : Int) = 0
  · rw [if_pos h, countPositions_zero _ _ _ (by omega)]
    rfl
  · rw [if_neg h, countPositions_tril rows cols offset (by omega) (by omega)]

example : trilIndices 4 3 (-1) = [2, 6] ∧
    countPositions 4 3 (fun r c => decide ((c : Int) - r ≤ -1)) = 6 := by
  refine ⟨?_, ?_⟩ <;> decide +kernel

/-- `triu_indices` lists the positions on or above the diagonal `offset`. -/
theorem C36_triu (rows cols : Nat) (offset : Int) :
    triuIndices rows cols offset =
      [2, (countPositions rows cols (fun r c => decide ((c : Int) - r ≥ offset)) : Int)] := by
  have hp : (fun (r c : Nat) => decide ((c : Int) - r ≥ offset)) =
      fun (r c : Nat) => !(decide ((c : Int) ≤ r + (offset - 1))) := by
    funext r c
    rw [← decide_not]
    apply decide_eq_decide.mpr
    omega
  rw [hp]
  unfold triuIndices
  by_cases h : (rows : Int) = 0 ∨ (cols : Int) = 0
  · rw [if_pos h, countPositions_zero _ _ _ (by omega)]
    rfl
  · rw [if_neg h, ← countPositions_tril rows cols (offset - 1) (by omega) (by omega)]
    have := countPositions_not rows cols (fun r c => decide ((c : Int) ≤ r + (offset - 1)))
    have h2 : (rows : Int) * cols = ((rows * cols : Nat) : Int) := by simp
    rw [h2]
    congr 2
    omega

example : triuIndices 4 3 1 = [2, 3] ∧
    countPositions 4 3 (fun r c => decide ((c : Int) - r ≥ 1)) = 3 := by
  refine ⟨?_, ?_⟩ <;> decide +kernel

end Verif
