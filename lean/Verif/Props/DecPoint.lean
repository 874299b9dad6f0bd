import Mathlib.Tactic.Linarith
import Mathlib.Tactic.Ring
import Mathlib.Tactic.FieldSimp
import Verif.Spec.DecPoint
import Verif.Lemmas.DecBucket

/-!
# C103: operators on single elements

Operators that are replaced by simpler ones on the same elements give what they should, for finite, infinite and missing numbers.
-/

namespace Verif

open Point

/-- Shrinking, on all numbers but those below the lower limit. Missing: these, where the limit has the wrong sign. -/
theorem C103_softshrink_partial {l : ℚ} (hl : 0 ≤ l) : (∀ x : ℚ, -l ≤ x → softshrink l (.fin x) = .fin (soft l x)) ∧ softshrink l .pinf = .pinf ∧ softshrink l .ninf = .ninf := by
  refine ⟨fun x hx => ?_, by rfl, by rfl⟩
  have h1 : ¬ x < -l := not_lt.2 hx
  by_cases h2 : l < x
  · simp [softshrink, soft, Num.gt, Num.lt, h1, h2, Num.sub, Num.add, Num.neg, sub_eq_add_neg]
  · simp [softshrink, soft, Num.gt, Num.lt, h1, h2]

/-- Numbers below the lower limit are moved away from zero. -/
theorem C103_violated_softshrink {l x : ℚ} (hl : 0 < l) (hx : x < -l) : softshrink l (.fin x) = .fin (x - l) ∧ soft l x = x + l ∧ softshrink l (.fin x) ≠ .fin (soft l x) := by
  have h2 : ¬ l < x := by linarith
  have e1 : softshrink l (.fin x) = .fin (x - l) := by
    simp [softshrink, Num.lt, hx, Num.add, sub_eq_add_neg]
  have e2 : soft l x = x + l := by simp [soft, h2, hx]
  refine ⟨e1, e2, ?_⟩
  rw [e1, e2]
  intro c
  have := Num.fin.inj c
  linarith

theorem C103_hardshrink {l : ℚ} (hl : 0 ≤ l) : (∀ x : ℚ, hardshrink l (.fin x) = .fin (hard l x)) ∧ hardshrink l .pinf = .pinf ∧ hardshrink l .ninf = .ninf := by
  refine ⟨fun x => ?_, by rfl, by rfl⟩
  by_cases h : |x| ≤ l
  · have := abs_le.1 h
    simp [hardshrink, hard, Num.gt, Num.lt, h, not_lt.2 this.1, not_lt.2 this.2]
  · rcases lt_abs.1 (not_le.1 h) with g | g
    · simp [hardshrink, hard, Num.gt, Num.lt, h, g]
    · have : x < -l := by linarith
      simp [hardshrink, hard, Num.gt, Num.lt, h, this]

theorem Point.relu6_fin (x : ℚ) : relu6 (.fin x) = .fin (clamp 0 6 x) := by
  by_cases h1 : x < 0
  · have : ¬ (6 : ℚ) < 0 := by norm_num
    simp [relu6, Num.maximum, Num.minimum, Num.lt, clamp, h1, this]
  · by_cases h2 : 6 < x <;> simp [relu6, Num.maximum, Num.minimum, Num.lt, clamp, h1, h2]

theorem C103_relu6 : (∀ x : ℚ, relu6 (.fin x) = .fin (clamp 0 6 x)) ∧ relu6 .pinf = .fin 6 ∧ relu6 .ninf = .fin 0 ∧ relu6 .nan = .nan := by
  refine ⟨relu6_fin, ?_, ?_, by rfl⟩
  · simp [relu6, Num.maximum, Num.minimum, Num.lt]
  · have : ¬ (6 : ℚ) < 0 := by norm_num
    simp [relu6, Num.maximum, Num.minimum, Num.lt, this]

/-- Zero up to -3, the number itself from 3 on, and x (x + 3) / 6 between. -/
theorem C103_hardswish : (∀ x : ℚ, hardswish (.fin x) = .fin (if x < -3 then 0 else if 3 < x then x else x * (x + 3) / 6)) ∧ hardswish .pinf = .pinf ∧ hardswish .nan = .nan := by
  refine ⟨fun x => ?_, ?_, by rfl⟩
  · have e : hardswish (.fin x) = .fin (clamp 0 6 (x + 3) / 6 * x) := by
      simp [hardswish, Num.add, relu6_fin, Num.div, Num.mul]
    rw [e, clamp]
    congr 1
    by_cases h1 : x < -3
    · rw [if_pos (by linarith), if_pos h1]; simp
    · rw [if_neg (by linarith), if_neg h1]
      by_cases h2 : 3 < x
      · rw [if_pos (by linarith), if_pos h2]; ring
      · rw [if_neg (by linarith), if_neg h2]; ring
  · have := C103_relu6.2.1
    simp [hardswish, Num.add, this, Num.div, Num.mul, signed]

/-- Missing: slopes that are not finite. -/
theorem C103_leakyRelu_partial (s : ℚ) : (∀ x : ℚ, leakyRelu (.fin s) (.fin x) = .fin (if 0 ≤ x then x else s * x)) ∧ leakyRelu (.fin s) .pinf = .pinf ∧
    (0 < s → leakyRelu (.fin s) .ninf = .ninf) ∧ leakyRelu (.fin s) .nan = .nan := by
  refine ⟨fun x => ?_, ?_, fun h => ?_, by rfl⟩
  · by_cases h : 0 ≤ x
    · by_cases g : 0 < x
      · simp [leakyRelu, Num.maximum, Num.minimum, Num.lt, Num.mul, Num.add, h, g, not_lt.2 h]
      · have : x = 0 := le_antisymm (not_lt.1 g) h
        subst this
        simp [leakyRelu, Num.maximum, Num.minimum, Num.lt, Num.mul, Num.add]
    · have h' := not_le.1 h
      simp [leakyRelu, Num.maximum, Num.minimum, Num.lt, Num.mul, Num.add, h, h', not_lt.2 (le_of_lt h'), mul_comm]
  · simp [leakyRelu, Num.maximum, Num.minimum, Num.lt, Num.mul, Num.add]
  · have : ¬ (0 < -s) := by linarith
    have h' : -s < 0 := by linarith
    simp [leakyRelu, Num.maximum, Num.minimum, Num.lt, Num.mul, Num.add, signed, this, h, h']

/-- An infinite slope spoils numbers above zero, to which it does not apply. -/
theorem C103_violated_slope (x : ℚ) (h : 0 < x) : leakyRelu .pinf (.fin x) = .nan := by
  simp [leakyRelu, Num.maximum, Num.minimum, Num.lt, Num.mul, Num.add, signed, h, not_lt.2 (le_of_lt h)]

/-- Missing: replacements that are replaced again. -/
theorem C103_nanToNum_partial (largest : ℚ) (nan posinf neginf : Option Num) (h1 : nan ≠ some .pinf) (h2 : nan ≠ some .ninf) (h3 : posinf ≠ some .ninf) (x : Num) :
    nanToNum largest nan posinf neginf x = replaced (nan.getD (.fin 0)) (posinf.getD (.fin largest)) (neginf.getD (.fin (-largest))) x := by
  cases x with
  | nan => rcases nan with _ | (_ | _ | _ | _) <;> simp_all [nanToNum, replaced, Num.isNan, Num.eq]
  | ninf => simp [nanToNum, replaced, Num.isNan, Num.eq]
  | fin q => simp [nanToNum, replaced, Num.isNan, Num.eq]
  | pinf => rcases posinf with _ | (_ | _ | _ | _) <;> simp_all [nanToNum, replaced, Num.isNan, Num.eq]

/-- An infinite number asked for in place of what is not a number is replaced itself. -/
theorem C103_violated_replaced (largest : ℚ) : nanToNum largest (some .pinf) none none .nan = .fin largest ∧
    replaced .pinf (.fin largest) (.fin (-largest)) .nan = .pinf := ⟨rfl, rfl⟩

theorem C103_hardsigmoid : (∀ x : ℚ, hardsigmoid (.fin x) = .fin (if x ≤ -3 then 0 else if 3 ≤ x then 1 else x / 6 + 1 / 2)) ∧
    hardsigmoid .pinf = .fin 1 ∧ hardsigmoid .ninf = .fin 0 ∧ hardsigmoid .nan = .nan := by
  refine ⟨fun x => ?_, ?_, ?_, by rfl⟩
  · have e : ((Num.fin x).add (.fin 3)).div (.fin 6) = .fin ((x + 3) / 6) := by simp [Num.add, Num.div]
    rw [hardsigmoid, e]
    by_cases h1 : x ≤ -3
    · have g1 : (x + 3) / 6 < 1 := by linarith
      have g2 : ¬ 0 < (x + 3) / 6 := by linarith
      simp [Num.minimum, Num.maximum, Num.lt, g1, g2, h1]
    · have g2 : 0 < (x + 3) / 6 := by linarith [not_le.1 h1]
      by_cases h2 : 3 ≤ x
      · have g1 : ¬ (x + 3) / 6 < 1 := by linarith
        simp [Num.minimum, Num.maximum, Num.lt, g1, h1, h2]
      · have g1 : (x + 3) / 6 < 1 := by linarith [not_le.1 h2]
        have e2 : x / 6 + 1 / 2 = (x + 3) / 6 := by ring
        rw [if_neg h1, if_neg h2, e2]
        generalize (x + 3) / 6 = z at g1 g2
        simp [Num.minimum, Num.maximum, Num.lt, g1, g2]
  · simp [hardsigmoid, Num.minimum, Num.maximum, Num.lt, Num.add, Num.div, signed]
  · have : ¬ (6 : ℚ) < 0 := by norm_num
    simp [hardsigmoid, Num.minimum, Num.maximum, Num.lt, Num.add, Num.div, signed, this]

theorem C103_hardtanh {lo hi : ℚ} (h : lo ≤ hi) : (∀ x : ℚ, hardtanh (.fin lo) (.fin hi) (.fin x) = .fin (clamp lo hi x)) ∧
    hardtanh (.fin lo) (.fin hi) .pinf = .fin hi ∧ hardtanh (.fin lo) (.fin hi) .ninf = .fin lo ∧ hardtanh (.fin lo) (.fin hi) .nan = .nan := by
  refine ⟨fun x => ?_, ?_, ?_, by rfl⟩
  · by_cases h1 : x < lo
    · by_cases g : lo < hi
      · simp [hardtanh, Num.minimum, Num.maximum, Num.lt, clamp, h1, g]
      · have : lo = hi := le_antisymm h (not_lt.1 g)
        subst this
        simp [hardtanh, Num.minimum, Num.maximum, Num.lt, clamp, h1]
    · by_cases h2 : hi < x
      · simp [hardtanh, Num.minimum, Num.maximum, Num.lt, clamp, h1, h2, not_lt.2 (le_of_lt h2)]
      · by_cases g : x < hi
        · simp [hardtanh, Num.minimum, Num.maximum, Num.lt, clamp, h1, h2, g]
        · have : x = hi := le_antisymm (not_lt.1 h2) (not_lt.1 g)
          subst this
          simp [hardtanh, Num.minimum, Num.maximum, Num.lt, clamp, h1]
  · simp [hardtanh, Num.minimum, Num.maximum, Num.lt]
  · by_cases g : lo < hi
    · simp [hardtanh, Num.minimum, Num.maximum, Num.lt, g]
    · have : lo = hi := le_antisymm h (not_lt.1 g)
      subst this
      simp [hardtanh, Num.minimum, Num.maximum, Num.lt]

theorem Point.trunc_fin (x : ℚ) : ∃ y, trunc (.fin x) = .fin y ∧ Bucket.Truncated x y := by
  rcases lt_trichotomy x 0 with h | h | h
  · refine ⟨-(⌊-x⌋ : Int), ?_, ?_⟩
    · simp [trunc, Num.sgn, Num.lt, h, Num.abs, Num.floor, Num.mul, abs_of_neg h]
    · have := Bucket.toKind_truncated x
      rw [Bucket.toKind, if_neg (not_le.2 h)] at this
      rwa [Int.floor_neg, Int.cast_neg, neg_neg]
  · subst h
    exact ⟨0, by simp [trunc, Num.sgn, Num.gt, Num.lt, Num.abs, Num.floor, Num.mul], ⟨0, by simp⟩, by simp, by simp, by simp⟩
  · refine ⟨(⌊x⌋ : Int), ?_, ?_⟩
    · simp [trunc, Num.sgn, Num.gt, Num.lt, h, not_lt.2 (le_of_lt h), Num.abs, Num.floor, Num.mul, abs_of_pos h]
    · have := Bucket.toKind_truncated x
      rwa [Bucket.toKind, if_pos (le_of_lt h)] at this

/-- What is behind the point is dropped. -/
theorem C103_trunc : (∀ x : ℚ, ∃ y, trunc (.fin x) = .fin y ∧ Bucket.Truncated x y) ∧ trunc .pinf = .pinf ∧ trunc .ninf = .ninf ∧ trunc .nan = .nan := by
  refine ⟨trunc_fin, ?_, ?_, ?_⟩
  · simp [trunc, Num.sgn, Num.gt, Num.lt, Num.abs, Num.floor, Num.mul, signed]
  · simp [trunc, Num.sgn, Num.gt, Num.lt, Num.abs, Num.floor, Num.mul, signed]
  · rfl

/-- What is behind the point is left. -/
theorem C103_frac (x : ℚ) : ∃ y, frac (.fin x) = .fin y ∧ Bucket.Truncated x (x - y) ∧ |y| < 1 ∧ 0 ≤ x * y := by
  obtain ⟨t, h, ht⟩ := trunc_fin x
  refine ⟨x - t, by simp [frac, h, Num.sub, Num.add, Num.neg, sub_eq_add_neg], by rwa [sub_sub_cancel], ht.2.1, ?_⟩
  obtain ⟨_, _, h2, h3⟩ := ht
  have : x * t ≤ x * x := by
    rw [← abs_of_nonneg h3, abs_mul, ← abs_mul_abs_self x]
    exact mul_le_mul_of_nonneg_left h2 (abs_nonneg _)
  linarith [mul_sub x x t]

/-- Remainders of finite numbers. Missing: an infinite divisor. -/
theorem C103_fmod_partial (x y : ℚ) (hy : y ≠ 0) : ∃ r, fmod (.fin x) (.fin y) = .fin r ∧ Remainder x y r := by
  obtain ⟨t, h, ⟨k, hk⟩, h1, h2, h3⟩ := trunc_fin (x / y)
  refine ⟨x - t * y, by simp [fmod, Num.div, hy, h, Num.mul, Num.sub, Num.add, Num.neg, sub_eq_add_neg], ⟨k, by rw [hk]⟩, ?_, ?_⟩
  · have e : x - t * y = (x / y - t) * y := by field_simp
    rw [e, abs_mul]
    exact mul_lt_of_lt_one_left (abs_pos.2 hy) h1
  · have e : x * (x - t * y) = (x / y * (x / y) - x / y * t) * (y * y) := by field_simp
    rw [e]
    refine mul_nonneg ?_ (mul_self_nonneg y)
    have : x / y * t ≤ x / y * (x / y) := by
      rw [← abs_of_nonneg h3, abs_mul, ← abs_mul_abs_self (x / y)]
      exact mul_le_mul_of_nonneg_left h2 (abs_nonneg _)
    linarith

/-- The remainder by an infinite number should be the number itself. -/
theorem C103_violated_fmod (x : ℚ) : fmod (.fin x) .pinf = .nan ∧ fmod (.fin x) .ninf = .nan := by
  constructor <;> simp [fmod, Num.div, trunc, Num.sgn, Num.gt, Num.lt, Num.abs, Num.floor, Num.mul, signed, Num.sub, Num.add, Num.neg]

/-- Zero below zero, one above it, and the value asked for at it; zero for what is not a number. -/
theorem C103_heaviside (v : Num) : (∀ x : ℚ, heaviside (.fin x) v = if x = 0 then v else if x < 0 then .fin 0 else .fin 1) ∧
    heaviside .pinf v = .fin 1 ∧ heaviside .ninf v = .fin 0 ∧ heaviside .nan v = .fin 0 := by
  refine ⟨fun x => ?_, ?_, ?_, ?_⟩ <;> simp [heaviside, Num.eq, Num.lt, Num.isNan]

/-- One of both, not below any of them that is a number. -/
theorem C103_fmax (x y : Num) : (fmax x y = x ∨ fmax x y = y) ∧ (x ≠ .nan → Le x (fmax x y)) ∧ (y ≠ .nan → Le y (fmax x y)) := by
  cases x with
  | fin a =>
    cases y with
    | fin b =>
      by_cases h : a < b
      · simp [fmax, fmaxMin, Num.maximum, Num.isNan, Num.eq, Num.lt, Le, h, le_of_lt h]
      · simp [fmax, fmaxMin, Num.maximum, Num.isNan, Num.eq, Num.lt, Le, h, not_lt.1 h]
    | _ => simp [fmax, fmaxMin, Num.maximum, Num.isNan, Num.eq, Num.lt, Le]
  | _ => cases y <;> simp [fmax, fmaxMin, Num.maximum, Num.isNan, Num.eq, Num.lt, Le]

/-- One of both, not above any of them that is a number. -/
theorem C103_fmin (x y : Num) : (fmin x y = x ∨ fmin x y = y) ∧ (x ≠ .nan → Le (fmin x y) x) ∧ (y ≠ .nan → Le (fmin x y) y) := by
  cases x with
  | fin a =>
    cases y with
    | fin b =>
      by_cases h : b < a
      · simp [fmin, fmaxMin, Num.minimum, Num.isNan, Num.eq, Num.lt, Le, h, le_of_lt h]
      · simp [fmin, fmaxMin, Num.minimum, Num.isNan, Num.eq, Num.lt, Le, h, not_lt.1 h]
    | _ => simp [fmin, fmaxMin, Num.minimum, Num.isNan, Num.eq, Num.lt, Le]
  | _ => cases y <;> simp [fmin, fmaxMin, Num.minimum, Num.isNan, Num.eq, Num.lt, Le]

namespace Test103

example : softshrink (1 / 2) (.fin (-1)) = .fin (-3 / 2) := by decide +kernel

example : softshrink (1 / 2) (.fin 1) = .fin (1 / 2) := by decide +kernel

example : hardshrink (1 / 2) (.fin (-1)) = .fin (-1) := by decide +kernel

example : hardswish (.fin 1) = .fin (2 / 3) := by decide +kernel

example : leakyRelu (.fin (1 / 10)) (.fin (-2)) = .fin (-1 / 5) := by decide +kernel

example : trunc (.fin (-5 / 2)) = .fin (-2) := by decide +kernel

example : fmod (.fin (-7)) (.fin 3) = .fin (-1) := by decide +kernel

example : fmax .nan (.fin 3) = .fin 3 := by decide +kernel

example : heaviside .nan (.fin 5) = .fin 0 := by decide +kernel

end Test103

end Verif
