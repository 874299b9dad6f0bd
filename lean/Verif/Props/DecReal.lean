import Mathlib.Analysis.Real.Pi.Bounds
import Mathlib.Analysis.SpecialFunctions.Trigonometric.DerivHyp
import Verif.Model.DecReal

/-! # C107: operators on single elements as real functions -/

namespace Verif

open RealFn Real

/-- Linear units that are exponential below zero, whatever the sign of `alpha`. -/
theorem C107_celu {alpha : ℝ} (ha : alpha ≠ 0) (x : ℝ) : (0 < x → celu alpha x = x) ∧ (x ≤ 0 → celu alpha x = alpha * (exp (x / alpha) - 1)) := by
  have key : (0 ≤ x → 0 ≤ (exp (x / alpha) - 1) * alpha) ∧ (x ≤ 0 → (exp (x / alpha) - 1) * alpha ≤ 0) := by
    rcases lt_or_gt_of_ne ha with h | h
    · constructor
      · intro hx
        have : exp (x / alpha) ≤ 1 := exp_le_one_iff.mpr (div_nonpos_of_nonneg_of_nonpos hx h.le)
        nlinarith
      · intro hx
        have : 1 ≤ exp (x / alpha) := one_le_exp_iff.mpr (div_nonneg_of_nonpos hx h.le)
        nlinarith
    · constructor
      · intro hx
        have : 1 ≤ exp (x / alpha) := one_le_exp_iff.mpr (div_nonneg hx h.le)
        nlinarith
      · intro hx
        have : exp (x / alpha) ≤ 1 := exp_le_one_iff.mpr (div_nonpos_of_nonpos_of_nonneg hx h.le)
        nlinarith
  constructor
  · intro hx
    simp only [celu]
    rw [max_eq_right hx.le, min_eq_left (key.1 hx.le), add_zero]
  · intro hx
    simp only [celu]
    rw [max_eq_left hx, min_eq_right (key.2 hx), zero_add, mul_comm]

theorem C107_elu (alpha scale inputScale x : ℝ) :
    (0 < x → elu alpha scale inputScale x = scale * x) ∧ (x ≤ 0 → elu alpha scale inputScale x = scale * (alpha * (exp (inputScale * x) - 1))) := by
  constructor
  · intro hx
    simp only [elu]
    rw [max_eq_right hx.le, min_eq_left hx.le, zero_mul, exp_zero]
    ring
  · intro hx
    simp only [elu]
    rw [max_eq_left hx, min_eq_right hx, mul_comm x inputScale]
    ring

/-- The constants are those of PyTorch (`SELU_ALPHA` and `SELU_SCALE`). -/
theorem C107_selu (x : ℝ) :
    (0 < x → selu x = 1.0507009873554804934193349852946 * x) ∧
      (x ≤ 0 → selu x = 1.0507009873554804934193349852946 * (1.6732632423543772848170429916717 * (exp x - 1))) := by
  constructor
  · intro hx
    simp only [selu]
    rw [max_eq_right hx.le, min_eq_left hx.le, exp_zero]
    ring
  · intro hx
    simp only [selu]
    rw [max_eq_left hx, min_eq_right hx]
    ring

/-- Interpolation: the weighted mean of both ends. -/
theorem C107_lerp (start stop weight : ℝ) : lerp start stop weight = (1 - weight) * start + weight * stop := by
  simp only [lerp]
  ring

theorem C107_prelu (x weight : ℝ) : prelu x weight = max 0 x + weight * min 0 x := by
  unfold prelu
  split_ifs with h
  · rw [max_eq_left h.le, min_eq_right h.le]; ring
  · rw [max_eq_right (not_lt.mp h), min_eq_left (not_lt.mp h)]; ring

/-- The gradient is the one of the derivative. -/
theorem C107_tanh (grad x : ℝ) : HasDerivAt (fun y => grad * tanh y) (tanhBackward grad (tanh x)) x := by
  have hc : cosh x ≠ 0 := (cosh_pos x).ne'
  have h := ((hasDerivAt_sinh x).div (hasDerivAt_cosh x) hc).const_mul grad
  have e : (fun y => grad * tanh y) = fun y => grad * (sinh / cosh) y := by
    funext y
    rw [tanh_eq_sinh_div_cosh]
    rfl
  rw [e]
  refine h.congr_deriv ?_
  simp only [tanhBackward, tanh_eq_sinh_div_cosh]
  field_simp

/-- The logarithm of the sigmoid. -/
theorem C107_logSigmoid (x : ℝ) : exp (logSigmoid x) * (1 + exp (-x)) = 1 := by
  have h : 0 < 1 + exp (-x) := by positivity
  rw [logSigmoid, exp_log (by positivity)]
  field_simp

theorem C107_logAddExp (x y : ℝ) : exp (logAddExp x y) = exp x + exp y := by
  rw [logAddExp, exp_log (by positivity)]

/-- Up to the threshold, the smooth form of the larger of the element and zero; beyond, the element. -/
theorem C107_softplus {beta : ℝ} (hb : beta ≠ 0) (threshold x : ℝ) :
    (beta * x ≤ threshold → exp (beta * softplus beta threshold x) = 1 + exp (beta * x)) ∧ (threshold < beta * x → softplus beta threshold x = x) := by
  constructor
  · intro h
    simp only [softplus]
    rw [if_neg (by rw [mul_comm]; exact not_lt.mpr h), mul_div_cancel₀ _ hb, exp_log (by positivity), mul_comm]
  · intro h
    simp only [softplus]
    rw [if_pos (by rw [mul_comm]; exact h)]

/-- Degrees. -/
theorem C107_deg2rad (x : ℝ) : 180 * deg2rad x = π * x := by
  unfold deg2rad
  ring

theorem RealFn.rad2deg_error (x : ℝ) : rad2deg x - x * (180 / π) = (π / 3.14159 - 1) * (x * (180 / π)) := by
  have := pi_pos.ne'
  unfold rad2deg
  field_simp

/-- To degrees, up to one in a million. -/
theorem C107_rad2deg_partial (x : ℝ) : |rad2deg x - x * (180 / π)| ≤ 0.000001 * |x * (180 / π)| := by
  rw [rad2deg_error, abs_mul]
  refine mul_le_mul_of_nonneg_right ?_ (abs_nonneg _)
  have h1 := pi_gt_d6
  have h2 := pi_lt_d6
  rw [abs_le]
  constructor <;> norm_num <;> linarith

/-- It is off by more than six in ten millions for every angle but zero, that is, by five times the distance of numbers of 32 bits; so degrees do not become what they were. -/
theorem C107_violated_rad2deg {x : ℝ} (hx : x ≠ 0) : 0.0000006 * |x * (180 / π)| < |rad2deg x - x * (180 / π)| ∧ deg2rad (rad2deg x) ≠ x := by
  have h1 := pi_gt_d6
  have hp := pi_pos
  constructor
  · rw [rad2deg_error, abs_mul (π / 3.14159 - 1)]
    refine mul_lt_mul_of_pos_right ?_ (abs_pos.mpr (mul_ne_zero hx (by positivity)))
    refine lt_of_lt_of_le ?_ (le_abs_self _)
    norm_num
    linarith
  · intro h
    have e : x * (π / 3.14159 - 1) = 0 := by
      have : deg2rad (rad2deg x) = x * (π / 3.14159) := by
        unfold deg2rad rad2deg
        ring
      rw [mul_sub, ← this, h]
      ring
    rcases mul_eq_zero.mp e with c | c
    · exact hx c
    · norm_num at c
      linarith

/-- The gradient of linear units with a slope below zero is right for elements above zero and gradients not below. -/
theorem C107_leakyReluBackward_partial {grad input : ℝ} (slope : ℝ) (hi : 0 < input) (hg : 0 ≤ grad) : leakyReluBackward (some false) grad input slope = some grad := by
  simp only [leakyReluBackward, if_true]
  rw [max_eq_right hg, min_eq_left hi.le, zero_mul, add_zero]

/-- It is only replaced if the element is known not to be the result. -/
theorem C107_leakyReluBackward_result (grad input slope : ℝ) {s : Option Bool} (h : s ≠ some false) : leakyReluBackward s grad input slope = none := if_neg h

/-- Gradients below zero are lost, and below zero the result has the element in place of the gradient. -/
theorem C107_violated_leakyReluBackward {grad slope : ℝ} (input : ℝ) (hg : grad < 0) :
    (0 < input → leakyReluBackward (some false) grad input slope = some 0) ∧ (input < 0 → leakyReluBackward (some false) grad input slope = some (slope * input)) := by
  constructor
  · intro h
    simp only [leakyReluBackward, if_true]
    rw [max_eq_left hg.le, min_eq_left h.le, zero_mul, add_zero]
  · intro h
    simp only [leakyReluBackward, if_true]
    rw [max_eq_left hg.le, min_eq_right h.le, zero_add, mul_comm]

/-- So the result is not the gradient of a function that has the slope below zero, for any slope: the one wanted is that of the derivative. -/
theorem C107_violated_derivative (slope : ℝ) : HasDerivAt (fun y : ℝ => -1 * (max 0 y + slope * min 0 y)) (-1) 2 ∧ leakyReluBackward (some false) (-1) 2 slope ≠ some (-1) := by
  constructor
  · have h : HasDerivAt (fun y : ℝ => -1 * y) (-1 * 1) 2 := (hasDerivAt_id (2 : ℝ)).const_mul (-1)
    rw [mul_one] at h
    refine h.congr_of_eventuallyEq ?_
    filter_upwards [lt_mem_nhds (show (0 : ℝ) < 2 by norm_num)] with y hy
    rw [max_eq_right hy.le, min_eq_left hy.le]
    ring
  · rw [(C107_violated_leakyReluBackward (slope := slope) 2 (by norm_num : (-1 : ℝ) < 0)).1 (by norm_num)]
    intro h
    have := Option.some.inj h
    norm_num at this

namespace Test107

example : celu (-2) 3 = 3 := (C107_celu (by norm_num) 3).1 (by norm_num)

example : elu 2 3 4 5 = 15 := by
  rw [(C107_elu 2 3 4 5).1 (by norm_num)]
  norm_num

example : lerp 2 10 (1 / 4) = 4 := by
  rw [C107_lerp]
  norm_num

example : prelu (-3) 2 = -6 := by
  unfold prelu
  norm_num

example : tanhBackward 3 (1 / 2) = 9 / 4 := by
  unfold tanhBackward
  norm_num

example : softplus 2 20 11 = 11 := (C107_softplus (by norm_num) 20 11).2 (by norm_num)

example : deg2rad 90 = π / 2 := by
  have := C107_deg2rad 90
  linarith

example : leakyReluBackward (some false) (-5) (-3) (1 / 2) = some (-3 / 2) := by
  rw [(C107_violated_leakyReluBackward (-3) (by norm_num)).2 (by norm_num)]
  norm_num

end Test107

end Verif
