import Mathlib.Analysis.SpecialFunctions.Log.Basic
import Mathlib.Analysis.SpecialFunctions.Trigonometric.Basic

/-!
# Decomposition of operators on single elements into real functions (DecomposeComplexOps.cpp 1279-1314, 2723-2750, 3230-3263, 4293-4333, 4390-4413, 4590-4790, 7382-7410, 9803-9813)

Simplified: elements are real numbers, and operators compute exactly, so that rounding, infinite elements and elements that are not a number are left out. Conversions between element types and checks of types are left out.
-/

namespace Verif.RealFn

open Real

/-- `DecomposeAtenDeg2radOp` (lines 1279-1314). -/
noncomputable def deg2rad (x : ℝ) : ℝ := x / 180 * π

/-- `DecomposeAtenRad2degOp` (lines 9803-9813). -/
noncomputable def rad2deg (x : ℝ) : ℝ := x * (180 / 3.14159)

/-- `DecomposeAtenTanhBackwardOp` (lines 2723-2750). -/
def tanhBackward (grad output : ℝ) : ℝ :=
  let tanhSquare := output * output
  let gradMulTanhSquare := tanhSquare * grad
  grad - gradMulTanhSquare

/-- `DecomposeAtenLogSigmoidOp` (lines 3230-3240). -/
noncomputable def logSigmoid (x : ℝ) : ℝ := log (1 / (1 + exp (-x)))

/-- `DecomposeAtenLogAddExpOp` (lines 3244-3263). -/
noncomputable def logAddExp (x y : ℝ) : ℝ := log (exp x + exp y)

/-- `DecomposeAtenLeakyReluBackwardOp` (lines 4293-4333); `selfIsResult` is missing if it is not a constant. -/
noncomputable def leakyReluBackward (selfIsResult : Option Bool) (grad input slope : ℝ) : Option ℝ :=
  if selfIsResult = some false then
    let positiveOutput := max 0 grad
    let negativeOutput := min 0 input
    some (positiveOutput + negativeOutput * slope)
  else none

/-- `DecomposeAtenPreluOp` (lines 4390-4413), for an element and the weight that goes with it. -/
noncomputable def prelu (input weight : ℝ) : ℝ := if input < 0 then input * weight else input

/-- `DecomposeAtenCeluOp` (lines 4590-4629). -/
noncomputable def celu (alpha input : ℝ) : ℝ :=
  let positiveOutput := max 0 input
  let expXM1 := exp (input / alpha) - 1
  let negativeOutput := min 0 (expXM1 * alpha)
  positiveOutput + negativeOutput

/-- `DecomposeAtenLerpScalarOp` (lines 4633-4658) and `DecomposeAtenLerpTensorOp` (lines 4662-4687). -/
def lerp (start stop weight : ℝ) : ℝ :=
  let delta := stop - start
  start + delta * weight

/-- `DecomposeAtenEluOp` (lines 4692-4734). -/
noncomputable def elu (alpha scale inputScale input : ℝ) : ℝ :=
  let positiveOutput := max 0 input * scale
  let expXM1 := exp (min 0 input * inputScale) - 1
  let negativeOutput := expXM1 * scale * alpha
  positiveOutput + negativeOutput

/-- `DecomposeAtenSeluOp` (lines 4739-4789). -/
noncomputable def selu (input : ℝ) : ℝ :=
  let scale := 1.0507009873554804934193349852946
  let alpha := 1.6732632423543772848170429916717
  let negativeOutput := (exp (min 0 input) - 1) * alpha
  (max 0 input + negativeOutput) * scale

/-- `DecomposeAtenSoftplusOp` (lines 7382-7410). -/
noncomputable def softplus (beta threshold input : ℝ) : ℝ :=
  let out := log (1 + exp (input * beta)) / beta
  if input * beta > threshold then input else out

end Verif.RealFn
