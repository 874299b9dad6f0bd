import Verif.Model.LinView

/-!
# Decomposition of adaptive pooling (DecomposeComplexOps.cpp 9517-9602, 9619-9756)

Simplified: integers are not bounded; instead of pooled values, the windows that are pooled are given, along each dimension, as pairs of the first place and the one after the last. Indices of the largest elements are left out.
-/

namespace Verif.Adapt

open Lin

/-- Size of the window and distance between windows. -/
structure Axis where
  kernel : Int
  stride : Int
  deriving DecidableEq

/-- One dimension of `DecomposeAtenAdaptivePool2dOp` (lines 9661-9717), when the program runs; `aten.remainder.int` and `aten.floordiv.int` round down. -/
def axis2d (input output : Int) : Outcome Axis :=
  if output = 0 then .bad
  else
    let remainder := input.fmod output
    let cond1 := decide (output > remainder * (output - 1))
    if !cond1 then .aborts
    else
      let cond2 := decide (remainder = 0)
      let offset : Int := if remainder ≠ 0 then 0 else 1
      let remainderNotZero := remainder + offset
      let cond3 := decide (output.fmod remainderNotZero = 0)
      if !(cond2 || cond3) then .aborts
      else
        let stride := input.fdiv output
        let kernel := input.fdiv output + (if remainder ≠ 0 then 1 else 0)
        .ok ⟨kernel, stride⟩

/-- Windows of `aten.avg_pool` and `aten.max_pool` along a dimension, without padding, dilation or rounding up; sizes and distances must be positive. -/
def windows (input : Int) (a : Axis) : Outcome (List (Int × Int)) :=
  if a.kernel ≤ 0 ∨ a.stride ≤ 0 ∨ input < a.kernel then .bad
  else .ok ((List.range ((input - a.kernel).fdiv a.stride + 1).toNat).map fun (i : Nat) => ((i : Int) * a.stride, (i : Int) * a.stride + a.kernel))

/-- `DecomposeAtenAdaptivePool2dOp` (lines 9619-9756): the windows along both dimensions. `sizes` are the sizes of the input, if its rank is known; `outputs` are the elements of the list of sizes asked for, if it is made in the program; their number is not looked at. -/
def pool2d (sizes : Option (List Int)) (outputs : Option (List Int)) : Outcome (List (Int × Int) × List (Int × Int)) :=
  match sizes with
  | none => .unmatched
  | some sizes => match outputs with
    | some [outH, outW] =>
      let inH := sizes.getD (sizes.length - 2) 0
      let inW := sizes.getD (sizes.length - 1) 0
      (axis2d inH outH).bind fun h => (axis2d inW outW).bind fun w =>
        (windows inH h).bind fun hs => (windows inW w).bind fun ws => .ok (hs, ws)
    | _ => .crash

/-- `DecomposeAtenAdaptivePool1dOp` (lines 9517-9602). `output` is the size asked for, if it is a constant; `strict` says that symbolic shapes are strict. -/
def pool1d (strict : Bool) (sizes : Option (List Int)) (output : Option Int) : Outcome (List (Int × Int)) :=
  match sizes with
  | none => .unmatched
  | some sizes =>
    let input := sizes.getD (sizes.length - 1) 0
    match output with
    | none => .unmatched
    | some output =>
      if output = 1 then windows input ⟨input, 1⟩
      else if !strict && decide (input ≠ output) then .aborts
      else windows input ⟨1, 1⟩

end Verif.Adapt
