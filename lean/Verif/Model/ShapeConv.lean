import Verif.Model.ShapeCore
import Verif.Py.Loop

/-!
# Convolution shape functions

AIL and LIB as in `Verif.Model.ShapeCore`.
-/

namespace Verif.Shape

/-- Entry `i` of the dilation, or one when the list is empty (AIL:3362–3377, 4097–4104). -/
def dilationAt (dilation : List Int) (i : Nat) : Py Int :=
  if dilation.length > 0 then pyGet dilation i else .ok 1

/-- Entry `i` of the output padding, or zero when the list is empty (AIL:4105–4111). -/
def outputPaddingAt (outputPadding : List Int) (i : Nat) : Py Int :=
  if outputPadding.length > 0 then pyGet outputPadding i else .ok 0

/-- The size of spatial dimension `i` (AIL:3378–3392, 4130–4145). -/
def convDim (input weight stride padding dilation : List Int) (i : Nat) : Py Int := do
  let d ← dilationAt dilation i
  let k ← pyGet weight ((i + 2 : Nat) : Int)
  let n ← pyGet input ((i + 2 : Nat) : Int)
  let p ← pyGet padding i
  let s ← pyGet stride i
  if s = 0 then .error .zeroDivision
  else .ok (Int.fdiv (n + p * 2 - (d * (k - 1) + 1)) s + 1)

/-- The size of spatial dimension `i` of a transposed convolution (AIL:4112–4129). -/
def convTransposeDim (input weight stride padding dilation outputPadding : List Int) (i : Nat) : Py Int := do
  let d ← dilationAt dilation i
  let o ← outputPaddingAt outputPadding i
  let k ← pyGet weight ((i + 2 : Nat) : Int)
  let n ← pyGet input ((i + 2 : Nat) : Int)
  let s ← pyGet stride i
  let p ← pyGet padding i
  .ok ((n - 1) * s - p * 2 + d * (k - 1) + o + 1)

/-- `conv_forwards` (AIL:4067–4150). -/
def convForwards (input weight stride padding dilation : List Int) (transposed : Bool)
    (outputPadding : List Int) (groups : Int) : Py (List Int) := do
  let n ← pyGet input 0
  let c ← pyGet weight (if transposed then 1 else 0)
  let sizes ← pyMap (if transposed
      then convTransposeDim input weight stride padding dilation outputPadding
      else convDim input weight stride padding dilation) (List.range (input.length - 2))
  .ok (n :: (if transposed then c * groups else c) :: sizes)

/-- The padded input is smaller than the kernel's span in spatial dimension `i`: the last check of
`check_shape_forward` (AIL:3493–3543). -/
def convFits (input weight padding dilation : List Int) (i : Nat) : Py Unit := do
  let n ← pyGet input ((i + 2 : Nat) : Int)
  let p ← pyGet padding i
  let d ← pyGet dilation i
  let k ← pyGet weight ((i + 2 : Nat) : Int)
  pyAssert (decide (¬ n + 2 * p < d * (k - 1) + 1))

/-- `check_shape_forward` (AIL:3397–3545); `check_non_negative` (AIL:3546–3564) tells whether a list has
a negative entry. -/
def checkShapeForward (input weight : List Int) (bias : Option (List Int)) (stride padding dilation : List Int)
    (groups : Int) : Py Unit := do
  pyAssert (padding.all (fun x => decide (0 ≤ x)))
  pyAssert (stride.all (fun x => decide (0 ≤ x)))
  pyAssert (decide (weight.length = input.length))
  let co ← pyGet weight 0
  pyAssert (decide (¬ co < groups))
  pyGuard (decide (groups ≠ 0)) .zeroDivision
  pyAssert (decide (Int.fmod co groups = 0))
  let ci ← pyGet input 1
  let cg ← pyGet weight 1
  pyAssert (decide (ci = cg * groups))
  pyAssert (match bias with | none => true | some b => decide (b = [co]))
  let _ ← pyMap (convFits input weight padding dilation) (List.range (input.length - 2))
  .ok ()

/-- `conv_output_size` (AIL:3353–3396). -/
def convOutputSize (input weight : List Int) (bias : Option (List Int)) (stride padding dilation : List Int)
    (groups : Int) : Py (List Int) := do
  checkShapeForward input weight bias stride padding dilation groups
  let n ← pyGet input 0
  let co ← pyGet weight 0
  let sizes ← pyMap (convDim input weight stride padding dilation) (List.range (input.length - 2))
  .ok (n :: co :: sizes)

/-- `conv2d` (AIL:3565–3797; `conv_output_size` is inlined there) and `conv3d` (AIL:3810–4042), for
inputs of rank `dims + 2`. -/
def convNd (dims : Nat) (input weight : List Int) (bias : Option (List Int))
    (stride padding dilation : List Int) (groups : Int) : Py (List Int) := do
  pyAssert (decide (weight.length = dims + 2))
  pyAssert (decide (input.length = dims + 2))
  convOutputSize input weight bias stride padding dilation groups

/-- `conv_transpose2d_input` (AIL:4239–4318), the optional lists given. -/
def convTranspose2d (input weight stride padding outputPadding : List Int) (groups : Int)
    (dilation : List Int) : Py (List Int) := do
  let n ← pyGet input 0
  let c ← pyGet weight 1
  let sizes ← pyMap (convTranspose2dDim) (List.range (input.length - 2))
  .ok (n :: c * groups :: sizes)
where
  convTranspose2dDim (i : Nat) : Py Int := do
    let d ← dilationAt dilation i
    let k ← pyGet weight ((i + 2 : Nat) : Int)
    let n ← pyGet input ((i + 2 : Nat) : Int)
    let s ← pyGet stride i
    let p ← pyGet padding i
    let o ← pyGet outputPadding i
    .ok ((n - 1) * s - p * 2 + d * (k - 1) + o + 1)

/-- One round of the loop of `_conv_padding` (LIB:2074–2078): dilation `d` with kernel dimension `i`. -/
def convPaddingStep (weight : List Int) (acc : List Int) (di : Int × Nat) : Py (List Int) := do
  let k ← pyGet weight ((2 + di.2 : Nat) : Int)
  pySet acc (di.2 : Int) (Int.fdiv (di.1 * (k - 1)) 2)

/-- `_conv_padding` (LIB:2066–2079): the dilations in order are paired with the kernel dimensions from
the last to the first. -/
def convPadding (weight dilation : List Int) (padding : String) : Py (List Int) :=
  if ¬ weight.length > 2 then .error .assertion
  else if padding = "same" then
    pyFold (convPaddingStep weight) (List.replicate (weight.length - 2) 0)
      (dilation.zip (List.range (weight.length - 2)).reverse)
  else .ok (List.replicate (weight.length - 2) 0)

/-- `aten.conv2d.padding`, `aten.conv3d.padding` (LIB:2081–2090). -/
def convNdPadding (dims : Nat) (input weight : List Int) (bias : Option (List Int)) (stride : List Int)
    (padding : String) (dilation : List Int) (groups : Int) : Py (List Int) := do
  let p ← convPadding weight dilation padding
  convNd dims input weight bias stride p dilation groups

/-- `aten.conv1d` (LIB:2130–2131). -/
def conv1d (input weight stride padding dilation : List Int) : Py (List Int) :=
  convForwards input weight stride padding dilation false [] 1

/-- `aten.conv1d.padding` (LIB:2133–2135). -/
def conv1dPadding (input weight stride : List Int) (padding : String) (dilation : List Int) : Py (List Int) := do
  let p ← convPadding weight dilation padding
  conv1d input weight stride p dilation

/-- `aten.conv_tbc` (LIB:2095–2125): the transposed sizes are built but not used. -/
def convTbc (self weight bias : List Int) (pad : Int) : Py (List Int) := do
  pyAssert (decide (self.length = 3))
  pyAssert (decide (weight.length = 3))
  pyAssert (decide (bias.length = 1))
  let channels ← pyGet self 2
  let channelsW ← pyGet weight 1
  pyAssert (decide (channels = channelsW))
  let out ← convForwards self weight [1] [pad] [] false [] 1
  match out with
  | [b, c, t] => .ok [t, b, c]
  | _ => .error .valueError

end Verif.Shape
