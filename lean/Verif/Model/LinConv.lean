import Verif.Model.LinMatmul
import Verif.Model.LinPool

/-!
# Convolutions lowered to linalg (TorchToLinalg/Linear.cpp 813-1754)

Simplified: what is computed with the elements is a parameter, and quantized elements are given after the shift of unsigned ones; the bias is given
after its conversion; the lists of strides, paddings and so on are constants, given for each spatial dimension; permutations of quantized
tensors and back (lines 1287-1322, 1387-1417) are left out; `tensor.expand_shape` and `tensor.collapse_shape` are computed on indices; the static sizes
of operands of linalg are not verified against each other, and an element they read outside of an operand is undefined.
-/

namespace Verif.Conv

open Lin

variable {A B C R : Type}

/-- What is computed: an element of the input and one of the weight, less their zero points, in the type of the sum, the value to pad with, and the
conversion to the elements of the result. -/
structure Arith (A B C R : Type) where
  liftX : A → C
  liftW : B → C
  pad : A
  finish : C → R

/-- What the operator says for a spatial dimension, and if the size of the kernel and the padding are known. -/
structure Axis where
  stride : Int
  padding : Int
  dilation : Int
  outPad : Int
  known : Bool
  deriving DecidableEq

/-- A size. -/
def size {E : Type} (t : Tensor E) (d : Nat) : Int := t.sizes.getD d 0

/-- For each spatial dimension a value of its size, of that of the kernel and of what the operator says. -/
def forAxes {α : Type} (f : Int → Int → Axis → α) : List Int → List Int → List Axis → List α
  | n :: ns, k :: ks, a :: as => f n k a :: forAxes f ns ks as
  | _, _, _ => []

/-- `getOutputDimForConvOps` (TorchToLinalg/Utils.cpp 91-135) without `ceilMode`. -/
def outDim (n k : Int) (a : Axis) : Int := (n + a.padding * 2 - a.dilation * (k - 1) - 1).fdiv a.stride + 1

/-- `getOutputDimForConvTransposeOps` (TorchToLinalg/Utils.cpp 184-208). -/
def transposedDim (n k : Int) (a : Axis) : Int := (n - 1) * a.stride - a.padding * 2 + (k - 1) * a.dilation + a.outPad + 1

/-- `getDynamicZeroPaddedTensor` (TorchToLinalg/Utils.cpp 66-89) with two dimensions that are not padded. -/
def padInput (x : Tensor A) (as : List Axis) (v : A) : Tensor A :=
  Pool.pad x (0 :: 0 :: as.map (·.padding)) (0 :: 0 :: as.map (·.padding)) v

/-! ## The input of a transposed convolution (`createTransposedInputPadding`, lines 1634-1754) -/

/-- `innerSize` (lines 1655-1659). -/
def inner (n _k : Int) (a : Axis) : Int := (n - 1) * a.stride + 1

/-- `offset` (lines 1661-1665). -/
def offset (_n k : Int) (a : Axis) : Int := (k - 1) * a.dilation - a.padding

/-- `outerSize` (lines 1669-1679). -/
def outer (n k : Int) (a : Axis) : Int := offset n k a * 2 + inner n k a + a.outPad

/-- `isValueNegative(offset)` (lines 813-834, 1680): the offset has to fold to a constant. -/
def crops (n k : Int) (a : Axis) : Bool := a.known && decide (offset n k a < 0)

/-- `insertSliceOffsets` (lines 1690, 1693). -/
def insertAt (n k : Int) (a : Axis) : Int := if crops n k a then 0 else offset n k a

/-- `extractSliceOffsets` (lines 1689, 1692). -/
def extractAt (n k : Int) (a : Axis) : Int := if crops n k a then offset n k a * -1 else 0

/-- `maxSizes` (lines 1712-1721): the comparison is one without signs. -/
def maxSize (n k : Int) (a : Axis) : Int := if outer n k a % 2 ^ 64 > inner n k a % 2 ^ 64 then outer n k a else inner n k a

/-- A slice lies in its destination. -/
def fits (dest : Int) (at' n stride : Int) : Bool := decide (0 ≤ at' ∧ at' + (n - 1) * stride < dest)

/-- `createTransposedInputPadding` (lines 1702-1754). -/
def transposedInput (x : Tensor A) (ks : List Int) (as : List Axis) (v : A) : Outcome (Tensor A) :=
  let ns := x.sizes.drop 2
  let lead := x.sizes.take 2
  let strides := 1 :: 1 :: as.map (·.stride)
  if (forAxes crops ns ks as).any id then
    if (forAxes (fun n k a => fits (maxSize n k a) (insertAt n k a) n a.stride && fits (maxSize n k a) (extractAt n k a) (outer n k a) 1) ns ks as).all id then
      let buf := insertSlice x (fill (lead ++ forAxes maxSize ns ks as) v) (0 :: 0 :: forAxes insertAt ns ks as) x.sizes strides
      .ok (extractSlice buf (0 :: 0 :: forAxes extractAt ns ks as) (lead ++ forAxes outer ns ks as) (List.replicate x.sizes.length 1))
    else .bad
  else if (forAxes (fun n k a => fits (outer n k a) (insertAt n k a) n a.stride) ns ks as).all id then
    .ok (insertSlice x (fill (lead ++ forAxes outer ns ks as) v) (0 :: 0 :: forAxes insertAt ns ks as) x.sizes strides)
  else .bad

/-! ## Groups -/

/-- `expandWeight` (lines 1066-1088). -/
def expandWeight (g : Int) (w : Tensor B) : Tensor B :=
  ⟨g :: size w 0 / g :: w.sizes.drop 1, fun idx => w.elem ((idx.getD 0 0 * (size w 0 / g) + idx.getD 1 0) :: idx.drop 2)⟩

/-- `expandGroups` (lines 1451-1481). -/
def expandGroups {E : Type} (g : Int) (x : Tensor E) : Tensor E :=
  ⟨size x 0 :: g :: size x 1 / g :: x.sizes.drop 2, fun idx => x.elem (idx.getD 0 0 :: (idx.getD 1 0 * (size x 1 / g) + idx.getD 2 0) :: idx.drop 3)⟩

/-- The `tensor.collapse_shape` of lines 1580-1582; `f` is the number of channels of a group. -/
def collapseGroups (f : Int) (sizes : List Int) (t : Tensor C) : Tensor C :=
  ⟨sizes, fun idx => t.get (idx.getD 0 0 :: idx.getD 1 0 / f :: idx.getD 1 0 % f :: idx.drop 2)⟩

/-- An index counted from the end. -/
def flipped (ks idx : List Int) : List Int := List.zipWith (fun k i => k - 1 - i) ks idx

/-- The transposed and flipped weight (lines 1098-1144); the first `off` dimensions are those of groups. -/
def flipWeight (off : Nat) (w : Tensor B) : Tensor B :=
  ⟨w.sizes.take off ++ size w (off + 1) :: size w off :: w.sizes.drop (off + 2), fun idx =>
    w.get (idx.take off ++ idx.getD (off + 1) 0 :: idx.getD off 0 :: flipped (w.sizes.drop (off + 2)) (idx.drop (off + 2)))⟩

/-! ## Operations of linalg -/

/-- The indices of the input that belong to a place and an index of the kernel. -/
def tap : List Axis → List Int → List Int → List Int
  | a :: as, o :: os, k :: ks => (o * a.stride + k * a.dilation) :: tap as os ks
  | _, _, _ => []

/-- A convolution of linalg: `red` are the sizes of the loops that sum, `xi` and `wi` the indices of the operands. -/
def convOp [Add C] [Mul C] (ar : Arith A B C R) (x : Tensor A) (w : Tensor B) (init : Tensor C) (red : List Int) (xi wi : List Int → List Int → List Int) : Tensor C :=
  ⟨init.sizes, fun idx => (Pool.loops red).foldl (fun acc r => acc.bind fun c => (x.get (xi idx r)).bind fun a => (w.get (wi idx r)).map fun b =>
    c + ar.liftX a * ar.liftW b) (init.get idx)⟩

/-- `linalg.conv_1d_ncw_fcw`, `linalg.conv_2d_nchw_fchw`, `linalg.conv_3d_ncdhw_fcdhw` and the quantized ones (lines 1241-1326). -/
def plainConv [Add C] [Mul C] (ar : Arith A B C R) (as : List Axis) (x : Tensor A) (w : Tensor B) (init : Tensor C) : Tensor C :=
  convOp ar x w init (size x 1 :: w.sizes.drop 2) (fun idx r => idx.getD 0 0 :: r.getD 0 0 :: tap as (idx.drop 2) (r.drop 1)) (fun idx r => idx.getD 1 0 :: r)

/-- `linalg.depthwise_conv_2d_nchw_chw` and the quantized one, on the weight with its first two dimensions collapsed (lines 1349-1418). -/
def depthwiseConv [Add C] [Mul C] (ar : Arith A B C R) (as : List Axis) (x : Tensor A) (w : Tensor B) (init : Tensor C) : Tensor C :=
  let collapsed : Tensor B := ⟨size w 0 * size w 1 :: w.sizes.drop 2, fun idx => w.elem (idx.getD 0 0 / size w 1 :: idx.getD 0 0 % size w 1 :: idx.drop 1)⟩
  convOp ar x collapsed init (w.sizes.drop 2) (fun idx r => idx.getD 0 0 :: idx.getD 1 0 :: tap as (idx.drop 2) r) (fun idx r => idx.getD 1 0 :: r)

/-- `linalg.conv_2d_ngchw_gfchw`, the quantized one, and the `linalg.generic` of lines 1506-1578 (lines 1490-1579). -/
def groupedConv [Add C] [Mul C] (ar : Arith A B C R) (as : List Axis) (x : Tensor A) (w : Tensor B) (init : Tensor C) : Tensor C :=
  convOp ar x w init (size x 2 :: w.sizes.drop 3) (fun idx r => idx.getD 0 0 :: idx.getD 1 0 :: r.getD 0 0 :: tap as (idx.drop 3) (r.drop 1))
    (fun idx r => idx.getD 1 0 :: idx.getD 2 0 :: r)

/-- The initial sums (lines 1173-1209). -/
def initial [Zero C] (bias : Option (Tensor C)) (sizes : List Int) : Tensor C :=
  match bias with
  | some b => ⟨sizes, fun idx => b.get [idx.getD 1 0]⟩
  | none => fill sizes 0

/-! ## The pattern -/

/-- The condition of lines 1343-1348: `weightShape` is that of the weight after groups were expanded, if it is transposed. -/
def isDepthwise (g : Int) (transposed : Bool) (xTy wTy : List (Option Int)) : Bool :=
  decide (xTy.getD 1 none = some g) && (transposed || decide (wTy.getD 0 none = some g)) && decide (wTy.getD 1 none = some 1)

/-- What is refused or does not verify (lines 1323-1325, 1358-1385, 1442-1448): the weight of a transposed convolution has too many dimensions to be collapsed,
and integers are multiplied with `arith.mulf` (lines 1574-1575). -/
def refused (kind : Mat.Kind) (dims : Nat) (g : Int) (transposed depthwise : Bool) : Option (Outcome (Tensor C)) :=
  if g = 1 then if kind = .quantized ∧ dims = 1 then some .unmatched else none
  else if depthwise then if dims ≠ 2 then some .unmatched else if transposed then some .bad else none
  else if dims = 3 then if kind = .quantized then some .unmatched else if kind = .int then some .bad else none
  else none

/-- Lines 987-1582: the convolution before its conversion to the type of the result. -/
def convolve [Add C] [Mul C] [Zero C] (ar : Arith A B C R) (kind : Mat.Kind) (g : Int) (transposed : Bool) (as : List Axis) (x : Operand A) (w : Operand B)
    (bias : Option (Tensor C)) : Outcome (Tensor C) :=
  let ns := x.tensor.sizes.drop 2
  let ks := w.tensor.sizes.drop 2
  let depthwise := isDepthwise g transposed x.type w.type
  if (bias.map fun b => b.sizes.length).getD 1 ≠ 1 then .unmatched
  else match refused kind (x.type.length - 2) g transposed depthwise with
  | some r => r
  | none =>
    if (size x.tensor 1).tmod g ≠ 0 ∨ (size w.tensor 0).tmod g ≠ 0 then .aborts
    else if transposed then
      (transposedInput x.tensor ks as ar.pad).bind fun padded =>
        let weight := if 1 < g then flipWeight 1 (expandWeight g w.tensor) else flipWeight 0 w.tensor
        let f := if 1 < g then size w.tensor 1 * g else size w.tensor 1
        let init := initial bias (size x.tensor 0 :: f :: forAxes transposedDim ns ks as)
        let one := as.map fun a => { a with stride := 1 }
        if g = 1 then .ok (plainConv ar one padded weight init)
        else .ok (collapseGroups (f / g) init.sizes (groupedConv ar one (expandGroups g padded) weight (expandGroups g init)))
    else
      let padded := padInput x.tensor as ar.pad
      let init := initial bias (size x.tensor 0 :: size w.tensor 0 :: forAxes outDim ns ks as)
      if g = 1 then .ok (plainConv ar as padded w.tensor init)
      else if depthwise then .ok (depthwiseConv ar as padded w.tensor init)
      else .ok (collapseGroups (size w.tensor 0 / g) init.sizes (groupedConv ar as (expandGroups g padded) (expandWeight g w.tensor) (expandGroups g init)))

/-- `unsqueezeTensor` (Conversion/Utils/Utils.cpp 481-522) at the end. -/
def unsqueeze {E : Type} (x : Operand E) : Operand E :=
  ⟨⟨x.tensor.sizes ++ [1], fun idx => x.tensor.elem idx.dropLast⟩, x.type ++ [some 1]⟩

/-- `squeezeTensor` (Conversion/Utils/Utils.cpp 526-585) at the end, for a size that is one or not known. -/
def squeeze (t : Tensor C) : Outcome (Tensor C) :=
  if t.sizes.getLast? = some 1 then .ok ⟨t.sizes.dropLast, fun idx => t.elem (idx ++ [0])⟩ else .aborts

/-- `ConvertAtenConvolutionOp`: a convolution in one dimension with groups is one in two (lines 911-915, 952-985, 1591-1600). -/
def lower [Add C] [Mul C] [Zero C] (ar : Arith A B C R) (kind : Mat.Kind) (g : Int) (transposed : Bool) (as : List Axis) (x : Operand A) (w : Operand B)
    (bias : Option (Tensor C)) (resTy : List (Option Int)) : Outcome (Tensor R) :=
  if x.type.length < 3 ∨ 5 < x.type.length then .unmatched
  else
    (if x.type.length = 3 ∧ g ≠ 1 then (convolve ar kind g transposed (as ++ [⟨1, 0, 1, 0, true⟩]) (unsqueeze x) (unsqueeze w) bias).bind squeeze
      else convolve ar kind g transposed as x w bias).bind fun t =>
    if castOk resTy t.sizes then .ok ⟨t.sizes, fun idx => (t.elem idx).map ar.finish⟩ else .bad

/-! ## Lists of one element (Torch/IR/TorchOps.cpp 5876-5882, 6053-6196) -/

/-- The parameters of a convolution. -/
structure Params where
  stride : List Int
  padding : List Int
  dilation : List Int
  outPad : List Int
  deriving DecidableEq

/-- `expand`. -/
def expand (l : List Int) (dims : Nat) : List Int :=
  match l with
  | [p] => List.replicate (1 + (dims - 1)) p
  | l => l

/-- `CanonicalizeConvolutionWithSingleIntTuple`, for constant lists that are long enough after `expand`. -/
def canonicalize (transposed : Bool) (rank : Nat) (p : Params) : Option Params :=
  if rank < 4 ∨ 5 < rank then none
  else
    let dims := rank - 2
    if p.stride.length = dims ∧ p.padding.length = dims ∧ p.dilation.length = dims then none
    else if transposed ∧ p.outPad.length = dims then none
    else some ⟨(expand p.stride dims).take dims, (expand p.padding dims).take dims, (expand p.dilation dims).take dims,
      if transposed then (expand p.outPad dims).take dims else p.outPad⟩

end Verif.Conv
