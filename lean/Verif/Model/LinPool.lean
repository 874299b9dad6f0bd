import Verif.Model.Linalg

/-!
# Poolings lowered to linalg (TorchToLinalg/Pooling.cpp)

Simplified: the three-dimensional sum is computed on permuted tensors and permuted back (lines 179-211), which is left out; the lists of
strides, paddings and so on are given for each spatial dimension, after the stride was replaced by the kernel and the dilations were taken
out of the strides of an average (lines 54-61, 1155-1163); sums do not overflow; padding and accumulators are of the type of the elements.
-/

namespace Verif.Pool

open Lin

variable {E : Type}

/-- What the operator says for a spatial dimension. -/
structure Axis where
  kernel : Int
  stride : Int
  low : Int
  high : Int
  dilation : Int
  deriving DecidableEq

/-- `arith.ceildivsi`. -/
def ceilDiv (a b : Int) : Int := -((-a).fdiv b)

/-- `arith.cmpi uge` on 64 bits. -/
def uge (a b : Int) : Bool := decide (a % 2 ^ 64 ≥ b % 2 ^ 64)

/-- `getOutputDimForPoolOps` (TorchToLinalg/Utils.cpp 137-182). -/
def outDim (ceil : Bool) (n : Int) (p : Axis) : Int :=
  let dividend := n + (p.low + p.high) - p.dilation * (p.kernel - 1) - 1
  let division := if ceil then ceilDiv dividend p.stride else dividend.fdiv p.stride
  let out := division + 1
  if !ceil then out
  else if uge (division * p.stride) (n + p.low) then division else out

/-- The spatial sizes of `computeOutputTensor` (lines 72-112). -/
def outDims (ceil : Bool) : List Int → List Axis → List Int
  | n :: ns, p :: ps => outDim ceil n p :: outDims ceil ns ps
  | _, _ => []

/-- The padding after a dimension in `padInputTensor` (lines 125-141). -/
def highPad (ceil : Bool) (p : Axis) : Int := p.high + (if ceil then p.stride else 0)

/-- `tensor.pad` with a constant. -/
def pad (x : Tensor E) (low high : List Int) (v : E) : Tensor E :=
  ⟨List.zipWith (· + ·) x.sizes (List.zipWith (· + ·) low high), fun idx =>
    let j := List.zipWith (· - ·) idx low
    if inRange x.sizes j then x.elem j else some v⟩

/-- `padInputTensor` (lines 114-146): the first `lead` dimensions are not padded. -/
def padInput (x : Tensor E) (lead : Nat) (ceil : Bool) (ps : List Axis) (v : E) : Tensor E :=
  pad x (List.replicate lead 0 ++ ps.map (·.low)) (List.replicate lead 0 ++ ps.map (highPad ceil)) v

/-- The reduction loops of a window, in the order in which they run. -/
def loops : List Int → List (List Int)
  | [] => [[]]
  | k :: ks => (List.range k.toNat).flatMap fun (i : Nat) => (loops ks).map ((i : Int) :: ·)

/-- The indexing map of the input of a pooling operator. -/
def tap : List Axis → List Int → List Int → List Int
  | p :: ps, o :: os, k :: ks => (o * p.stride + k * p.dilation) :: tap ps os ks
  | _, _, _ => []

/-- One step of a reduction: an undefined element makes the result undefined. -/
def step (f : E → E → E) (acc e : Option E) : Option E := acc.bind fun a => e.map (f a)

/-- `linalg.pooling_nchw_max`, `linalg.pooling_nchw_sum` and so on, and the `linalg.generic` of `createPoolingMax3D` (lines 437-526). -/
def poolOp (f : E → E → E) (init : E) (x : Tensor E) (lead : Nat) (ps : List Axis) (sizes : List Int) : Tensor E :=
  ⟨sizes, fun idx =>
    ((loops (ps.map (·.kernel))).map fun k => x.get (idx.take lead ++ tap ps (idx.drop lead) k)).foldl (step f) (some init)⟩

/-- `createPoolingOp` (lines 150-214). -/
def lowerPool (f : E → E → E) (init : E) (x : Tensor E) (lead : Nat) (ceil : Bool) (ps : List Axis) : Tensor E :=
  poolOp f init (padInput x lead ceil ps init) lead ps (x.sizes.take lead ++ outDims ceil (x.sizes.drop lead) ps)

/-! ## Indices of the greatest elements -/

/-- Lines 635-647: the index in the input, from the last dimension to the first; sizes, paddings and indices are given in that order. -/
def flatIndex : List Int → List Int → List Int → Int → Int → Int
  | n :: ns, p :: ps, i :: is, stride, acc => flatIndex ns ps is (stride * n) (acc + (i - p) * stride)
  | _, _, _, _, acc => acc

/-- The body of the `linalg.generic` of `computeMaxPoolingIndices` (lines 613-657); `eq` is `arith.cmpf oeq`. -/
def indexStep (eq : E → E → Bool) (m : E) (res : Int) (e : E) (index : Int) : Int :=
  let result := if eq e m then index else res
  if res = -1 then result else res

/-- `computeMaxPoolingIndices` (lines 549-661) at a place of the result. -/
def poolIndex (eq : E → E → Bool) (m : E) (x padded : Tensor E) (lead : Nat) (ps : List Axis) (idx : List Int) : Option Int :=
  (loops (ps.map (·.kernel))).foldl (fun res k =>
    let j := tap ps (idx.drop lead) k
    match res, padded.get (idx.take lead ++ j) with
    | some r, some e => some (indexStep eq m r e (flatIndex (x.sizes.drop lead).reverse (ps.map (·.low)).reverse j.reverse 1 0))
    | _, _ => none) (some (-1))

/-- The second result of `ConvertAtenMaxPoolOp` (lines 664-757). -/
def lowerMaxIndex (eq : E → E → Bool) (max : E → E → E) (lo : E) (x : Tensor E) (lead : Nat) (ceil : Bool) (ps : List Axis) : Tensor Int :=
  let t := lowerPool max lo x lead ceil ps
  ⟨t.sizes, fun idx => (t.get idx).bind fun m => poolIndex eq m x (padInput x lead ceil ps lo) lead ps idx⟩

/-! ## Averages -/

/-- `getPoolSize` (lines 995-1083) for one dimension of size `n`, at place `o`. -/
def poolSizeDim (includePad : Bool) (n : Int) (p : Axis) (o : Int) : Int :=
  let start := o * p.stride - p.low
  let span := (p.kernel - 1) * p.dilation + 1
  let stop := min (start + span) (n + p.low)
  let clamped := min stop n
  let kMin := ceilDiv (max (0 - start) 0) p.dilation
  let kMax := ceilDiv (clamped - start) p.dilation
  let valid := max (kMax - kMin) 0
  let full := max (ceilDiv (stop - start) p.dilation) 0
  if !includePad then valid else full

/-- The product of lines 1076-1080. -/
def poolSize (includePad : Bool) : List Int → List Axis → List Int → Int
  | n :: ns, p :: ps, o :: os => poolSizeDim includePad n p o * poolSize includePad ns ps os
  | _, _, _ => 1

/-- `doesAvgPoolDivisorNeedsClamping` (lines 1202-1242). -/
def needsClamping (ceil includePad : Bool) (ps : List Axis) : Bool :=
  (!includePad && !(ps.all fun p => decide (p.low = 0 ∧ p.high = 0))) || (ceil && !(ps.all fun p => decide (p.stride = 1))) ||
    !(ps.all fun p => decide (p.dilation = 1))

/-- The divisor at a place of the result (lines 1271-1290 and 1318-1328). -/
def divisor (ceil includePad : Bool) (override : Option Int) (ns : List Int) (ps : List Axis) (os : List Int) : Int :=
  match override with
  | some d => d
  | none => if needsClamping ceil includePad ps then poolSize includePad ns ps os else (ps.map (·.kernel)).prod

/-- `ConvertAtenAvgPoolOp` (lines 1131-1200). -/
def lowerAvgPool (add : E → E → E) (zero : E) (div : E → Int → E) (x : Tensor E) (lead : Nat) (ceil includePad : Bool) (override : Option Int)
    (ps : List Axis) : Tensor E :=
  let t := lowerPool add zero x lead ceil ps
  ⟨t.sizes, fun idx => (t.get idx).map fun s => div s (divisor ceil includePad override (x.sizes.drop lead) ps (idx.drop lead))⟩

/-! ## Adaptive poolings -/

/-- The number of loops for a spatial dimension of size `n`, `out` in the result (lines 1659-1672). -/
def kMax (n out : Int) : Int := 1 + ceilDiv (n - 1) out

/-- Lines 1754-1757. -/
def startOf (n out o : Int) : Int := (o * n).fdiv out

/-- Lines 1760-1766. -/
def endOf (n out o : Int) : Int := 1 + ((o + 1) * n - 1).fdiv out

/-- The index of the element read (lines 1770-1777). -/
def adaptiveTap : List Int → List Int → List Int → List Int → List Int
  | n :: ns, out :: outs, o :: os, k :: ks => (startOf n out o + k) :: adaptiveTap ns outs os ks
  | _, _, _, _ => []

/-- Lines 1780-1787: whether the element is before the end of the window in every dimension. -/
def beforeEnds : List Int → List Int → List Int → List Int → Bool
  | n :: ns, out :: outs, o :: os, i :: is => decide (i < endOf n out o) && beforeEnds ns outs os is
  | _, _, _, _ => true

/-- The elements that the `linalg.generic` of `ConvertAtenAdaptivePoolOp` (lines 1702-1709, 1742-1787) sees, in order, with their indices. -/
def adaptiveElems (buf : E) (x : Tensor E) (lead : Nat) (outs : List Int) (idx : List Int) : List (List Int × Option E) :=
  let ns := x.sizes.drop lead
  let padded := pad x (List.replicate x.sizes.length 0) (List.replicate lead 0 ++ outs.map fun _ => 1) buf
  (loops (List.zipWith kMax ns outs)).map fun k =>
    let j := adaptiveTap ns outs (idx.drop lead) k
    (j, (padded.get (idx.take lead ++ j)).map fun e => if beforeEnds ns outs (idx.drop lead) j then e else buf)

/-- The index of lines 1453-1459, from the first dimension to the last. -/
def rowIndex : List Int → List Int → Int → Int
  | n :: ns, i :: is, acc => rowIndex ns is (acc * n + i)
  | _, _, acc => acc

/-- `payloadCustomization` of adaptive max pooling (lines 1439-1463); `gt` is `arith.cmpf ogt`.  The index is undefined at first
(`tensor.empty`, lines 1431-1432). -/
def maxStep (gt : E → E → Bool) (ns : List Int) (acc : Option (E × Option Int)) (e : List Int × Option E) : Option (E × Option Int) :=
  acc.bind fun a => e.2.map fun v =>
    if gt v a.1 then (v, some (rowIndex ns e.1 0)) else a

/-- Adaptive max pooling: the greatest elements and their indices (lines 1698-1700, 1734-1811). -/
def lowerAdaptiveMax (gt : E → E → Bool) (lo : E) (x : Tensor E) (lead : Nat) (outs : List Int) : Tensor E × Tensor Int :=
  let sizes := x.sizes.take lead ++ outs
  let at_ := fun idx => (adaptiveElems lo x lead outs idx).foldl (maxStep gt (x.sizes.drop lead)) (some (lo, none))
  (⟨sizes, fun idx => (at_ idx).map (·.1)⟩, ⟨sizes, fun idx => (at_ idx).bind (·.2)⟩)

/-- The volume of the window (lines 1522-1526). -/
def volume : List Int → List Int → List Int → Int
  | n :: ns, out :: outs, o :: os => (endOf n out o - startOf n out o) * volume ns outs os
  | _, _, _ => 1

/-- Adaptive average pooling (lines 1515-1559). -/
def lowerAdaptiveAvg (add : E → E → E) (zero : E) (div : E → Int → E) (x : Tensor E) (lead : Nat) (outs : List Int) : Tensor E :=
  ⟨x.sizes.take lead ++ outs, fun idx =>
    (((adaptiveElems zero x lead outs idx).map (·.2)).foldl (step fun a e => add e a) (some zero)).map fun s =>
      div s (volume (x.sizes.drop lead) outs (idx.drop lead))⟩

end Verif.Pool
