import Verif.Model.LinConv

/-!
# Gradients of convolutions lowered to linalg (TorchToLinalg/Linear.cpp 1756-2375)

Simplified: what is computed with the elements is a parameter; the operands have the same type of floating point; the parameters are constant lists of the right length;
`tensor.expand_shape` and `tensor.collapse_shape` are computed on indices.
-/

namespace Verif.Conv

open Lin

variable {E C R : Type}

/-- What is computed: the conversion of an element to the type of the sum, zero, and the conversion to the elements of the result. -/
structure GradArith (E C R : Type) where
  lift : E → C
  zero : E
  finish : C → R

/-- The arithmetic of `createConvAsGenericOp` (lines 2349-2373). -/
def GradArith.conv (ar : GradArith E C R) : Arith E E C R := ⟨ar.lift, ar.lift, ar.zero, ar.finish⟩

/-- The padding of the gradient (lines 1967-1984). -/
def gradPad (k : Int) (a : Axis) : Int := (k - 1) * a.dilation - a.padding

/-- `isValueNegative` of it (lines 813-834, 1985-1987). -/
def negativePad (k : Int) (a : Axis) : Bool := a.known && decide (gradPad k a < 0)

/-- The size of the buffer for gradients (lines 2011-2022). -/
def gradSize (n k : Int) (a : Axis) : Int := n - 1 + a.dilation * (k - 1) + 1

/-- The gradient of the result, scattered by the strides or padded with zeros (lines 1990-2046); the first `lead` dimensions are not spatial. -/
def spread (lead : Nat) (go : Tensor E) (ns ks : List Int) (as : List Axis) (zero : E) : Outcome (Tensor E) :=
  let ps := List.zipWith gradPad ks as
  if as.any fun a => decide (1 < a.stride) then
    let sizes := forAxes gradSize ns ks as
    if (List.zipWith (fun (nm : Int × Int) (pa : Int × Axis) => fits nm.2 pa.1 nm.1 pa.2.stride) ((go.sizes.drop lead).zip sizes) (ps.zip as)).all id then
      .ok (insertSlice go (fill (go.sizes.take lead ++ sizes) zero) (List.replicate lead 0 ++ ps) go.sizes (List.replicate lead 1 ++ as.map (·.stride)))
    else .bad
  else if ps.all fun p => decide (0 ≤ p) then .ok (Pool.pad go (List.replicate lead 0 ++ ps) (List.replicate lead 0 ++ ps) zero)
  else .bad

/-- An index of the kernel counted from the end, but for dimensions known to have size one (lines 1950-1965 and `flipTensor`, TorchToLinalg/Utils.cpp 734-771). -/
def flipKept : List (Option Int) → List Int → List Int → List Int
  | ty :: tys, k :: ks, i :: is => (if ty = some 1 then i else k - 1 - i) :: flipKept tys ks is
  | _, _, _ => []

/-- The flipped weight; the first `lead` dimensions are not spatial. -/
def flipSpatial (lead : Nat) (tys : List (Option Int)) (w : Tensor E) : Tensor E :=
  ⟨w.sizes, fun idx => w.get (idx.take lead ++ flipKept tys (w.sizes.drop lead) (idx.drop lead))⟩

/-- Strides of one. -/
def unitStrides (as : List Axis) : List Axis := as.map fun a => { a with stride := 1 }

/-- The `tensor.collapse_shape` of the first two dimensions (lines 2128-2134). -/
def collapseFirst (f : Int) (sizes : List Int) (t : Tensor C) : Tensor C :=
  ⟨sizes, fun idx => t.get (idx.getD 0 0 / f :: idx.getD 0 0 % f :: idx.drop 1)⟩

/-- The type of a result: a collapsed one has to be that of its operand, others are cast (lines 2065-2082, 2123-2141, 2170-2179). -/
def closeGrad (ar : GradArith E C R) (g : Int) (ty resTy : List (Option Int)) (t : Tensor C) : Outcome (Tensor R) :=
  if (if 1 < g then decide (resTy = ty) else castOk resTy t.sizes) then .ok ⟨t.sizes, fun idx => (t.elem idx).map ar.finish⟩ else .bad

/-- The gradient of the input (lines 1942-2083, `createConvInputGradient`, lines 2188-2267). -/
def lowerInputGrad [Add C] [Mul C] [Zero C] (ar : GradArith E C R) (g : Int) (as : List Axis) (go x w : Operand E) (resTy : List (Option Int)) : Outcome (Tensor R) :=
  let ns := x.tensor.sizes.drop 2
  let ks := w.tensor.sizes.drop 2
  if (List.zipWith negativePad ks as).any id then .unmatched
  else if 1 < g then
    let init := fill (size x.tensor 0 :: g :: (size x.tensor 1).fdiv g :: ns) 0
    let weight := flipSpatial 3 (w.type.drop 2) (expandWeight g w.tensor)
    (spread 3 (expandGroups g go.tensor) ns ks as ar.zero).bind fun go' =>
      closeGrad ar g x.type resTy (collapseGroups ((size x.tensor 1).fdiv g) x.tensor.sizes
        (convOp ar.conv go' weight init (size weight 1 :: ks)
          (fun idx r => idx.getD 0 0 :: idx.getD 1 0 :: r.getD 0 0 :: tap (unitStrides as) (idx.drop 3) (r.drop 1))
          (fun idx r => idx.getD 1 0 :: r.getD 0 0 :: idx.getD 2 0 :: r.drop 1)))
  else
    let weight := flipSpatial 2 (w.type.drop 2) w.tensor
    (spread 2 go.tensor ns ks as ar.zero).bind fun go' =>
      closeGrad ar g x.type resTy (convOp ar.conv go' weight (fill x.tensor.sizes 0) (size weight 0 :: ks)
        (fun idx r => idx.getD 0 0 :: r.getD 0 0 :: tap (unitStrides as) (idx.drop 2) (r.drop 1))
        (fun idx r => r.getD 0 0 :: idx.getD 1 0 :: r.drop 1))

/-- The gradient of the weight (lines 2085-2142, `createConvWeightGradient`, lines 2269-2347). -/
def lowerWeightGrad [Add C] [Mul C] [Zero C] (ar : GradArith E C R) (g : Int) (as : List Axis) (go x w : Operand E) (resTy : List (Option Int)) : Outcome (Tensor R) :=
  let ps := as.map (·.padding)
  let os := go.tensor.sizes.drop 2
  let ks := w.tensor.sizes.drop 2
  if 1 < g then
    let f := (size w.tensor 0).fdiv g
    closeGrad ar g w.type resTy (collapseFirst f w.tensor.sizes
      (convOp ar.conv (Pool.pad (expandGroups g x.tensor) (List.replicate 3 0 ++ ps) (List.replicate 3 0 ++ ps) ar.zero) (expandGroups g go.tensor)
        (fill (g :: f :: size w.tensor 1 :: ks) 0) (size go.tensor 0 :: os)
        (fun idx r => r.getD 0 0 :: idx.getD 0 0 :: idx.getD 2 0 :: tap as (r.drop 1) (idx.drop 3))
        (fun idx r => r.getD 0 0 :: idx.getD 0 0 :: idx.getD 1 0 :: r.drop 1)))
  else
    closeGrad ar g w.type resTy (convOp ar.conv (Pool.pad x.tensor (List.replicate 2 0 ++ ps) (List.replicate 2 0 ++ ps) ar.zero) go.tensor
      (fill w.tensor.sizes 0) (size go.tensor 0 :: os)
      (fun idx r => r.getD 0 0 :: idx.getD 1 0 :: tap as (r.drop 1) (idx.drop 2))
      (fun idx r => r.getD 0 0 :: idx.getD 0 0 :: r.drop 1))

/-- The gradient of the bias (lines 2144-2180): a reduction over all dimensions but the second. -/
def lowerBiasGrad [Add C] [Zero C] (ar : GradArith E C R) (go : Operand E) (resTy : List (Option Int)) : Outcome (Tensor R) :=
  let t : Tensor C := ⟨[size go.tensor 1], fun idx => (Pool.loops (size go.tensor 0 :: go.tensor.sizes.drop 2)).foldl
    (fun acc r => acc.bind fun c => (go.tensor.get (r.getD 0 0 :: idx.getD 0 0 :: r.drop 1)).map fun a => ar.lift a + c) (some 0)⟩
  closeGrad ar 1 resTy resTy t

/-- A result that is wanted. -/
def wanted {T : Type} (m : Bool) (o : Outcome T) : Outcome (Option T) := if m then o.bind fun t => .ok (some t) else .ok none

/-- `ConvertAtenConvolutionBackwardOp`: `mask` are the results wanted and `used` those that are used (lines 1786-1855, 2182-2184). -/
def lowerBackward [Add C] [Mul C] [Zero C] (ar : GradArith E C R) (transposed : Bool) (g : Int) (as : List Axis) (mask used : List Bool) (go x w : Operand E)
    (xTy wTy bTy : List (Option Int)) : Outcome (Option (Tensor R) × Option (Tensor R) × Option (Tensor R)) :=
  if go.type.length < 3 ∨ 5 < go.type.length then .unmatched
  else if transposed then .unmatched
  else match mask with
  | [m0, m1, m2] =>
    if (List.zipWith (fun m u => !m && u) mask used).any id then .unmatched
    else if as.any fun a => decide (a.outPad ≠ 0) then .unmatched
    else
      (wanted m0 (lowerInputGrad ar g as go x w xTy)).bind fun dx =>
      (wanted m1 (lowerWeightGrad ar g as go x w wTy)).bind fun dw =>
      (wanted m2 (lowerBiasGrad ar go bTy)).bind fun db => .ok (dx, dw, db)
  | _ => .unmatched

end Verif.Conv
