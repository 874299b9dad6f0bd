import Verif.Model.LinPool
import Verif.Model.LinSqueeze
import Mathlib.Order.BoundedOrder.Basic
import Mathlib.Order.Defs.LinearOrder

/-!
# Reductions lowered to linalg (TorchToLinalg/Reduction.cpp, TorchToLinalg/Utils.cpp 210-263)

Simplified: floats and what is computed with them are parameters; the checks that `dim` and `keepdim` are constants are left out, as is the
cast to the type of the result of `ConvertReductionOp`; complex numbers are not modelled.
-/

namespace Verif.Red

open Lin

variable {E F : Type}

/-- `dim`: none, a list or a number. -/
inductive DimArg where
  | none
  | list (l : List Int)
  | int (d : Int)
  deriving DecidableEq

/-- `dimSet` of `computeReductionOpInfoForDimVariantOp` (lines 476-504); the same as lines 531-545 for a list. -/
def dimSet (rank : Nat) : DimArg → Option (List Nat)
  | .none => some (List.range rank)
  | .list l =>
    if l.isEmpty then some (List.range rank)
    else some (((l.map fun d => toPositiveDim d rank).filter fun d => isValidDim d rank).map Int.toNat)
  | .int d => if !isValidDim (toPositiveDim d rank) rank then Option.none else some [(toPositiveDim d rank).toNat]

/-! ## The loops -/

/-- `resultShape` of `createReductionLinalgGeneric` (Utils.cpp 220-229), from dimension `d` on. -/
def resultSizes (dims : List Nat) (keep : Bool) : Nat → List Int → List Int
  | _, [] => []
  | d, n :: ns =>
    if !dims.contains d then n :: resultSizes dims keep (d + 1) ns
    else if keep then 1 :: resultSizes dims keep (d + 1) ns
    else resultSizes dims keep (d + 1) ns

/-- `resultExprs` (Utils.cpp 236-251): the indexing map of the result. -/
def resultIndex (dims : List Nat) (keep : Bool) : Nat → List Int → List Int
  | _, [] => []
  | d, i :: is =>
    if dims.contains d then
      if keep then 0 :: resultIndex dims keep (d + 1) is else resultIndex dims keep (d + 1) is
    else i :: resultIndex dims keep (d + 1) is

/-- One iteration of the `linalg.generic`. -/
def visit (x : Tensor E) (dims : List Nat) (keep : Bool) (body : List Int → E → F → F) (acc : List Int → Option F) (p : List Int) : List Int → Option F :=
  let q := resultIndex dims keep 0 p
  fun r => if r = q then (acc q).bind fun a => (x.get p).map fun e => body p e a else acc r

/-- `createReductionLinalgGeneric` (Utils.cpp 210-263). -/
def reduce (x : Tensor E) (dims : List Nat) (keep : Bool) (init : F) (body : List Int → E → F → F) : Tensor F :=
  ⟨resultSizes dims keep 0 x.sizes, (Pool.loops x.sizes).foldl (visit x dims keep body) (fun _ => some init)⟩

/-- `ConvertReductionOp` (lines 770-796). -/
def lowerReduction (x : Tensor E) (arg : DimArg) (keep : Bool) (init : F) (body : E → F → F) : Outcome (Tensor F) :=
  match dimSet x.sizes.length arg with
  | .none => .unmatched
  | some dims => .ok (reduce x dims keep init fun _ => body)

/-! ## Integers -/

/-- The type of the elements of a tensor: `bool` has one bit. -/
structure IntTy where
  width : Nat
  unsigned : Bool
  deriving DecidableEq

/-- `useUnsignedIntegerSemantics` (Torch/Utils/Utils.cpp 21-23). -/
def IntTy.useUnsigned (t : IntTy) : Bool := t.unsigned || decide (t.width = 1)

/-- The type after the conversion of types, which drops the sign (BackendTypeConversion.cpp 188-190). -/
def IntTy.signless (t : IntTy) : IntTy := ⟨t.width, false⟩

/-- `convertScalarToDtype` (Conversion/Utils/Utils.cpp 288-385) on integers, without the original types. -/
def convert (w v : Nat) (e : BitVec w) : BitVec v :=
  if w = v then e.setWidth v
  else if v = 1 then (if e ≠ 0#w then 1#v else 0#v)
  else if v < w then e.setWidth v
  else if w = 1 then e.setWidth v
  else e.signExtend v

/-- Lines 303-311 of `convertScalarToDtype`: without the original types there is no conversion to eight bits, and null is used afterwards. -/
def convertible (w v : Nat) : Bool := decide (w = v ∨ v ≠ 8)

/-- `aten.sum` and `aten.sum.dim_IntList` (lines 303-304, 373-381). -/
def lowerSum (t r : IntTy) (x : Tensor (BitVec t.width)) (arg : DimArg) (keep : Bool) : Outcome (Tensor (BitVec r.width)) :=
  if (dimSet x.sizes.length arg).isNone then .unmatched
  else if !convertible t.width r.width then .crash
  else lowerReduction x arg keep 0 fun e a => convert t.width r.width e + a

/-- `aten.prod` and `aten.prod.dim_int` (lines 306-313, 382-389). -/
def lowerProd (t r : IntTy) (x : Tensor (BitVec t.width)) (arg : DimArg) (keep : Bool) : Outcome (Tensor (BitVec r.width)) :=
  if (dimSet x.sizes.length arg).isNone then .unmatched
  else if !convertible t.width r.width then .crash
  else lowerReduction x arg keep (BitVec.ofNat r.width 1) fun e a => convert t.width r.width e * a

/-- `arith.maxui`, `arith.maxsi`, `arith.minui`, `arith.minsi`. -/
def pick (isMax unsigned : Bool) {w : Nat} (a b : BitVec w) : BitVec w :=
  if isMax then (if unsigned then (if b.ult a then a else b) else (if b.slt a then a else b))
  else (if unsigned then (if a.ult b then a else b) else (if a.slt b then a else b))

/-- `APInt::getMinValue` and so on. -/
def extreme (isMax unsigned : Bool) (w : Nat) : BitVec w :=
  if unsigned then (if isMax then 0#w else BitVec.allOnes w) else (if isMax then BitVec.intMin w else BitVec.intMax w)

/-- `aten.max` and `aten.min` (lines 315-350, 390-417).  For eight bits there is no initial element, and null is used. -/
def lowerMinMax (isMax : Bool) (t : IntTy) (x : Tensor (BitVec t.width)) : Outcome (Tensor (BitVec t.width)) :=
  if t.width = 8 then .crash
  else lowerReduction x .none false (extreme isMax t.signless.useUnsigned t.width) (pick isMax t.useUnsigned)

/-! ## Truth values -/

/-- `aten.all`, `aten.all.dim`, `aten.any`, `aten.any.dim`, `aten.any.dims` (lines 356-362, 453-464, 748-751).  `nonzero` is the conversion to a
truth value, lines 332-342 of `convertScalarToDtype`.  `byte`: the elements, and thus those of the result, are of type `uint8`; `dimOp`:
the operation is `aten.all.dim`. -/
def lowerTruth (isAll dimOp byte : Bool) (nonzero : E → Bool) (x : Tensor E) (arg : DimArg) (keep : Bool) : Outcome (Tensor Bool) :=
  if (dimSet x.sizes.length arg).isNone then .unmatched
  else if byte then (if isAll && dimOp then .unmatched else .bad)
  else lowerReduction x arg keep isAll fun e a => if isAll then nonzero e && a else nonzero e || a

/-! ## Norms -/

/-- What is computed with floats. -/
structure Floats (F : Type) where
  zero : F
  one : F
  two : F
  half : F
  add : F → F → F
  div : F → F → F
  pow : F → F → F
  abs : F → F

/-- `aten.linalg_vector_norm` and `aten.norm.Scalar` (lines 418-445, 659-697, 798-818).  The checks for the orders zero and infinity (lines 671-678)
look for a `torch.constant.float` where there is the result of its conversion, and never apply. -/
def lowerNorm (o : Floats F) (ord : F) (x : Tensor F) (arg : DimArg) (keep : Bool) : Outcome (Tensor F) :=
  (lowerReduction x arg keep o.zero fun e a => o.add (o.pow (o.abs e) ord) a).bind fun t =>
    .ok ⟨t.sizes, fun q => (t.get q).map fun s => o.pow s (o.div o.one ord)⟩

/-- `aten.frobenius_norm.dim` (lines 446-455, 820-827). -/
def lowerFrobenius (o : Floats F) (x : Tensor F) (arg : DimArg) (keep : Bool) : Outcome (Tensor F) :=
  (lowerReduction x arg keep o.zero fun e a => o.add (o.pow (o.abs e) o.two) a).bind fun t =>
    .ok ⟨t.sizes, fun q => (t.get q).map fun s => o.pow s o.half⟩

/-! ## `prims.prod` -/

/-- `ShapedType::kDynamic`. -/
def dynamic : Int := -2 ^ 63

/-- `keepDim` of `computeReductionOpInfoFromDimList` (lines 552-590): the builtin type of the input is compared with the torch type of the
result. -/
def primsKeep (dims : List Nat) (ins res : List (Option Int)) : Option Bool :=
  let ins := ins.map (·.getD dynamic)
  let res := typeSizes res
  if res.length = ins.length then (if res = resultSizes dims true 0 ins then some true else none)
  else if res.length = (resultSizes dims false 0 ins).length then (if res = resultSizes dims false 0 ins then some false else none)
  else none

/-- `prims.prod` (lines 507-600, 770-796); `dims` is a list or none. -/
def lowerPrimsProd (x : Operand E) (arg : DimArg) (res : List (Option Int)) (one : F) (mul : E → F → F) : Outcome (Tensor F) :=
  match dimSet x.type.length arg with
  | none => .unmatched
  | some ds =>
    match primsKeep ds x.type res with
    | none => .unmatched
    | some keep => .ok (reduce x.tensor ds keep one fun _ => mul)

/-! ## Greatest and least elements with their indices -/

/-- The groups of lines 249-256, for a result of `n` dimensions before the expansion. -/
def keepGroups (dim n : Nat) : List (List Nat) :=
  if n > 0 then
    (((List.range dim).foldl (fun gs (i : Nat) => gs.modify i (· ++ [i])) (List.replicate n ([] : List Nat))).modify (dim - 1) (· ++ [dim])
      |> fun gs => (List.range' dim (n - dim)).foldl (fun gs (i : Nat) => gs.modify i (· ++ [i + 1])) gs)
  else []

/-- The body of the `linalg.generic` (lines 177-229): the greater of both elements, and the index. -/
def minMaxBody (best : E → E → E) (better : E → E → Bool) (dim : Nat) (p : List Int) (new : E) (old : E × Int) : E × Int :=
  (best new old.1, if better new old.1 then p.getD dim 0 else old.2)

/-- Lines 231-276: the type of the result has the sizes `ty`. -/
def finish (keep : Bool) (dim : Nat) (ty : List (Option Int)) (t : Tensor F) : Outcome (Tensor F) :=
  if !keep then (if castOk ty t.sizes then .ok t else .bad)
  else if !castOk (ty.eraseIdx dim) t.sizes then .bad
  else expandTo ⟨t, ty.eraseIdx dim⟩ (typeSizes ty) (keepGroups dim (ty.length - 1))

/-- `ConvertAtenMinMaxDimOp` (lines 60-278); `best` is `arith.maximumf`, `better` is `arith.cmpf ogt`, and so on. -/
def lowerMinMaxDim (best : E → E → E) (better : E → E → Bool) (init : E) (x : Tensor E) (dim : Int) (keep : Bool) (ty : List (Option Int)) :
    Outcome (Tensor E × Tensor Int) :=
  let dim := toPositiveDim dim x.sizes.length
  if !isValidDim dim x.sizes.length then .unmatched else
  let t := reduce x [dim.toNat] false (init, 0) (minMaxBody best better dim.toNat)
  (finish keep dim.toNat ty ⟨t.sizes, fun q => (t.elem q).map (·.1)⟩).bind fun v =>
    (finish keep dim.toNat ty ⟨t.sizes, fun q => (t.elem q).map (·.2)⟩).bind fun i => .ok (v, i)

/-- On integers (lines 128-140, 199-222). -/
def lowerMinMaxDimInt (isMax : Bool) (t : IntTy) (x : Tensor (BitVec t.width)) (dim : Int) (keep : Bool) (ty : List (Option Int)) :
    Outcome (Tensor (BitVec t.width) × Tensor Int) :=
  lowerMinMaxDim (pick isMax t.useUnsigned)
    (fun new old => if isMax then (if t.useUnsigned then old.ult new else old.slt new) else (if t.useUnsigned then new.ult old else new.slt old))
    (extreme isMax t.useUnsigned t.width) x dim keep ty

/-- `arith.maximumf` on numbers and `none`, which is not a number. -/
def maximumf {O : Type} [LinearOrder O] (a b : Option O) : Option O :=
  match a, b with
  | some a, some b => some (max a b)
  | _, _ => none

/-- `arith.cmpf ogt`. -/
def ogt {O : Type} [LinearOrder O] (a b : Option O) : Bool :=
  match a, b with
  | some a, some b => decide (b < a)
  | _, _ => false

/-- On floats (lines 121-127, 184-198); the least element is taken with the order turned around. -/
def lowerMaxDimFloat {O : Type} [LinearOrder O] [OrderBot O] (x : Tensor (Option O)) (dim : Int) (keep : Bool) (ty : List (Option Int)) :
    Outcome (Tensor (Option O) × Tensor Int) :=
  lowerMinMaxDim maximumf ogt (some ⊥) x dim keep ty

end Verif.Red
