import Verif.Model.TmTensor

/-!
# Torch operators onto `tm_tensor`

`lib/Conversion/TorchToTMTensor/TorchToTMTensor.cpp`: `aten.sort`, `aten.cumsum`, `aten.cumprod`, `aten.scatter.src`,
`aten.scatter_add`, `aten.kthvalue`.  Constant arguments are given as numbers.
-/

namespace Verif.Tm

/-- Signedness of an integer type of MLIR. -/
inductive Sign where
  | signless | signed | unsigned
  deriving DecidableEq

/-- Element types.  Torch's dtypes are `int w signed`, `int w unsigned`, `int 1 signless` (bool) and floats. -/
inductive ElemTy where
  | int (w : Nat) (s : Sign)
  | float
  | other
  deriving DecidableEq

/-- `setupBackendTypeConversion` (BackendTypeConversion.cpp 177-194): every integer type becomes signless. -/
def ElemTy.toBackend : ElemTy → ElemTy
  | .int w _ => .int w .signless
  | t => t

/-- Elements: the bits of an integer, or a float. -/
inductive Sc (F : Type) where
  | bits (b : Nat)
  | flt (x : F)
  deriving DecidableEq

/-- Bits read as a signed integer. -/
def toSigned (w b : Nat) : Int := if 2 * b < 2 ^ w then b else b - 2 ^ w

/-- Comparisons of floats: `ole` and `olt`, both false if one is NaN. -/
structure FloatCmp (F : Type) where
  ole : F → F → Bool
  olt : F → F → Bool

/-- The relation on numbers: `sle`, `slt` of signed or unsigned integers. -/
def cmpNum (orEqual : Bool) (a b : Int) : Bool := if orEqual then decide (a ≤ b) else decide (a < b)

/-- `l` of lines 272-278 (`sle`/`slt`, `ule`/`ult` for unsigned types) and of lines 286-289 (`OLE`/`OLT`). -/
def lessOp {F : Type} (fc : FloatCmp F) (ty : ElemTy) (orEqual : Bool) (a b : Sc F) : Bool :=
  match ty, a, b with
  | .int w s, .bits a, .bits b =>
    if s = .unsigned then cmpNum orEqual a b else cmpNum orEqual (toSigned w a) (toSigned w b)
  | .float, .flt a, .flt b => if orEqual then fc.ole a b else fc.olt a b
  | _, _, _ => false

/-- `createIntOrFloatCompareOp` (lines 262-298); the greater-than predicates are the others with the arguments exchanged. -/
def compareOp {F : Type} (fc : FloatCmp F) (ty : ElemTy) (descending orEqual : Bool) : Option (Sc F → Sc F → Bool) :=
  match ty with
  | .other => none
  | _ => some fun a b => if descending then lessOp fc ty orEqual b a else lessOp fc ty orEqual a b

/-- `toPositiveDim`, `isValidDim` (Torch/Utils/Utils.cpp 25-31). -/
def positiveDim (dim : Int) (rank : Nat) : Int := if dim ≥ 0 then dim else dim + rank

def validDim (dim : Int) (rank : Nat) : Bool := decide (dim ≥ 0 ∧ dim < rank)

/-- The region of the sort: it compares the elements of the first operand (lines 317-335). -/
def sortRegion {V : Type} (cmp : V → V → Bool) : List (V ⊕ Int) → Bool
  | .inl a :: .inl b :: _ => cmp a b
  | _ => false

/-- The operands: the input, and the positions along the dimension (lines 1496-1526). -/
def sortOperands {V : Type} (d : Nat) (input : Buf V) : Outs (V ⊕ Int)
  | 0 => fun idx => .inl (input idx)
  | _ => fun idx => .inr (idx[d]?.getD 0 : Nat)

/-- `ConvertAtenSortOp` (lines 1469-1552); `ty` is the dtype of the tensor.  The results are the operands after the sort. -/
def atenSort {F : Type} (fc : FloatCmp F) (ty : ElemTy) (sizes : List Nat) (dim : Int) (descending : Bool) (input : Buf (Sc F)) :
    Option (Outs (Sc F ⊕ Int)) :=
  let dim := positiveDim dim sizes.length
  if validDim dim sizes.length then
    match compareOp fc ty.toBackend descending true with
    | none => none
    | some cmp => some (sort (sortRegion cmp) 2 dim.toNat sizes (sortOperands dim.toNat input))
  else none

/-- `ConvertAtenCumsumOp` and `ConvertAtenCumprodOp` (lines 1555-1714) from line 1669 and 1591 on: the input has the element type
of the result, `op` is the addition or the multiplication of the type and `init` its zero or one.  The result is the output; the
accumulator is not used. -/
def atenCum {E : Type} (op : E → E → E) (init : E) (sizes : List Nat) (dim : Int) (input : Buf E) : Option (Buf E) :=
  let dim := positiveDim dim sizes.length
  if validDim dim sizes.length then
    some (scan (fun arg0 arg1 => op arg0 arg1) true dim.toNat sizes input (fun _ => init) (fun _ => init)).1
  else none

/-- Lines 137-143: the multi-index of a position in the flattened space, from the last dimension to the first; the number is what
is left. -/
def unflatten : List Nat → Nat → Nat × List Nat
  | [], e => (e, [])
  | s :: ss, e =>
    let r := unflatten ss e
    (r.1 / s, r.1 % s :: r.2)

/-- `convertTorchScatterIndexAndSrcToTMScatterIndexAndSrc` (lines 87-202), the indices: for each element of `index` its place,
with the element instead of the place along the dimension. -/
def flatIndices (isizes : List Nat) (dim : Nat) (index : List Nat → Int) (e i : Nat) : Int :=
  let place := (unflatten isizes e).2
  ((place.map fun k : Nat => (k : Int)).set dim (index place))[i]?.getD 0

/-- `ConvertAtenScatterOp` (lines 431-490) for `aten.scatter.src` and `aten.scatter_add`; `isizes` is the shape of `index`.  There
is no result if the ranks differ, if `yieldVals[dim]` (line 157) is outside, or if an update goes outside of `self`.  That `src` is
read inside of its shape is not modelled. -/
def atenScatter {E : Type} (f : E → E → E) (sizes isizes : List Nat) (dim : Int) (index : List Nat → Int) (src self : Buf E) :
    Option (Buf E) :=
  if sizes.length = isizes.length then
    if 0 ≤ dim ∧ dim < sizes.length then
      scatter f sizes (List.range sizes.length) [isizes.prod] (flatIndices isizes dim.toNat index)
        (fun ivs => src (unflatten isizes (ivs.headD 0)).2) self
    else none
  else none

/-- Floats that outputs are filled with: `getFloatInf`. -/
structure FloatFill (F : Type) where
  inf : F
  ninf : F

/-- The fill of the values of the top k (lines 2117-2151); the dtype of Torch says whether it is unsigned. -/
def kthFill {F : Type} (ff : FloatFill F) : ElemTy → Sc F
  | .int w .unsigned => .bits (2 ^ w - 1)
  | .int w _ => .bits (2 ^ (w - 1) - 1)
  | _ => .flt ff.inf

/-- The fill for the search of the greatest (the same lines). -/
def kthFillMax {F : Type} (ff : FloatFill F) : ElemTy → Sc F
  | .int _ .unsigned => .bits 0
  | .int w _ => .bits (2 ^ (w - 1))
  | _ => .flt ff.ninf

/-- `new > old` of lines 2277-2293, with the dtype of Torch. -/
def kthGreater {F : Type} (fc : FloatCmp F) (ty : ElemTy) (new old : Sc F) : Bool := lessOp fc ty false old new

/-- The body of the search (lines 2266-2299).  `maximumf` of numbers is the new one if it is greater; what it does with NaN and
with zeros of different sign is not modelled. -/
def kthMaxStep {F : Type} (fc : FloatCmp F) (ty : ElemTy) (g : Nat → Sc F) (t : Sc F × Nat) (i : Nat) : Sc F × Nat :=
  if kthGreater fc ty (g i) t.1 then (g i, i) else t

/-- The greatest of the top k along the dimension, and where it is (lines 2221-2301). -/
def kthMax {F : Type} (fc : FloatCmp F) (ff : FloatFill F) (ty : ElemTy) (k : Nat) (g : Nat → Sc F) : Sc F × Nat :=
  (List.range k).foldl (kthMaxStep fc ty g) (kthFillMax ff ty, 0)

/-- `ConvertAtenKthvalueOp` (lines 2041-2500) up to the shape `keepdim` asks for: the results for each position in the other
dimensions.  The places are numbers without bound, the code has them in 32 bits. -/
def atenKth {F : Type} (fc : FloatCmp F) (ff : FloatFill F) (ty : ElemTy) (sizes : List Nat) (dim : Int) (k : Nat) (input : Buf (Sc F)) :
    Option (Buf (Sc F) × Buf Int) :=
  let dim := positiveDim dim sizes.length
  if validDim dim sizes.length then
    match compareOp fc ty.toBackend false false with
    | none => none
    | some cmp =>
      let d := dim.toNat
      let r := topk cmp d k sizes input none (fun _ => kthFill ff ty) (fun _ => 2147483647)
      some (fun o => (kthMax fc ff ty k fun i => r.1 (o.insertIdx d i)).1,
        fun o => r.2 (o.insertIdx d (kthMax fc ff ty k fun i => r.1 (o.insertIdx d i)).2))
  else none

end Verif.Tm
