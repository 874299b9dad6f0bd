import Verif.Model.Fold

/-!
# Folding slices of constant tensors (`lib/Dialect/Torch/IR/TorchOps.cpp`)

`AtenSliceTensorOp::fold` (lines 4342-4450) and `AtenSelectIntOp::fold` (lines 2710-2739).  Sizes and offsets do not overflow
here.
-/

namespace Verif.FoldSlice

/-- A `!torch.vtensor` type: sizes (unknown ones are `none`) and the element type. -/
structure Ty where
  sizes : Option (List (Option Nat))
  dtype : Option Nat
  deriving DecidableEq

/-- `DenseElementsAttr`: one value for all elements, or all elements in row-major order. -/
inductive Const (E : Type) where
  | splat (e : E)
  | dense (es : List E)
  deriving DecidableEq

/-- What is known of the operands; `none` if it is not a constant. -/
structure Args (E : Type) where
  self : Option (Const E)
  dim : Option Int
  start : Option Int
  end_ : Option Int
  step : Option Int

/-- What the folder returns.  `undef`: a failed assertion, a read outside of an array or a loop without end. -/
inductive Res (E : Type) where
  | none
  | undef
  | operand
  | splat (e : E)
  | dense (es : List E)
  deriving DecidableEq

/-- Known sizes (`areAllSizesKnown`). -/
def known : List (Option Nat) → Option (List Nat)
  | [] => some []
  | none :: _ => none
  | some n :: ss =>
    match known ss with
    | none => none
    | some ns => some (n :: ns)

def maxInt : Int := 9223372036854775807

/-- Lines 4389-4390: the first index. -/
def first (n : Nat) (start : Int) : Int := max (if start < 0 then start + n else start) 0

/-- Lines 4391-4393: the bound. -/
def limit (n : Nat) (end_ : Int) : Int :=
  let l := if end_ < 0 then end_ + n else end_
  let l := if l < 0 then -1 else l
  min l n

/-- Line 4421: `for (i; abs(limit - i) > 0; i += stride)`, the values of `i` in at most so many rounds. -/
def rounds (limit stride : Int) : Nat → Int → Option (List Int)
  | 0, i => if (limit - i).natAbs > 0 then none else some []
  | fuel + 1, i =>
    if (limit - i).natAbs > 0 then
      match rounds limit stride fuel (i + stride) with
      | none => none
      | some is => some (i :: is)
    else some []

/-- Lines 4408-4420: the limit is adjusted. -/
def adjusted (begin limit stride : Int) : Int :=
  let rem := (limit - begin).tmod stride
  let rem := if stride > 0 ∨ rem = 0 then rem else rem - stride
  limit + rem

/-- The values of `i`; `none` if the loop does not end (it ends within this many rounds or never). -/
def loopIndices (begin limit stride : Int) : Option (List Int) :=
  let l := adjusted begin limit stride
  rounds l stride (l - begin).natAbs begin

/-- One dimension: first index, bound, step and the distance of neighbours (lines 4400-4407). -/
structure Dim where
  begin : Int
  limit : Int
  stride : Int
  inputStride : Int

/-- One after the other, as long as all are there. -/
def collect (f : Int → Option (List Int)) : List Int → Option (List Int)
  | [] => some []
  | i :: is =>
    match f i with
    | none => none
    | some xs =>
      match collect f is with
      | none => none
      | some ys => some (xs ++ ys)

/-- `recursiveIter` (lines 4403-4427): the offsets of the elements. -/
def offsets : List Dim → Int → Option (List Int)
  | [], _ => some []
  | d :: ds, offset =>
    match loopIndices d.begin d.limit d.stride with
    | none => none
    | some is =>
      collect (fun i =>
        match offsets ds (offset + d.inputStride * i) with
        | none => none
        | some xs => some (if ds.isEmpty then (offset + i) :: xs else xs)) is

/-- Lines 4396-4400: the product of the sizes of the later dimensions. -/
def inputStride (sizes : List Nat) (k : Nat) : Int := ((sizes.drop (k + 1)).prod : Nat)

/-- The dimensions to go through. -/
def dims (sizes : List Nat) (dim : Nat) (begin limit stride : Int) : List Dim :=
  (List.range sizes.length).map fun k =>
    if k = dim then ⟨begin, limit, stride, inputStride sizes k⟩ else ⟨0, (sizes[k]?.getD 0 : Nat), 1, inputStride sizes k⟩

/-- `getValues<Attribute>()[i]` for each offset. -/
def readAll {E : Type} (es : List E) : List Int → Option (List E)
  | [] => some []
  | i :: is =>
    if i < 0 then none
    else
      match es[i.toNat]? with
      | none => none
      | some e =>
        match readAll es is with
        | none => none
        | some r => some (e :: r)

/-- Lines 4384-4437. -/
def foldDense {E : Type} (sizes out : List Nat) (es : List E) (dim start end_ step : Int) : Res E :=
  let dim := if dim < 0 then dim + sizes.length else dim
  if dim < 0 then .undef
  else
    match sizes[dim.toNat]? with
    | none => .undef
    | some n =>
      let b := first n start
      let l := limit n end_
      if (step > 0 ∧ b < l) ∨ (step < 0 ∧ b > l) then
        match offsets (dims sizes dim.toNat b l step) 0 with
        | none => .undef
        | some offs =>
          match readAll es offs with
          | none => .undef
          | some values => if values.length ≠ out.prod then .none else .dense values
      else .undef

/-- Lines 4440-4449. -/
def foldSame {E : Type} (sizes out : List Nat) (step : Option Int) : Res E :=
  if step = some 1 ∧ sizes = out then .operand else .none

/-- Lines 4362-4449, for operands of known sizes. -/
def foldKnown {E : Type} (sizes out : List Nat) (a : Args E) : Res E :=
  match a.self with
  | some (.splat e) => .splat e
  | self =>
    if out.prod = 0 then .none
    else
      match a.dim with
      | none => .none
      | some dim =>
        match self, a.start, a.end_, a.step with
        | some (.dense es), some s, some e, some st =>
          if out.prod ≤ 16 then foldDense sizes out es dim s e st else foldSame sizes out a.step
        | _, _, _, _ => foldSame sizes out a.step

/-- `AtenSliceTensorOp::fold` (lines 4342-4450). -/
def foldSlice {E : Type} (inTy outTy : Ty) (a : Args E) : Res E :=
  match inTy.sizes, outTy.sizes, inTy.dtype, outTy.dtype with
  | some is, some os, some d, some d' =>
    if d ≠ d' then .none
    else if a.start = some 0 ∧ a.end_ = some maxInt ∧ a.step = some 1 ∧ inTy = outTy then .operand
    else if is.length ≠ os.length then .none
    else
      match known is, known os with
      | some sizes, some out => foldKnown sizes out a
      | _, _ => .none
  | _, _, _, _ => .none

/-- `AtenSelectIntOp::fold` (lines 2710-2739): `sizes` are those of the constant, `out` those of the result's type. -/
def foldSelect {E : Type} (sizes : List Nat) (outTy : Ty) (self : Option (Const E)) (dim index : Option Int) : Res E :=
  match self, outTy.dtype, outTy.sizes with
  | some c, some _, some os =>
    match known os with
    | none => .none
    | some out =>
      match c with
      | .splat e => .splat e
      | .dense es =>
        match dim, index with
        | some d, some i =>
          if out.prod ≠ 1 then .none
          else if (List.range sizes.length).any fun k => (k : Int) ≠ d ∧ sizes[k]? ≠ some 1 then .none
          else if i < 0 then .undef
          else
            match es[i.toNat]? with
            | none => .undef
            | some e => .splat e
        | _, _ => .none
  | _, _, _ => .none

end Verif.FoldSlice
