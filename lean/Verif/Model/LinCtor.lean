import Verif.Model.LinReduce
import Verif.Model.LinPool

/-!
# Padding and constructors of tensors lowered to linalg (TorchToLinalg/TensorConstructors.cpp)

Simplified: the element to pad or fill with is given after its conversion; sizes and paddings are unbounded integers; `aten.empty` and the
arithmetic of `aten.arange.start_step` on floats are left out; the bounds of `aten.arange.start_step` are integers of 64 bits.
-/

namespace Verif.Ctor

open Lin Red

variable {E : Type}

/-- `tensor.cast` to the type of the result. -/
def cast (resTy : List (Option Int)) (t : Tensor E) : Outcome (Tensor E) := if castOk resTy t.sizes then .ok t else .bad

/-- The loop of lines 137-164 over the pairs from `i` down to the first: the paddings before and after. -/
def padLoop (pads : List Int) : Nat → List Int × List Int
  | 0 => ([], [])
  | i + 1 => (pads.getD ((i + 1) * 2 - 2) 0 :: (padLoop pads i).1, pads.getD ((i + 1) * 2 - 1) 0 :: (padLoop pads i).2)

/-- `ConvertAtenConstantPadNdOp` (lines 98-182). -/
def lowerConstantPad (x : Tensor E) (pads : List Int) (v : E) (resTy : List (Option Int)) : Outcome (Tensor E) :=
  let rank := x.sizes.length
  let padRank := pads.length / 2
  if padRank * 2 ≠ pads.length then .unmatched
  else if rank < padRank then .unmatched
  else
    let zeros := List.replicate (rank - padRank) 0
    cast resTy (Pool.pad x (zeros ++ (padLoop pads padRank).1) (zeros ++ (padLoop pads padRank).2) v)

/-- `tensor.concat` of tensors. -/
def cat (d : Nat) (ts : List (Tensor E)) : Option (Tensor E) := concat d (ts.map fun t => ⟨t, t.sizes.map some⟩)

/-- `extractSlice` (lines 31-54). -/
def sliceAt (x : Tensor E) (d : Nat) (atEnd : Bool) : Tensor E :=
  let rank := x.sizes.length
  extractSlice x ((List.replicate rank 0).set d (if atEnd then x.sizes.getD d 0 - 1 else 0)) (x.sizes.set d 1) (List.replicate rank 1)

/-- `createTile` (lines 56-62). -/
def createTile (slice : Tensor E) (width : Nat) (d : Nat) : Option (Tensor E) :=
  if width = 1 then some slice else cat d (List.replicate width slice)

/-- A tile, if there is any padding (lines 77-81, 85-89). -/
def edge (x : Tensor E) (d : Nat) (atEnd : Bool) (width : Int) : Option (List (Tensor E)) :=
  if 0 < width then (createTile (sliceAt x d atEnd) width.toNat d).map fun t => [t] else some []

/-- The body of the loop of `replicationPad` (lines 73-93). -/
def padDim (x : Tensor E) (d : Nat) (before after : Int) : Option (Tensor E) :=
  (edge x d false before).bind fun l => (edge x d true after).bind fun r =>
    let parts := l ++ [x] ++ r
    if 1 < parts.length then cat d parts else some x

/-- The loop of `replicationPad` (lines 64-95), from dimension `rank - 1 - k` on. -/
def replicate (rank : Nat) (pads : List Int) : Nat → Nat → Tensor E → Option (Tensor E)
  | _, 0, x => some x
  | k, n + 1, x => (padDim x (rank - 1 - k) (pads.getD (2 * k) 0) (pads.getD (2 * k + 1) 0)).bind (replicate rank pads (k + 1) n)

/-- The result of `replicationPad`; too few paddings are read outside of their list. -/
def replicated (x : Tensor E) (pads : List Int) (dims : Nat) (resTy : List (Option Int)) : Outcome (Tensor E) :=
  if pads.length < 2 * dims then .crash
  else match replicate x.sizes.length pads 0 dims x with
    | some t => cast resTy t
    | none => .bad

/-- `ConvertAtenReplicationPad1dOp` (lines 187-223). -/
def lowerReplicationPad1d (x : Tensor E) (pads : List Int) (resTy : List (Option Int)) : Outcome (Tensor E) :=
  if x.sizes.length < 2 then .unmatched else if pads.length ≠ 2 then .unmatched else replicated x pads 1 resTy

/-- `ConvertAtenReplicationPad2dOp` (lines 232-265). -/
def lowerReplicationPad2d (x : Tensor E) (pads : List Int) (resTy : List (Option Int)) : Outcome (Tensor E) :=
  if x.sizes.length < 2 then .crash
  else if pads.length / 2 * 2 ≠ pads.length then .unmatched
  else if x.sizes.length < pads.length / 2 then .unmatched
  else replicated x pads 2 resTy

/-- `ConvertAtenReplicationPad3dOp` (lines 272-305). -/
def lowerReplicationPad3d (x : Tensor E) (pads : List Int) (resTy : List (Option Int)) : Outcome (Tensor E) :=
  if x.sizes.length < 3 then .crash else if pads.length ≠ 6 then .unmatched else replicated x pads 3 resTy

/-- An argument that is `none`, a constant, or neither. -/
inductive Arg (T : Type) where
  | none
  | const (v : T)
  | other

/-- `ConvertConstantTensorAllocOp` (lines 310-374): `aten.zeros` and `aten.ones` of the given sizes, if they are a list; `fill` is the element of a type,
and `resElem` the type of the elements of the result. -/
def lowerAlloc {T : Type} [DecidableEq T] (pin : Arg Bool) (size : Option (List Int)) (dtype : Arg T) (resElem : T) (fill : T → Option E)
    (resTy : List (Option Int)) : Outcome (Tensor E) :=
  let build := fun (size : List Int) (t : T) =>
    match fill t with
    | some v => if t = resElem then cast resTy (Lin.fill size v) else .bad
    | none => .crash
  match pin with
  | .other => .unmatched
  | .const true => .unmatched
  | _ =>
    match size with
    | none => .unmatched
    | some size =>
      match dtype with
      | .none => build size resElem
      | .const t => build size t
      | .other => .unmatched

/-- `arith.ceildivsi`; the program is undefined if the divisor is zero. -/
def ceilDiv (a b : Int) : Int := -((-a).fdiv b)

/-- `ConvertAtenArangeStartStepOp` (lines 489-570) on integers of width `w`. -/
def lowerArange (w : Nat) (start stop step : BitVec 64) (resTy : List (Option Int)) : Outcome (Tensor (BitVec w)) :=
  if !convertible 64 w then .crash
  else
    let start := convert 64 w start
    let stop := convert 64 w stop
    let step := convert 64 w step
    let size := ceilDiv (stop - start).toInt step.toInt
    cast resTy ⟨[size], fun idx => some (start + step * convert 64 w (BitVec.ofInt 64 (idx.getD 0 0)))⟩

end Verif.Ctor
