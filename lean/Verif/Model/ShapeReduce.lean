import Verif.Model.ShapeCore
import Verif.Spec.Reduce

/-!
# Shape functions of reductions

AIL and LIB as in `Verif.Model.ShapeCore`.
-/

namespace Verif.Shape

/-- One round of the inner loop of `sum_mean_dim` (AIL:5779–5818). -/
def reducedStep (rank i : Nat) (b : Bool) (d : Int) : Py Bool :=
  match maybeWrapDim d rank with
  | .error e => .error e
  | .ok w => .ok (if (i : Int) = w then true else b)

/-- The inner loop of `sum_mean_dim` and `max_dim` (AIL:5779–5818, 5852–5890): does any entry of `dims`
name dimension `i`?  Every entry is wrapped, so every entry is checked. -/
def isReduced (rank : Nat) (dims : List Int) (i : Nat) : Py Bool :=
  pyFold (reducedStep rank i) false dims

/-- The outer loop (AIL:5775–5838, and likewise 6165–6184): leave out reduced dimensions, or append 1
with `keepdim`. -/
def reduceLoop (p : Nat → Py Bool) (keepdim : Bool) : Nat → List Int → Py (List Int)
  | _, [] => .ok []
  | i, x :: xs => match p i with
    | .error e => .error e
    | .ok b => match reduceLoop p keepdim (i + 1) xs with
      | .error e => .error e
      | .ok rest => .ok ((if b then (if keepdim then [1] else []) else [x]) ++ rest)

/-- `sum_mean_dim(self, opt_dims, keep_dim, dt)` (AIL:5747–5840). -/
def sumMeanDim (self : List Int) (optDims : Option (List Int)) (keepdim : Bool) : Py (List Int) :=
  let dims := match optDims with
    | none => (List.range self.length).map Int.ofNat
    | some [] => (List.range self.length).map Int.ofNat
    | some ds => ds
  reduceLoop (isReduced self.length dims) keepdim 0 self

/-- `argmax(self, dim, keepdim)` (AIL:6118–6188); `_reduce_along_dim` (AIL:6189–6218) is the second case. -/
def argmax (self : List Int) (dim : Option Int) (keepdim : Bool) : Py (List Int) :=
  match dim with
  | none => .ok []
  | some d => match maybeWrapDim d self.length with
    | .error e => .error e
    | .ok w => reduceLoop (fun i => .ok (decide ((i : Int) = w))) keepdim 0 self

/-- `patched_argmax_shape_func` (LIB:762–768). -/
def patchedArgmax (self : List Int) (dim : Option Int) (keepdim : Bool) : Py (List Int) :=
  if dim = none ∧ keepdim = true then .ok (self.map (fun _ => 1))
  else argmax self dim keepdim

/-- `aten.count_nonzero` (LIB:1616–1619). -/
def countNonzero (self : List Int) (dim : Option Int) : Py (List Int) :=
  match dim with
  | none => .ok []
  | some d =>
    if d < -(self.length : Int) ∨ d ≥ self.length then .error .assertion
    else argmax self (some d) false

/-- Bodies of the reductions in LIB. -/
inductive ReduceBody where
  | dims        -- `sum_mean_dim(self, dim, keepdim, …)`
  | dimsNoKeep  -- `sum_mean_dim(inp, dims, False, …)`
  | oneDim      -- `sum_mean_dim(self, [dim], keepdim, …)`
  | argmax      -- `argmax(self, dim, keepdim)`
  | patched     -- `patched_argmax_shape_func(self, dim, keepdim)`
  | all         -- `[]`
  deriving DecidableEq, Repr

/-- Reductions in LIB: name, line, body. -/
def reduceOps : List (String × Nat × ReduceBody) :=
  [("aten.kthvalue", 573, .argmax),
   ("aten.any", 688, .all), ("aten.all", 691, .all), ("aten.min", 694, .all), ("aten.max", 700, .all),
   ("aten.sum", 706, .all), ("aten.prod", 709, .all), ("aten.mean", 712, .all), ("aten.var", 715, .all),
   ("prims.var", 718, .dimsNoKeep),
   ("aten.var.dim", 721, .dims), ("aten.var.correction", 724, .dims),
   ("aten.var_mean.correction", 727, .dims), ("aten.var_mean.dim", 731, .dims),
   ("aten.var_mean", 739, .all), ("aten.std", 742, .all),
   ("aten.std.dim", 745, .dims), ("aten.std.correction", 748, .dims),
   ("aten.argmax", 780, .patched), ("aten.argmin", 783, .patched),
   ("aten.any.dim", 793, .argmax), ("aten.any.dims", 796, .dims), ("aten.all.dim", 799, .argmax),
   ("aten.max.dim", 802, .argmax), ("aten.min.dim", 806, .argmax),
   ("aten.amax", 810, .dims), ("aten.amin", 813, .dims), ("aten.aminmax", 826, .patched),
   ("aten.mean.dim", 830, .dims), ("aten.sum.dim_IntList", 833, .dims),
   ("prims.sum", 836, .dimsNoKeep), ("prims.prod", 839, .dimsNoKeep),
   ("aten.prod.dim_int", 842, .oneDim),
   ("aten.linalg_vector_norm", 2737, .dims), ("aten.linalg_norm", 2740, .dims),
   ("aten.frobenius_norm.dim", 2743, .dims), ("aten.norm.ScalarOpt_dim", 2752, .dims)]

/-- The shape computed for a reduction; `none` if the argument does not fit the op's signature. -/
def reduceShape (body : ReduceBody) (self : List Int) (dim : DimArg) (keepdim : Bool) :
    Option (Py (List Int)) :=
  match body, dim with
  | .dims, .none => some (sumMeanDim self Option.none keepdim)
  | .dims, .many ds => some (sumMeanDim self (some ds) keepdim)
  | .dimsNoKeep, .none => if keepdim then Option.none else some (sumMeanDim self Option.none false)
  | .dimsNoKeep, .many ds => if keepdim then Option.none else some (sumMeanDim self (some ds) false)
  | .oneDim, .one d => some (sumMeanDim self (some [d]) keepdim)
  | .argmax, .one d => some (argmax self (some d) keepdim)
  | .patched, .none => some (patchedArgmax self Option.none keepdim)
  | .patched, .one d => some (patchedArgmax self (some d) keepdim)
  | .all, .none => if keepdim then Option.none else some (.ok [])
  | _, _ => Option.none

end Verif.Shape
