import Mathlib.Data.Rat.Floor
import Verif.Model.LinView

/-!
# Decomposition of buckets, of classes and of evenly spaced numbers (DecomposeComplexOps.cpp 2990-3093, 10981-11062, 11790-11841)

Simplified: integers are not bounded; numbers of floating point are rational, and computed with exactly, or not a number. The operators of ATen that are made are given by what PyTorch says of them; broadcasting is only given for the one case that is used, a tensor whose last size is 1 and a tensor of one dimension.
-/

namespace Verif.Bucket

open Lin

/-- A number of floating point; `none` is not a number. -/
abbrev Num := Option ℚ

/-- `<=` -/
def Num.leq : Num → Num → Bool
  | some a, some b => decide (a ≤ b)
  | _, _ => false

/-- `<` -/
def Num.less : Num → Num → Bool
  | some a, some b => decide (a < b)
  | _, _ => false

/-- `aten.unsqueeze` at the end. -/
def unsqueezeLast {E : Type} (t : Tensor E) : Tensor E := ⟨t.sizes ++ [1], fun idx => t.elem idx.dropLast⟩

/-- A binary operator on a tensor whose last size is 1 and a tensor of one dimension. -/
def across {E F G : Type} (f : E → F → G) (t : Tensor E) (u : Tensor F) : Tensor G :=
  ⟨t.sizes.dropLast ++ u.sizes, fun idx => match t.elem (idx.dropLast ++ [0]), u.elem [idx.getLastD 0] with
    | some a, some b => some (f a b)
    | _, _ => none⟩

/-- Place of the first largest of `n + 1` numbers. -/
def firstMax (f : Nat → ℚ) : Nat → Nat
  | 0 => 0
  | n + 1 => if f (firstMax f n) < f (n + 1) then n + 1 else firstMax f n

/-- All of a row, if it is there. -/
def rowOf {E : Type} (t : Tensor E) (idx : List Int) : Nat → Option (List E)
  | 0 => some []
  | n + 1 => match rowOf t idx n, t.elem (idx ++ [(n : Int)]) with
    | some l, some a => some (l ++ [a])
    | _, _ => none

/-- `aten.argmax` along the last dimension, without it in the result; there is none for a dimension of size 0. -/
def argmaxLast (t : Tensor ℚ) : Outcome (Tensor Int) :=
  let n := (t.sizes.getLastD 0).toNat
  if n = 0 then .bad
  else .ok ⟨t.sizes.dropLast, fun idx => (rowOf t idx n).map fun l => ((firstMax (fun i => l.getD i 0) (n - 1) : Nat) : Int)⟩

/-- `aten.select.int` along the last dimension. -/
def selectLast {E : Type} (t : Tensor E) (index : Int) : Outcome (Tensor E) :=
  let n := t.sizes.getLastD 0
  let i := if index < 0 then index + n else index
  if 0 ≤ i ∧ i < n then .ok ⟨t.sizes.dropLast, fun idx => t.elem (idx ++ [i])⟩ else .bad

/-- `aten.where.ScalarOther`, for a condition and a tensor of equal sizes. -/
def whereScalar (c : Tensor Bool) (t : Tensor Int) (other : Int) : Outcome (Tensor Int) :=
  if c.sizes = t.sizes then
    .ok ⟨c.sizes, fun idx => match c.elem idx, t.elem idx with
      | some b, some a => some (if b then a else other)
      | _, _ => none⟩
  else .bad

/-- `aten.to.dtype` from truth values. -/
def convert {E F : Type} (f : E → F) (t : Tensor E) : Tensor F := ⟨t.sizes, fun idx => (t.elem idx).map f⟩

/-- Types of integers. -/
inductive Width where
  | long
  | int
  deriving DecidableEq

/-- `DecomposeAtenBucketizeTensorOp` (lines 2990-3093): type and value of the result. `inputSizes` says if the sizes of the input are known, `boundRank` how many sizes the boundaries are known to have. -/
def bucketize (inputSizes : Bool) (boundRank : Option Nat) (outInt32 right : Option Bool) (input boundaries : Tensor Num) : Outcome (Width × Tensor Int) :=
  if !inputSizes then .unmatched
  else if boundRank ≠ some 1 then .unmatched
  else match outInt32, right with
  | some outInt32, some right =>
    let unsqz := unsqueezeLast input
    let compare := if !right then across Num.leq unsqz boundaries else across Num.less unsqz boundaries
    let compareF32 := convert (fun b => if b then (1 : ℚ) else 0) compare
    (argmaxLast compareF32).bind fun indices =>
      (selectLast compare (-1)).bind fun withinUpperBound =>
        (whereScalar withinUpperBound indices (boundaries.sizes.headD 0)).bind fun result =>
          .ok (if outInt32 then .int else .long, result)
  | _, _ => .unmatched

/-- `aten.arange` from 0; there is none up to a negative number. -/
def arange (n : Int) : Outcome (Tensor Int) :=
  if n < 0 then .bad else .ok ⟨[n], fun idx => idx.head?⟩

/-- `DecomposeAtenOneHotOp` (lines 11790-11841). -/
def oneHot (inputSizes : Bool) (numClasses : Int) (input : Tensor Int) : Outcome (Tensor Int) :=
  if !inputSizes then .unmatched
  else (arange numClasses).bind fun classes =>
    .ok (convert (fun b => if b then (1 : Int) else 0) (across (fun a b => decide (a = b)) (unsqueezeLast input) classes))

/-- The elements of a result. -/
inductive Kind where
  | float
  | integer
  deriving DecidableEq

/-- `aten.to.dtype`: conversion to an integer drops what is behind the point. -/
def toKind : Kind → ℚ → ℚ
  | .float, x => x
  | .integer, x => if 0 ≤ x then (⌊x⌋ : Int) else (⌈x⌉ : Int)

/-- `DecomposeAtenLinspaceOp` (lines 10981-11062), run with `steps` numbers; `static` says if their number is a constant. -/
def linspace (start stop : ℚ) (static : Bool) (steps : Int) (dtype : Option Kind) : Outcome (List ℚ) :=
  let kind := dtype.getD .float
  if static ∧ steps = 1 then .ok ((List.range steps.toNat).map fun (i : Nat) => toKind kind ((i : ℚ) + start))
  else if ¬ steps ≠ 1 then .aborts
  else if steps < 0 then .bad
  else
    let div := (stop - start) / ((steps - 1 : Int) : ℚ)
    .ok ((List.range steps.toNat).map fun (i : Nat) => toKind kind ((i : ℚ) * div + start))

end Verif.Bucket
