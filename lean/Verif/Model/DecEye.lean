import Mathlib.Algebra.BigOperators.Group.List.Basic
import Verif.Model.DecBucket

/-!
# Decomposition of identity matrices, of diagonals and of gated linear units (DecomposeComplexOps.cpp 1640-1681, 1699-1794, 2209-2296)

Simplified: integers are not bounded. The operators of ATen that are made are given by what PyTorch says of them. Of the types, only the sizes of those made up by the patterns are kept. `aten.eye.m` always ends in a selection, as no argument that gives an element type is a truth value.
-/

namespace Verif.Eye

open Lin

/-- A size of the result type (lines 1735-1741), or the constant argument (lines 1743-1746), or unknown. -/
def known (size : Int) (const : Option Int) : Int := if size = unknown then const.getD unknown else size

/-- `DecomposeAtenEyeMOp` (lines 1715-1793): sizes in the types of the two ranges, and the result. `outSizes` are the sizes of the result type; `constN` and `constM` are the arguments if they are constants. The sizes of the result type are read again at line 1773, known or not. -/
def eyeM {E : Type} (one zero : E) (hasDtype : Bool) (outSizes : Option (List Int)) (constN constM : Option Int) (n m : Int) : Outcome (Int × Int × Tensor E) :=
  if !hasDtype then .unmatched
  else match outSizes with
  | none => .crash
  | some sizes =>
    let typeN := known (if sizes.length = 2 then sizes.getD 0 0 else unknown) constN
    let typeM := known (if sizes.length = 2 then sizes.getD 1 0 else unknown) constM
    (Bucket.arange n).bind fun rangeN => (Bucket.arange m).bind fun rangeM =>
      .ok (typeN, typeM, Bucket.convert (fun b => if b then one else zero) (Bucket.across (fun a b => decide (a = b)) (Bucket.unsqueezeLast rangeN) rangeM))

/-- `DecomposeAtenEyeOp` (lines 1699-1711), followed by the pattern above. -/
def eye {E : Type} (one zero : E) (hasDtype : Bool) (outSizes : Option (List Int)) (constN : Option Int) (n : Int) : Outcome (Int × Int × Tensor E) :=
  eyeM one zero hasDtype outSizes constN constN n n

/-- `aten.diagonal` of a matrix, along its two dimensions in order. -/
def diagonal {E : Type} (t : Tensor E) (offset : Int) : Outcome (Tensor E) :=
  match t.sizes with
  | [n, m] =>
    if 0 ≤ offset then .ok ⟨[max (min n (m - offset)) 0], fun idx => t.elem [idx.headD 0, idx.headD 0 + offset]⟩
    else .ok ⟨[max (min (n + offset) m) 0], fun idx => t.elem [idx.headD 0 - offset, idx.headD 0]⟩
  | _ => .bad

/-- `aten.diag_embed` of a vector into the two last dimensions. -/
def diagEmbed {E : Type} (zero : E) (t : Tensor E) (offset : Int) : Outcome (Tensor E) :=
  match t.sizes with
  | [n] => .ok ⟨[n + |offset|, n + |offset|], fun idx =>
      let i := idx.getD 0 0
      let j := idx.getD 1 0
      if j - i = offset then t.elem [min i j] else some zero⟩
  | _ => .bad

/-- `DecomposeAtenDiagOp` (lines 2209-2246). -/
def diag {E : Type} (zero : E) (rank : Option Nat) (t : Tensor E) (offset : Int) : Outcome (Tensor E) :=
  match rank with
  | none => .unmatched
  | some rank => if rank = 1 then diagEmbed zero t offset else if rank = 2 then diagonal t offset else .unmatched

/-- `aten.sum` of a vector. -/
def sum {E : Type} [AddMonoid E] (t : Tensor E) : Option E :=
  match t.sizes with
  | [n] => (Bucket.rowOf t [] n.toNat).map List.sum
  | _ => none

/-- `DecomposeAtenTraceOp` (lines 2257-2295): the size in the type of the diagonal, and the result. `sizes` are those of the type of the operand. -/
def trace {E : Type} [AddMonoid E] (sizes : Option (List Int)) (t : Tensor E) : Outcome (Int × Option E) :=
  match sizes with
  | none => .unmatched
  | some sizes =>
    if sizes.length ≠ 2 then .unmatched
    else (diagonal t 0).bind fun d => .ok (min (sizes.getD 0 0) (sizes.getD 1 0), sum d)

/-- `aten.narrow` along a dimension counted from the first. -/
def narrow {E : Type} (t : Tensor E) (d : Nat) (start length : Int) : Outcome (Tensor E) :=
  if 0 ≤ start ∧ 0 ≤ length ∧ start + length ≤ t.sizes.getD d 0 then .ok ⟨t.sizes.set d length, fun idx => t.elem (idx.set d (idx.getD d 0 + start))⟩
  else .bad

/-- `DecomposeAtenGluOp` (lines 1640-1680); `typed` says if sizes and element type of the result are known. -/
def glu {E : Type} (mul : E → E → E) (sigmoid : E → E) (typed : Bool) (t : Tensor E) (dim : Int) : Outcome (Tensor E) :=
  if !typed then .unmatched
  else
    let d := if dim < 0 then dim + t.sizes.length else dim
    if d < 0 ∨ (t.sizes.length : Int) ≤ d then .bad
    else
      let dimSize := t.sizes.getD d.toNat 0
      if dimSize.fmod 2 ≠ 0 then .aborts
      else
        let splitLength := dimSize.fdiv 2
        (narrow t d.toNat 0 splitLength).bind fun a => (narrow t d.toNat splitLength splitLength).bind fun b =>
          if a.sizes = b.sizes then
            .ok ⟨a.sizes, fun idx => match a.elem idx, b.elem idx with
              | some x, some y => some (mul x (sigmoid y))
              | _, _ => none⟩
          else .bad

end Verif.Eye
