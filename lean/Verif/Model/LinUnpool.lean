import Verif.Model.LinPool
import Verif.Model.LinView
import Verif.Model.LinPerm

/-!
# Unpoolings lowered to linalg (TorchToLinalg/Pooling.cpp 216-382, 761-923)

Simplified: the numbers of `index` are not bounded; the leading dimensions of the result are taken from the operand where the slice is taken (lines 363-371), also if the type of the result
says something else; the type of the generic is the sizes it has.
-/

namespace Verif.Unpool

open Lin

variable {E : Type}

/-- Stride and padding of a dimension. -/
structure Win where
  stride : Int
  padding : Int

/-- The size that the input is brought to (lines 249-253). -/
def expected (out : Int) (w : Win) : Int := (out + w.stride - 1).tdiv w.stride + w.padding * 2

/-- `computeIndex` (lines 305-332). -/
def linear : Option Int → List Int → List Win → List Int → Option Int
  | ret, out :: outs, w :: ws, i :: is =>
    let idx := if w.padding ≠ 0 then i - w.padding else i
    linear (match ret with
      | none => some idx
      | some r => some (r * out + idx)) outs ws is
  | ret, _, _, _ => ret

/-- The place that is read (lines 286-297). -/
def source (lead : Nat) (ws : List Win) (idx : List Int) : List Int :=
  idx.take lead ++ List.zipWith (fun i (w : Win) => i.fdiv w.stride) (idx.drop lead) ws

/-- The body of the generic (lines 334-346). -/
def pick (zero input : E) (index : Int) (current : Option Int) : E := if some index = current then input else zero

/-- The generic (lines 282-355). -/
def generic (lead : Nat) (outs : List Int) (ws : List Win) (zero : E) (x : Tensor E) (ind : Tensor Int) (sizes : List Int) : Tensor E :=
  ⟨sizes, fun idx =>
    match x.get (source lead ws idx), ind.get (source lead ws idx) with
    | some v, some i => some (pick zero v i (linear none outs ws (idx.drop lead)))
    | _, _ => none⟩

/-- The padding of input and indices (lines 255-280, `getPaddedTensor`, TorchToLinalg/Utils.cpp 31-46); `tensor.pad` takes no negative numbers. -/
def enlarge (lead : Nat) (ty resTy : List (Option Int)) (ins outs : List Int) (ws : List Win) (zero : E) (x : Tensor E) (ind : Tensor Int) : Outcome (Tensor E × Tensor Int) :=
  let es := List.zipWith expected outs ws
  if resTy.take lead ++ es.map some = ty then .ok (x, ind)
  else
    let high := List.zipWith (· - ·) es ins
    if high.all fun h => decide (0 ≤ h) then
      .ok (Pool.pad x (List.replicate resTy.length 0) (List.replicate lead 0 ++ high) zero, Pool.pad ind (List.replicate resTy.length 0) (List.replicate lead 0 ++ high) (-1))
    else .bad

/-- `createMaxUnpoolOp` (lines 216-382). -/
def createUnpool (zero : E) (x : Operand E) (ind : Tensor Int) (ins outs : List Int) (ws : List Win) (resTy : List (Option Int)) : Outcome (Tensor E) :=
  let lead := resTy.length - ws.length
  (enlarge lead x.type resTy ins outs ws zero x.tensor ind).bind fun p =>
    let sizes := x.tensor.sizes.take lead
    let t := generic lead outs ws zero p.1 p.2 (sizes ++ List.zipWith (fun o (w : Win) => o + w.padding) outs ws)
    let t := if ws.any fun w => decide (w.padding ≠ 0) then
        extractSlice t (List.replicate lead 0 ++ ws.map (·.padding)) (sizes ++ outs) (List.replicate resTy.length 1)
      else t
    if castOk resTy t.sizes then .ok t else .bad

/-- The sizes, if they are all known (`isDynamicShape`). -/
def known : List (Option Int) → Option (List Int)
  | [] => some []
  | some n :: ty => (known ty).map (n :: ·)
  | none :: _ => none

/-- The last `d` dimensions (`take_back`). -/
def back (d : Nat) (ty : List (Option Int)) : List (Option Int) := ty.drop (ty.length - d)

/-- The largest kernel the windows may have had (lines 839-850). -/
def kernelSize (n out : Int) (w : Win) : Int := out - (n - 1) * w.stride + 2 * w.padding

/-- One of the windows may overlap with the next. -/
def overlap : List Int → List Int → List Win → Bool
  | n :: ns, out :: outs, w :: ws => decide (kernelSize n out w > w.stride) || overlap ns outs ws
  | _, _, _ => false

/-- `ConvertAtenMaxUnpool3dOp` (lines 780-860); constant lists are values. -/
def lowerUnpool3d (zero : E) (x : Operand E) (ind : Operand Int) (output stride padding : Option (List Int)) (resTy : List (Option Int)) : Outcome (Tensor E) :=
  match known (back 3 x.type) with
  | none => .unmatched
  | some ins =>
    if back 3 x.type ≠ back 3 ind.type then .unmatched
    else match known (back 3 resTy) with
      | none => .unmatched
      | some outs =>
        if output ≠ some outs then .unmatched
        else match stride, padding with
          | some ss, some ps =>
            if ss.length ≠ 3 ∨ ps.length ≠ 3 then .unmatched
            else
              let ws := List.zipWith Win.mk ss ps
              if overlap ins outs ws then .unmatched else createUnpool zero x ind.tensor ins outs ws resTy
          | _, _ => .unmatched

/-- `ConvertAtenMaxUnpool2dOp` (lines 867-922). -/
def lowerUnpool2d (zero : E) (x : Operand E) (ind : Operand Int) (output : Option (List Int)) (resTy : List (Option Int)) : Outcome (Tensor E) :=
  match known (back 2 x.type) with
  | none => .unmatched
  | some ins =>
    if back 2 x.type ≠ back 2 ind.type then .unmatched
    else match known (back 2 resTy) with
      | none => .unmatched
      | some outs =>
        if output ≠ some outs then .unmatched
        else createUnpool zero x ind.tensor ins outs (List.replicate 2 ⟨2, 0⟩) resTy

end Verif.Unpool
