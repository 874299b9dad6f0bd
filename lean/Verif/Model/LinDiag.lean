import Verif.Model.Linalg

/-!
# Diagonals and windows in the linalg backend

`lib/Conversion/TorchToLinalg/DataMovement.cpp` lines 2325-2784.  Simplified: sizes, offsets and steps are unbounded; an assertion
that fails at run time and a pattern that does not match are both `none`.
-/

namespace Verif.Lin

/-- The loops over dimensions with a counter for those that are not `d1`, `d2` (lines 2433-2443 and 2481-2488): `i` is the current
dimension, `rest` what the counter points at. -/
def weaveFrom (d1 d2 : Nat) (a b : Int) : Nat → Nat → List Int → List Int
  | _, 0, _ => []
  | i, m + 1, rest =>
    if i = d1 then a :: weaveFrom d1 d2 a b (i + 1) m rest
    else if i = d2 then b :: weaveFrom d1 d2 a b (i + 1) m rest
    else rest.getD 0 0 :: weaveFrom d1 d2 a b (i + 1) m (rest.drop 1)

def weave (r d1 d2 : Nat) (a b : Int) (rest : List Int) : List Int := weaveFrom d1 d2 a b 0 r rest

/-- The loops that leave out the dimensions `d1`, `d2` (lines 2401-2404 and 2560-2564). -/
def othersFrom (d1 d2 : Nat) : Nat → List Int → List Int
  | _, [] => []
  | i, x :: xs => if i = d1 ∨ i = d2 then othersFrom d1 d2 (i + 1) xs else x :: othersFrom d1 d2 (i + 1) xs

/-- `ConvertAtenDiagonalOp` (lines 2325-2460). -/
def lowerDiagonal {E : Type} (x : Tensor E) (offset dim1 dim2 : Int) : Option (Tensor E) :=
  let r := x.sizes.length
  if r < 2 then none else
  let dim1 := Tm.positiveDim dim1 r
  if !Tm.validDim dim1 r then none else
  let dim2 := Tm.positiveDim dim2 r
  if !Tm.validDim dim2 r then none else
  if dim1 = dim2 then none else
  let d1 := dim1.toNat
  let d2 := dim2.toNat
  let n1 := x.sizes.getD d1 0
  let n2 := x.sizes.getD d2 0
  let neg := decide (offset ≤ 0)
  let size := if neg then max (min (n1 + offset) n2) 0 else max (min (n2 - offset) n1) 0
  let start1 := if neg then offset * -1 else 0
  let start2 := if neg then 0 else offset
  some ⟨othersFrom d1 d2 0 x.sizes ++ [size], fun idx =>
    let k := idx.getD (r - 2) 0
    x.get (weave r d1 d2 (k + start1) (k + start2) idx)⟩

/-- `arith.minui` of a non-negative index and a size less one, which is the largest index there is when the size is zero. -/
def minui (i n : Int) : Int := if n < 0 then i else min i n

/-- `ConvertAtenDiagEmbedOp` (lines 2462-2620); the element is read before it is selected. -/
def lowerDiagEmbed {E : Type} (zero : E) (x : Tensor E) (offset dim1 dim2 : Int) : Option (Tensor E) :=
  let r := x.sizes.length
  let dim1 := Tm.positiveDim dim1 (r + 1)
  if !Tm.validDim dim1 (r + 1) then none else
  let dim2 := Tm.positiveDim dim2 (r + 1)
  if !Tm.validDim dim2 (r + 1) then none else
  if dim1 = dim2 then none else
  let d1 := dim1.toNat
  let d2 := dim2.toNat
  let n := x.sizes.getD (r - 1) 0
  let diag := n + offset.natAbs
  some ⟨weave (r + 1) d1 d2 diag diag x.sizes, fun idx =>
    let i1 := idx.getD d1 0
    let i2 := idx.getD d2 0
    let adj1 := if offset < 0 then i1 else i1 + offset
    let adj2 := if offset < 0 then i2 + -offset else i2
    let last := if offset < 0 then i2 else i1
    match x.get (othersFrom d1 d2 0 idx ++ [minui last (n - 1)]) with
    | none => none
    | some e => if adj1 = adj2 then some e else some zero⟩

/-- `ConvertAtenUnfoldOp` (lines 2623-2784). -/
def lowerUnfold {E : Type} (x : Tensor E) (dim size step : Int) : Option (Tensor E) :=
  if step ≤ 0 then none else
  let r := x.sizes.length
  if r = 0 then
    if size = 0 then some ⟨[0], fun _ => none⟩
    else some ⟨[1], fun _ => x.get []⟩
  else
  let dim := if dim < 0 then Tm.positiveDim dim r else dim
  if !Tm.validDim dim r then none else
  let d := dim.toNat
  let n := x.sizes.getD d 0
  if size < 0 ∨ n < size then none else
  let blocks := (n - size) / step + 1
  some ⟨x.sizes.set d blocks ++ [size], fun idx =>
    x.get ((List.range r).map fun k => if k = d then idx.getD r 0 + idx.getD d 0 * step else idx.getD k 0)⟩

end Verif.Lin
