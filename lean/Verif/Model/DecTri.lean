import Mathlib.Data.Rat.Floor
import Verif.Model.LinView

/-!
# Decomposition of triangular indices (DecomposeComplexOps.cpp 772-1275)

Simplified: the numbers of `int64_t` are not bounded; numbers of type f64 are rational, and computed with exactly, but for the square root, which is a parameter.
-/

namespace Verif.Tri

open Lin

/-- `getTrilSizes` (lines 781-816): the elements of the trapezoid and of the rectangle, and the length of the first row. -/
def trilSizes (row col offset : Int) : Int × Int × Int :=
  if row = 0 ∨ col = 0 then (0, 0, 0)
  else
    let mFirstRow := if offset > 0 then (if col < offset + 1 then col else offset + 1) else if row + offset > 0 then 1 else 0
    let minimum := if col < row + offset then col else row + offset
    let mLastRow := if minimum > 0 then minimum else 0
    let minimum := if row < row + offset then row else row + offset
    let nRowAll := if minimum > 0 then minimum else 0
    let nRowTrapezoid := mLastRow - mFirstRow + 1
    let trapezoidSize := ((mFirstRow + mLastRow) * nRowTrapezoid).tdiv 2
    let diffRow := nRowAll - nRowTrapezoid
    let rectangleSize := if diffRow * col > 0 then diffRow * col else 0
    (trapezoidSize, rectangleSize, mFirstRow)

/-- `getTriuSizes` (lines 827-853). -/
def triuSizes (row col offset : Int) : Int × Int × Int :=
  if row = 0 ∨ col = 0 then (0, 0, 0)
  else
    let maximum := if col - offset > 0 then col - offset else 0
    let mFirstRow := if offset > 0 then maximum else col
    let minimum := if row < -offset then row else -offset
    let rectangleSize := if minimum * col > 0 then minimum * col else 0
    let tril := trilSizes row col (offset - 1)
    let triuSize := row * col - (tril.1 + tril.2.1)
    (triuSize - rectangleSize, rectangleSize, mFirstRow)

/-- `aten.arange`. -/
def arange (n : Int) : List Int := (List.range n.toNat).map fun (i : Nat) => (i : Int)

/-- Row of an element of the lower trapezoid (lines 1160-1180). -/
def trilRow (sqrt : ℚ → ℚ) (mFirstRow x : Int) : Int :=
  let b : ℚ := mFirstRow - 1 / 2
  ⌊sqrt ((x : ℚ) * 2 + b * b) - b⌋

/-- Column of it (lines 1182-1199). -/
def trilCol (mFirstRow x r : Int) : Int := ⌊(x : ℚ) - ((r : ℚ) + ((2 * mFirstRow - 1 : Int) : ℚ)) * r * (1 / 2)⌋

/-- Row of an element of the upper trapezoid (lines 958-979). -/
def triuRow (sqrt : ℚ → ℚ) (mFirstRow x : Int) : Int :=
  let b : ℚ := -1 / 2 - mFirstRow
  ⌊-(sqrt ((x : ℚ) * -2 + b * b)) - b⌋

/-- Column of it (lines 981-1001). -/
def triuCol (mFirstRow x r : Int) : Int := ⌊(x : ℚ) + (-(r : ℚ) + ((2 * mFirstRow - 1 : Int) : ℚ)) * r * (-1 / 2)⌋

/-- The types of elements that the verifier allows (TorchOps.cpp 7526-7558, 7579-7611). -/
inductive Width where
  | long
  | int
  deriving DecidableEq

/-- `DecomposeAtenTrilIndicesOp` (lines 1073-1275): rows and columns. The result is declared to hold numbers of 64 bits (lines 1202-1220, 1267-1271). -/
def decomposeTril (sqrt : ℚ → ℚ) (row col offset : Option Int) (dtype : Option Width) : Outcome (List Int × List Int) :=
  match row, col, offset, dtype with
  | some row, some col, some offset, some w =>
    let (trapezoidSize, rectangleSize, mFirstRow) := trilSizes row col offset
    let rowOffset := if -offset > 0 then -offset else 0
    let xs1 := arange trapezoidSize
    let rows1 := xs1.map fun x => trilRow sqrt mFirstRow x
    let cols1 := List.zipWith (fun x r => trilCol mFirstRow x r) xs1 rows1
    let xs2 := arange rectangleSize
    let rows2 := xs2.map fun x => x.fdiv col + (col - mFirstRow + 1 + rowOffset)
    let cols2 := xs2.map fun x => x.fmod col
    if w = .long then .ok (rows1.map (· + rowOffset) ++ rows2, cols1 ++ cols2) else .bad
  | _, _, _, _ => .unmatched

/-- `DecomposeAtenTriuIndicesOp` (lines 858-1067). -/
def decomposeTriu (sqrt : ℚ → ℚ) (row col offset : Option Int) (dtype : Option Width) : Outcome (List Int × List Int) :=
  match row, col, offset, dtype with
  | some row, some col, some offset, some w =>
    let (trapezoidSize, rectangleSize, mFirstRow) := triuSizes row col offset
    let colOffset := if offset > 0 then offset else 0
    let xs2 := arange rectangleSize
    let rows2 := xs2.map fun x => x.fdiv col
    let cols2 := xs2.map fun x => x.fmod col
    let xs1 := arange trapezoidSize
    let rows1 := xs1.map fun x => triuRow sqrt mFirstRow x
    let cols1 := List.zipWith (fun x r => triuCol mFirstRow x r) xs1 rows1
    let rows1 := if col ≠ 0 then rows1.map (· + rectangleSize.tdiv col) else rows1
    if w = .long then .ok (rows2 ++ rows1, cols2 ++ cols1.map (· + colOffset)) else .bad
  | _, _, _, _ => .unmatched

end Verif.Tri
