import Verif.Model.ShapeCore

/-!
# Shape functions: slice.Tensor, narrow, triangular indices

AIL and LIB as in `Verif.Model.ShapeCore`.
-/

namespace Verif.Shape

/-- A bound of a slice with a negative step (LIB:2192–2199): add the size if negative; if still negative,
replace by `low`. -/
def negBound (self : List Int) (dim x low : Int) : Py Int :=
  if x < 0 then
    match pyGet self dim with
    | .error e => .error e
    | .ok n => .ok (if x + n < 0 then low else x + n)
  else .ok x

/-- `aten.slice.Tensor` (LIB:2178–2205). -/
def sliceTensor (self : List Int) (dim : Int) (start end_ : Option Int) (step : Int) : Py (List Int) :=
  if step < 0 then
    match negBound self dim (start.getD 0) 0 with
    | .error e => .error e
    | .ok s => match negBound self dim (end_.getD maxInt) (-1) with
      | .error e => .error e
      | .ok e => slice self dim (some (e + 1)) (some (s + 1)) (-step)
  else slice self dim (some (start.getD 0)) (some (end_.getD maxInt)) step

/-- `aten.narrow` (LIB:2223–2224). -/
def narrow (self : List Int) (dim start length : Int) : Py (List Int) :=
  slice self dim (some start) (some (start + length)) 1

/-- `int(b)` of a Python bool. -/
def boolInt (b : Bool) : Int := if b then 1 else 0

/-- `m_first_row` of `tril_indices` (LIB:2317). -/
def trilFirstRow (row col offset : Int) : Int :=
  if offset > 0 then min col (1 + offset) else boolInt (decide (row + offset > 0))

/-- `m_last_row` (LIB:2318). -/
def trilLastRow (row col offset : Int) : Int := max 0 (min col (row + offset))

/-- `n_row_all` (LIB:2319). -/
def trilRows (row offset : Int) : Int := max 0 (min row (row + offset))

/-- The sum of trapezoid and rectangle (LIB:2320–2328). -/
def trilSize (row col offset : Int) : Int :=
  let first := trilFirstRow row col offset
  let last := trilLastRow row col offset
  let trapezoidRows := last - first + 1
  Int.fdiv ((first + last) * trapezoidRows) 2 + max 0 ((trilRows row offset - trapezoidRows) * col)

/-- `aten.tril_indices` (LIB:2313–2328). -/
def trilIndices (row col offset : Int) : List Int :=
  if row = 0 ∨ col = 0 then [2, 0] else [2, trilSize row col offset]

/-- `aten.triu_indices` (LIB:2281–2305). -/
def triuIndices (row col offset : Int) : List Int :=
  if row = 0 ∨ col = 0 then [2, 0] else [2, row * col - trilSize row col (offset - 1)]

end Verif.Shape
