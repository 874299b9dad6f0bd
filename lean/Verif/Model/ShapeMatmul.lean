import Verif.Model.ShapeElementwise

/-!
# Shape functions: matrix products

AIL and LIB as in `Verif.Model.ShapeCore`.  `assert len(x) == 2` followed by reading `x[0]` and `x[1]` is
written as a pattern.
-/

namespace Verif.Shape

/-- `mm(self, mat2)` (AIL:913–961); also `_scaled_mm`, `_int_mm`, `_scaled_mm_v2` (LIB:911–958). -/
def mm (a b : List Int) : Py (List Int) :=
  match a, b with
  | [n, k], [k', p] => if k ≠ k' then .error .assertion else .ok [n, p]
  | _, _ => .error .assertion

/-- `dot(self, tensor)` (AIL:962–1005). -/
def dot (a b : List Int) : Py (List Int) :=
  match a, b with
  | [k], [k'] => if k ≠ k' then .error .assertion else .ok []
  | _, _ => .error .assertion

/-- `mv(self, vec)` (AIL:1006–1051). -/
def mv (a b : List Int) : Py (List Int) :=
  match a, b with
  | [n, k], [k'] => if k ≠ k' then .error .assertion else .ok [n]
  | _, _ => .error .assertion

/-- The branch of `matmul` for operands of rank at least one (AIL:1318–1418).  `range(dim - 2)` is empty
for vectors. -/
def matmulGeneral (a b : List Int) : Py (List Int) :=
  match (if a.length > 1 then pyGet a (-2) else .ok 1) with
  | .error e => .error e
  | .ok n => match pyGet b (-1) with
    | .error e => .error e
    | .ok p => match broadcast (a.take (a.length - 2)) (b.take (b.length - 2)) with
      | .error e => .error e
      | .ok batch =>
        .ok (batch ++ (if a.length > 1 then [n] else []) ++ (if b.length > 1 then [p] else []))

/-- `matmul(tensor1, tensor2)` (AIL:1052–1432). -/
def matmul (a b : List Int) : Py (List Int) :=
  if a.length = 1 ∧ b.length = 1 then dot a b
  else if a.length = 2 ∧ b.length = 1 then mv a b
  else if a.length = 1 ∧ b.length = 2 then
    match unsqueeze a 0 with
    | .error e => .error e
    | .ok a' => match mm a' b with
      | .error e => .error e
      | .ok c => squeeze c 0
  else if a.length = 2 ∧ b.length = 2 then mm a b
  else if a.length ≥ 1 ∧ b.length ≥ 1 then matmulGeneral a b
  else .error .assertion

/-- `linear(input, weight, bias)` (AIL:1499–1983). -/
def linear (input weight : List Int) (bias : Option (List Int)) : Py (List Int) :=
  match t weight with
  | .error e => .error e
  | .ok wt => match matmul input wt with
    | .error e => .error e
    | .ok out => match bias with
      | none => .ok out
      | some b => match broadcast b out with
        | .error e => .error e
        | .ok c => if c ≠ out then .error .assertion else .ok out

/-- `bmm(self, mat2)` (AIL:6219–6277). -/
def bmm (a b : List Int) : Py (List Int) :=
  match a, b with
  | [x, n, k], [x', k', p] => if x ≠ x' then .error .assertion else if k ≠ k' then .error .assertion
      else .ok [x, n, p]
  | _, _ => .error .assertion

/-- `addmm(self, mat1, mat2, beta, alpha)` (AIL:5914–6010): `broadcast(self, mm(mat1, mat2))`. -/
def addmm (self a b : List Int) : Py (List Int) :=
  match mm a b with
  | .error e => .error e
  | .ok m => broadcast self m

/-- `aten.addbmm` (LIB:969–971). -/
def addbmm (self a b : List Int) : Py (List Int) :=
  match bmm a b with
  | .error e => .error e
  | .ok m => expand self (m.drop 1)

/-- `aten.baddbmm` (LIB:983–984): `self` is not looked at. -/
def baddbmm (_self a b : List Int) : Py (List Int) := bmm a b

/-- `aten.dot` (LIB:902–903): the operands are not looked at. -/
def atenDot (_a _b : List Int) : Py (List Int) := .ok []

/-- `aten.outer` (LIB:898–899). -/
def outer (a b : List Int) : Py (List Int) :=
  match pyGet a 0 with
  | .error e => .error e
  | .ok x => match pyGet b 0 with
    | .error e => .error e
    | .ok y => .ok [x, y]

/-- `aten.bilinear` (LIB:1442–1459). -/
def bilinear (x y weight : List Int) (bias : Option (List Int)) : Py (List Int) :=
  if x.length ≠ y.length then .error .assertion
  else match weight with
    | [w0, w1, w2] => match pyGet x ((x.length : Int) - 1) with
      | .error e => .error e
      | .ok xl =>
        if xl ≠ w1 then .error .assertion
        else match pyGet y ((y.length : Int) - 1) with
          | .error e => .error e
          | .ok yl =>
            if yl ≠ w2 then .error .assertion
            else if x.take (x.length - 1) ≠ y.take (x.length - 1) then .error .assertion
            else match bias with
              | none => .ok (x.take (x.length - 1) ++ [w0])
              | some b => if b ≠ [w0] then .error .assertion
                  else broadcast (x.take (x.length - 1) ++ [w0]) b
    | _ => .error .assertion

end Verif.Shape
