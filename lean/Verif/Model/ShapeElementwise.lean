import Verif.Model.ShapeCore

/-!
# Shape functions of element-wise operations

LIB = /repo/projects/pt1/python/torch_mlir/jit_ir_importer/build_tools/abstract_interp_lib_gen.py.
-/

namespace Verif.Shape

/-- What the one-line body of a shape function returns. -/
inductive BinBody where
  | broadcast  -- `upstream_shape_functions.broadcast(self, other)`
  | first      -- `upstream_shape_functions.unary(self)`
  deriving DecidableEq, Repr

/-- The element-wise operations on two tensors, with the line in LIB and the body. -/
def binaryOps : List (String × Nat × BinBody) :=
  [("aten.polar", 352, .first),
   ("aten.clamp_min.Tensor", 402, .first),
   ("aten.ne.Tensor", 592, .broadcast),
   ("aten.remainder.Tensor", 631, .first),
   ("aten.fmod.Tensor", 634, .first),
   ("aten.pow.Tensor_Tensor", 646, .broadcast),
   ("aten.min.other", 697, .broadcast),
   ("aten.max.other", 703, .broadcast),
   ("aten.logaddexp", 1641, .first),
   ("aten.logaddexp2", 1644, .first),
   ("aten.masked_fill.Scalar", 1647, .first),
   ("aten.add.Tensor", 1753, .broadcast),
   ("aten.sub.Tensor", 1756, .broadcast),
   ("aten.mul.Tensor", 1759, .broadcast),
   ("aten.div.Tensor", 1762, .broadcast),
   ("aten.div.Tensor_mode", 1765, .broadcast),
   ("aten.floor_divide", 1771, .broadcast),
   ("aten.atan2", 1774, .broadcast),
   ("aten.ldexp.Tensor", 1783, .broadcast),
   ("aten.copysign.Tensor", 1786, .broadcast),
   ("aten.__and__.Tensor", 1789, .broadcast),
   ("aten.__or__.Tensor", 1792, .broadcast),
   ("aten.minimum", 1795, .broadcast),
   ("aten.maximum", 1798, .broadcast),
   ("aten.fmin", 1801, .broadcast),
   ("aten.fmax", 1804, .broadcast),
   ("aten.bitwise_or.Tensor", 1807, .broadcast),
   ("aten.bitwise_and.Tensor", 1810, .broadcast),
   ("aten.bitwise_xor.Tensor", 1816, .broadcast),
   ("aten.bitwise_right_shift.Tensor", 1819, .broadcast),
   ("aten.bitwise_left_shift.Tensor", 1822, .broadcast),
   ("aten.logical_or", 1828, .broadcast),
   ("aten.logical_and", 1831, .broadcast),
   ("aten.logical_xor", 1834, .broadcast),
   ("aten.threshold_backward", 1843, .broadcast),
   ("aten.eq.Tensor", 1846, .broadcast),
   ("aten.gt.Tensor", 1849, .broadcast),
   ("aten.ge.Tensor", 1852, .broadcast),
   ("aten.lt.Tensor", 1855, .broadcast),
   ("aten.le.Tensor", 1858, .broadcast),
   ("aten.isclose", 1861, .broadcast),
   ("aten.where.ScalarOther", 1925, .broadcast),
   ("aten.where.ScalarSelf", 1928, .broadcast),
   ("aten.heaviside", 1931, .broadcast),
   ("aten.lerp.Scalar", 1940, .broadcast)]

/-- The shape computed for an element-wise operation on two tensors; `none` if it is not in the table. -/
def binaryShape (op : String) (a b : List Int) : Option (Py (List Int)) :=
  match binaryOps.lookup op with
  | none => none
  | some (_, .broadcast) => some (broadcast a b)
  | some (_, .first) => some (.ok (unary a))

/-- `broadcast(x, broadcast(y, z))`: `aten.where.self` (LIB:1919), `aten.lerp.Tensor` (1937),
`aten.addcmul` (1943), `aten.addcdiv` (1946). -/
def ternaryShape (x y z : List Int) : Py (List Int) :=
  match broadcast y z with
  | .error e => .error e
  | .ok yz => broadcast x yz

/-- `aten.broadcast_tensors` (LIB:1040–1050). -/
def broadcastTensors (tensors : List (List Int)) : Py (List (List Int)) :=
  match tensors with
  | [] => .ok []
  | t :: rest => match pyFold broadcast t rest with
    | .error e => .error e
    | .ok result => .ok (List.replicate (rest.length + 1) result)

/-- `expand(self, sizes)` (AIL:5569–5656); `-1` keeps a size. -/
def expandAt (self sizes : List Int) (i : Nat) : Py Int :=
  let offset : Int := (sizes.length : Int) - 1 - i
  let dim : Int := (self.length : Int) - 1 - offset
  match sizeOrOne self dim with
  | .error e => .error e
  | .ok size => match pyGet sizes i with
    | .error e => .error e
    | .ok target =>
      if target = -1 then (if dim < 0 then .error .assertion else .ok size)
      else if size ≠ target then (if size ≠ 1 then .error .assertion else .ok target)
      else .ok size

def expand (self sizes : List Int) : Py (List Int) :=
  if sizes.length < self.length then .error .assertion
  else pyMap (expandAt self sizes) (List.range sizes.length)

/-- `aten.expand_as` (LIB:1034): `unary(other)`. -/
def expandAs (_self other : List Int) : Py (List Int) := .ok other

/-- One iteration of the second loop of `aten.repeat` (LIB:1000–1001). -/
def repeatAt (self repeats : List Int) (lead i : Nat) : Py Int :=
  match pyGet self i with
  | .error e => .error e
  | .ok s => match pyGet repeats ((i : Int) + lead) with
    | .error e => .error e
    | .ok r => .ok (s * r)

/-- `aten.repeat` (LIB:990–1002). -/
def repeat_ (self repeats : List Int) : Py (List Int) :=
  if repeats.length < self.length then .error .assertion
  else
    let lead := repeats.length - self.length
    match pyMap (fun i : Nat => pyGet repeats i) (List.range lead) with
    | .error e => .error e
    | .ok front => match pyMap (repeatAt self repeats lead) (List.range self.length) with
      | .error e => .error e
      | .ok back => .ok (front ++ back)

/-- `aten.tile` (LIB:1021–1026). -/
def tile (self dims : List Int) : Py (List Int) :=
  let dims := if dims.length < self.length then
    List.replicate (self.length - dims.length) 1 ++ dims else dims
  repeat_ self dims

end Verif.Shape
