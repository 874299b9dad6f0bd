import Verif.Model.ShapeCore

/-!
# Shape functions: view, flatten, unflatten, collapse, split, pixel shuffle

AIL and LIB as in `Verif.Model.ShapeCore`.
-/

namespace Verif.Shape

/-- One round of the loop of `infer_size_impl` (AIL:5499–5530): `(newsize, infer_dim)`. -/
def viewStep (acc : Int × Option Nat) (p : Int × Nat) : Py (Int × Option Nat) :=
  if p.1 = -1 then
    match acc.2 with
    | some _ => .error .assertion
    | none => .ok (acc.1, some p.2)
  else if p.1 ≥ 0 then .ok (acc.1 * p.1, acc.2)
  else .error .assertion

/-- `infer_size_impl(shape, numel)` (AIL:5486–5568). -/
def inferSize (size : List Int) (numel : Int) : Py (List Int) :=
  match pyFold viewStep (1, none) size.zipIdx with
  | .error e => .error e
  | .ok (newsize, infer) =>
    if numel = newsize ∨ (infer.isSome = true ∧ newsize > 0 ∧ Int.fmod numel newsize = 0) then
      match infer with
      | none => .ok size
      | some i => if newsize = 0 then .error .zeroDivision else .ok (size.set i (Int.fdiv numel newsize))
    else .error .assertion

/-- `view(self, sizes)` (AIL:5389–5485), used by `aten.view`, `reshape`, `reshape_as`, `_reshape_alias`
(LIB:1051–1061). -/
def view (self size : List Int) : Py (List Int) := inferSize size (multiplyIntegers self)

/-- `flatten(input, start_dim, end_dim)` (AIL:4319–4448).  The wrapped dimensions are in range, so the
loops are `take`, `drop` and a product. -/
def flatten (self : List Int) (start end_ : Int) : Py (List Int) :=
  match maybeWrapDim start self.length with
  | .error e => .error e
  | .ok s => match maybeWrapDim end_ self.length with
    | .error e => .error e
    | .ok e =>
      if s > e then .error .assertion
      else if self.length = 0 then .ok [1]
      else if s = e then .ok self
      else .ok (self.take s.toNat ++
        multiplyIntegers ((self.take (e.toNat + 1)).drop s.toNat) :: self.drop (e.toNat + 1))

/-- `aten.unflatten.int` (LIB:1423–1429).  Dimensions below `-rank` are used as Python indices. -/
def unflatten (self : List Int) (dim : Int) (sizes : List Int) : Py (List Int) :=
  let d := if dim < 0 then dim + self.length else dim
  match pyGet self d with
  | .error e => .error e
  | .ok x => match view [x] sizes with
    | .error e => .error e
    | .ok v => .ok (pyTake self d ++ v ++ pyDrop self (d + 1))

/-- `aten._unsafe_view` (LIB:1063–1064). -/
def unsafeView (_self size : List Int) : Py (List Int) := .ok size

/-- `prims.collapse` (LIB:459–495). -/
def collapse (a : List Int) (start end_ : Int) : Py (List Int) :=
  if ¬ (start < a.length ∧ end_ < a.length ∧ start ≥ 0 ∧ end_ ≥ 0 ∧ start ≤ end_) then .error .assertion
  else .ok (a.take start.toNat ++
    multiplyIntegers ((a.take (end_.toNat + 1)).drop start.toNat) :: a.drop (end_.toNat + 1))

/-- `prims.split_dim` (LIB:497–513). -/
def splitDim (a : List Int) (dim outer : Int) : Py (List Int) :=
  if ¬ (dim ≥ 0 ∧ dim < a.length ∧ outer > 0) then .error .assertion
  else match pyGet a dim with
    | .error e => .error e
    | .ok x =>
      if Int.fmod x outer ≠ 0 then .error .assertion
      else .ok (a.take dim.toNat ++ outer :: Int.fdiv x outer :: a.drop (dim.toNat + 1))

/-- The last three sizes and the rest: `self[0:-3]`, `self[-3]`, `self[-2]`, `self[-1]`. -/
def lastThree (l : List Int) : Option (List Int × Int × Int × Int) :=
  match l.reverse with
  | w :: h :: c :: rest => some (rest.reverse, c, h, w)
  | _ => none

/-- `aten.pixel_shuffle` (LIB:845–855). -/
def pixelShuffle (self : List Int) (r : Int) : Py (List Int) :=
  match lastThree self with
  | none => .error .assertion
  | some (lead, c, h, w) =>
    if r * r = 0 then .error .zeroDivision
    else if Int.fmod c (r * r) ≠ 0 then .error .assertion
    else .ok (lead ++ [Int.fdiv c (r * r), h * r, w * r])

/-- `aten.pixel_unshuffle` (LIB:857–868). -/
def pixelUnshuffle (self : List Int) (r : Int) : Py (List Int) :=
  match lastThree self with
  | none => .error .assertion
  | some (lead, c, h, w) =>
    if r = 0 then .error .zeroDivision
    else if Int.fmod h r ≠ 0 then .error .assertion
    else if Int.fmod w r ≠ 0 then .error .assertion
    else .ok (lead ++ [c * (r * r), Int.fdiv h r, Int.fdiv w r])

end Verif.Shape
