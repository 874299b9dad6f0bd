import Verif.Model.ShapeCore

/-!
# Shape functions: cat, stack, hstack, column_stack

AIL and LIB as in `Verif.Model.ShapeCore`.
-/

namespace Verif.Shape

/-- `should_skip(tensor)` (AIL:4732–4746): `numel(tensor) == 0 and len(tensor) == 1`. -/
def shouldSkip (t : List Int) : Bool := multiplyIntegers t == 0 && t.length == 1

/-- `len(tensor_size) == 1 and tensor_size[0] == 0` in `legacy_cat_wrap_dim` (AIL:4697–4705). -/
def legacyEmpty (t : List Int) : Bool := t.length == 1 && t[0]? == some 0

/-- One round of `legacy_cat_wrap_dim` (AIL:4695–4722). -/
def catDimStep (dim : Int) (out : Option Int) (t : List Int) : Py (Option Int) :=
  if legacyEmpty t then .ok out
  else match out with
    | some d => .ok (some d)
    | none => match maybeWrapDim dim t.length with
      | .error e => .error e
      | .ok w => .ok (some w)

/-- `legacy_cat_wrap_dim(dim, tensor_sizes)` (AIL:4685–4731). -/
def catWrapDim (dim : Int) (ts : List (List Int)) : Py Int :=
  match pyFold (catDimStep dim) none ts with
  | .error e => .error e
  | .ok none => .ok dim
  | .ok (some w) => .ok w

/-- The loop of `check_cat_shape_except_dim` (AIL:4775–4801). -/
def sameExceptB (dim : Int) (a b : List Int) : Bool :=
  (List.range a.length).all (fun i => decide ((i : Int) = dim) || a[i]? == b[i]?)

/-- One round of the summing loop of `cat` (AIL:4593–4650). -/
def catStep (notSkipped : List Int) (dim : Int) (acc : Int) (t : List Int) : Py Int :=
  if shouldSkip t then .ok acc
  else if notSkipped.length ≠ t.length then .error .assertion
  else if sameExceptB dim notSkipped t then
    match pyGet t dim with
    | .error e => .error e
    | .ok x => .ok (acc + x)
  else .error .assertion

/-- The loop that finds the last tensor not skipped (AIL:4558–4584). -/
def notSkippedStep (acc : Option (List Int)) (t : List Int) : Option (List Int) :=
  if shouldSkip t then acc else some t

/-- `cat(tensors, dim)` (AIL:4449–4663), used by `aten.cat` (LIB:2558). -/
def cat (ts : List (List Int)) (dim : Int) : Py (List Int) :=
  if ts.any (fun t => t.length == 0) then .error .assertion
  else match catWrapDim dim ts with
    | .error e => .error e
    | .ok w =>
      if ts.length = 0 then .error .assertion
      else match ts.foldl notSkippedStep none with
        | none => .ok [0]
        | some last => match pyFold (catStep last w) 0 ts with
          | .error e => .error e
          | .ok total => pySet last w total

/-- `stack(tensors, dim)` (AIL:4805–5068), used by `aten.stack` (LIB:2576). -/
def stack (ts : List (List Int)) (dim : Int) : Py (List Int) :=
  match pyMap (fun t => unsqueeze t dim) ts with
  | .error e => .error e
  | .ok us => cat us dim

/-- `aten.atleast_1d` (LIB:2561–2565). -/
def atleast1d (t : List Int) : List Int := if t.length = 0 then [1] else t

/-- `aten.hstack` (LIB:2583–2590). -/
def hstack (ts : List (List Int)) : Py (List Int) :=
  match pyGet (ts.map atleast1d) 0 with
  | .error e => .error e
  | .ok first => cat (ts.map atleast1d) (if first.length = 1 then 0 else 1)

/-- The loop body of `aten.column_stack` (LIB:2598–2602).  `tensor.append(1)` changes the caller's list
as well, which is not modelled. -/
def columnShape (t : List Int) : List Int :=
  if t.length = 0 then [1, 1] else if t.length = 1 then t ++ [1] else t

/-- `aten.column_stack` (LIB:2595–2604). -/
def columnStack (ts : List (List Int)) : Py (List Int) := cat (ts.map columnShape) 1

end Verif.Shape
