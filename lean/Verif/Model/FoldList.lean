import Verif.Model.Fold

/-!
# Folders and canonicalization patterns of operators on lists (`lib/Dialect/Torch/IR/TorchOps.cpp`)

`PrimListConstructOp` makes a fresh list; other operators may change it afterwards.  What a folder can see is the operands
of the `PrimListConstructOp` and the users of the list.
-/

namespace Verif.Fold

/-- What the patterns look at. -/
structure LCtx where
  /-- `m_TorchConstantInt` -/
  k : V → Option Int
  /-- `m_TorchConstantBool` -/
  kb : V → Option Bool
  /-- operands of the `PrimListConstructOp` that defines a value -/
  list : V → Option (List V)
  /-- `isListPotentiallyMutated` (lines 121-124): some user is neither read-only nor without effects -/
  mutated : V → Bool
  /-- `isListConstructNotModified` (lines 3932-3936): all users are `aten.__contains__.int_list` -/
  onlyContains : V → Bool

/-- `PrimListConstructOp` that is not mutated. -/
def LCtx.fixed (g : LCtx) (l : V) : Option (List V) := if g.mutated l then none else g.list l

/-- `m_TorchListOfConstantInts` (TorchOps.h, lines 142-165). -/
def LCtx.constInts (g : LCtx) (l : V) : Option (List Int) :=
  match g.list l with
  | some es => es.mapM g.k
  | none => none

/-- `AtenLenTOp::fold` (lines 1333-1343). -/
def foldLenT (g : LCtx) (l : V) : Res :=
  match g.fixed l with
  | some es => .attr es.length
  | none => .none

/-- `AtenEqIntListOp::fold` (lines 3732-3755).  There is no test for mutation. -/
def foldEqIntList (g : LCtx) (a b : V) : Res :=
  match g.list a, g.list b with
  | some es, some fs =>
    if es.length ≠ fs.length then .attr (i1 false)
    else if (es.zip fs).all (fun p => p.1 == p.2) then .attr (i1 true)
    else .none
  | _, _ => .none

/-- `Aten__Contains__IntListOp::fold` (lines 3938-3957). -/
def foldContainsInt (g : LCtx) (l item : V) : Res :=
  if !g.onlyContains l then .none
  else
    match g.k item, g.constInts l with
    | some x, some xs => .attr (i1 (xs.any (· == x)))
    | _, _ => .none

/-- The values of lines 5434-5440. -/
def LCtx.consts (g : LCtx) (es : List V) : Option (List Int) := es.mapM g.k

/-- `std::min_element` on a list that is not empty. -/
def minElement : List Int → Int
  | [] => 0
  | x :: xs => xs.foldl min x

/-- `PrimMinSelfIntOp::fold` (lines 5426-5443).  There is no test for mutation. -/
def foldMinSelf (g : LCtx) (l : V) : Res :=
  match g.list l with
  | none => .none
  | some es =>
    if es.length = 0 then .none
    else
      match g.consts es with
      | some xs => .attr (minElement xs)
      | none => .none

/-- `AtenAnyBoolOp::fold` (lines 3021-3033). -/
def foldAnyBool (g : LCtx) (l : V) : Res :=
  match g.fixed l with
  | none => .none
  | some es => if es.any (fun e => g.kb e == some true) then .attr (i1 true) else .none

/-- The loop of lines 3047-3054: the answer false, or whether all were constants. -/
def allBoolLoop (kb : V → Option Bool) : List V → Bool → Option Bool
  | [], allConstants => if allConstants then some true else none
  | e :: es, allConstants =>
    match kb e with
    | none => allBoolLoop kb es false
    | some false => some false
    | some true => allBoolLoop kb es allConstants

/-- `AtenAllBoolOp::fold` (lines 3039-3056). -/
def foldAllBool (g : LCtx) (l : V) : Res :=
  match g.fixed l with
  | none => .none
  | some es =>
    match allBoolLoop g.kb es true with
    | some b => .attr (i1 b)
    | none => .none

/-- `matchLegalConstantIndexIntoListOfSize` (lib/Dialect/Torch/Utils/Utils.cpp, lines 25-42). -/
def legalIndex (g : LCtx) (v : V) (length : Nat) : Option Nat :=
  match g.k v with
  | none => none
  | some d =>
    let d' := if d ≥ 0 then d else d + length
    if d' ≥ 0 ∧ d' < length then some d'.toNat else none

/-- The first pattern of `Aten__Getitem__TOp` (lines 3566-3583). -/
def canonGetitem (g : LCtx) (l idx : V) : Option V :=
  match g.fixed l with
  | none => none
  | some es =>
    match legalIndex g idx es.length with
    | some i => es[i]?
    | none => none

/-- A new list: the operands of a new `PrimListConstructOp`, or the pattern fails, or undefined behaviour. -/
inductive ListRes where
  | failure
  | list (es : List V)
  | undef
  deriving DecidableEq

/-- The pattern of `AtenAddTOp` (lines 3650-3674). -/
def canonAddT (g : LCtx) (a b : V) : ListRes :=
  match g.fixed a, g.fixed b with
  | some es, some fs => .list (es ++ fs)
  | _, _ => .failure

/-- The loop of lines 1375-1379 (`rep` is an `int`; it does not overflow before memory is exhausted). -/
def repeatLoop (es : List V) : Nat → List V
  | 0 => []
  | n + 1 => repeatLoop es n ++ es

/-- The pattern of `AtenMulLeftTOp` (lines 1362-1385). -/
def canonMulLeftT (g : LCtx) (l n : V) : ListRes :=
  match g.fixed l, g.k n with
  | some es, some c => .list (repeatLoop es c.toNat)
  | _, _ => .failure

/-- The loop of lines 3717-3719: with a step that is not positive it reads outside the list or does not end, unless it is
not entered.  (The sum of the index and the step is assumed not to overflow.) -/
def sliceLoop (es : List V) (i end_ step : Int) : Option (List V) :=
  if i < end_ then
    if h : 0 < step then
      match es[i.toNat]?, sliceLoop es (i + step) end_ step with
      | some e, some r => some (e :: r)
      | _, _ => none
    else none
  else some []
termination_by (end_ - i).toNat

/-- An operand of a slice: its type is `!torch.none`, or it is a value. -/
inductive Bound where
  | none
  | value (v : V)

/-- Lines 3696-3705: the number given for a bound. -/
def Bound.get (g : LCtx) (default : Int) : Bound → Option Int
  | .none => some default
  | .value v => g.k v

/-- Lines 3710-3711. -/
def sliceStart (size : Nat) (start : Int) : Int :=
  let s := if start ≥ 0 then start else start + size
  if s ≥ 0 then s else 0

/-- Lines 3712-3713. -/
def sliceEnd (size : Nat) (end_ : Int) : Int :=
  let e := if end_ ≥ 0 then end_ else end_ + size
  if e < size then e else size

/-- The pattern of `AtenSliceTOp` (lines 3680-3725).  The type of the new list is read off the first element of the old
one, whether or not there is one (line 3722). -/
def canonSliceT (g : LCtx) (l : V) (start end_ : Bound) (step : V) : ListRes :=
  match g.fixed l with
  | none => .failure
  | some es =>
    match start.get g 0, end_.get g es.length, g.k step with
    | some s, some e, some st =>
      match sliceLoop es (sliceStart es.length s) (sliceEnd es.length e) st with
      | some r => if es.length = 0 then .undef else .list r
      | none => .undef
    | _, _, _ => .failure

end Verif.Fold
