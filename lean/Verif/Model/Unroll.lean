import Verif.Model.Fold

/-!
# Unrolling loops (`lib/Dialect/Torch/Transforms/SimplifyAbstractInterpCalculationsUtils.cpp`)

The pattern `FullyUnrollPrimLoopOp` (lines 34-101) replaces a `torch.prim.Loop` with a constant trip count by copies of its
body.

Operations other than constants are `call`s: results, what they do (`site`) and the names they use.  An operation with
regions is a `call` that uses the names its regions use from outside.
-/

namespace Verif.Unroll
open Fold (V)

inductive Op where
  /-- `torch.constant.int` -/
  | const (r : V) (c : Int)
  | call (res : List V) (site : Nat) (args : List V)
  deriving DecidableEq, Repr

def Op.args : Op → List V
  | .const _ _ => []
  | .call _ _ args => args

def Op.res : Op → List V
  | .const r _ => [r]
  | .call res _ _ => res

/-- The same operation with other operands and results. -/
def Op.rebuild (res args : List V) : Op → Op
  | .const _ c => .const (res.headD 0) c
  | .call _ s _ => .call res s args

/-- `torch.prim.Loop` (TorchOps.td, lines 509-537) with the arguments of its block, the body without its terminator, and the
operands of the terminator `torch.prim.Loop.condition` (lines 539-558). -/
structure Loop where
  maxTripCount : V
  initialCondition : V
  inits : List V
  results : List V
  index : V
  params : List V
  body : List Op
  shouldContinue : V
  yields : List V

/-- `IRMapping`: the latest entry counts. -/
abbrev Mapping := List (V × V)

/-- `lookupOrNull`. -/
def Mapping.find (m : Mapping) (v : V) : Option V := List.lookup v m

/-- `lookupOrDefault`. -/
def Mapping.orSelf (m : Mapping) (v : V) : V := (m.find v).getD v

/-- `n` new names. -/
def names (fresh : V) (n : Nat) : List V := List.range' fresh n

/-- Cloning an operation (`Region::cloneInto`, line 83): operands are looked up, results are new and entered into the
mapping. -/
def cloneOp (m : Mapping) (fresh : V) (o : Op) : Op × Mapping :=
  let new := names fresh o.res.length
  (o.rebuild new (o.args.map m.orSelf), o.res.zip new ++ m)

/-- Cloning the body; the new operations, the mapping and the next new name. -/
def cloneBody : Mapping → V → List Op → List Op × Mapping × V
  | m, fresh, [] => ([], m, fresh)
  | m, fresh, o :: rest =>
    let (o', m') := cloneOp m fresh o
    let (rest', m'', fresh') := cloneBody m' (fresh + o.res.length) rest
    (o' :: rest', m'', fresh')

/-- `bvm.lookup(v)` for each of the names (lines 73-76 and 95-97); `none` if one of them is not there (an assertion). -/
def lookupAll (m : Mapping) : List V → Option (List V)
  | [] => some []
  | v :: vs =>
    match m.find v with
    | none => none
    | some x =>
      match lookupAll m vs with
      | none => none
      | some xs => some (x :: xs)

/-- Lines 78-80: the mapping at the start of an iteration. -/
def entry (L : Loop) (idx : V) (iterArgs : List V) : Mapping := L.params.zip iterArgs ++ [(L.index, idx)]

/-- Lines 68-87: `n` iterations from the `i`-th on, the index of iteration `i` being the name `idx + i`.  The new
operations and the names of the values yielded at last. -/
def iterations (L : Loop) (idx : V) : (n i : Nat) → (iterArgs : List V) → (fresh : V) → Option (List Op × List V)
  | 0, _, iterArgs, _ => some ([], iterArgs)
  | n + 1, i, iterArgs, fresh =>
    let (ops, m, fresh') := cloneBody (entry L (idx + i) iterArgs) fresh L.body
    match lookupAll m L.yields with
    | none => none
    | some next =>
      match iterations L idx n (i + 1) next fresh' with
      | none => none
      | some (rest, last) => some (ops ++ rest, last)

/-- Lines 56-62: the constants. -/
def indices (fresh : V) (n : Nat) : List Op := (List.range n).map fun i => .const (fresh + i) i

/-- Uses of the loop's results replaced (`replaceOp`). -/
def Op.replaceUses (m : Mapping) : Op → Op
  | .const r c => .const r c
  | .call res s args => .call res s (args.map m.orSelf)

/-- What the pattern knows. -/
structure Ctx where
  /-- the loop is directly in a `torch.shape.calculate` or `torch.dtype.calculate` (lines 45-50) -/
  inCalculate : Bool
  /-- integer constants -/
  int : V → Option Int
  /-- Boolean constants -/
  bool : V → Option Bool

/-- `isForLike` (TorchOps.cpp, lines 450-453). -/
def Ctx.isForLike (g : Ctx) (L : Loop) : Bool := g.bool L.initialCondition == some true

inductive Outcome where
  | failure
  /-- a failed assertion -/
  | undef
  /-- the operations in place of the loop and of those after it, and the names in place of the loop's results -/
  | block (ops : List Op) (values : List V)
  deriving DecidableEq

/-- Lines 94-98: what the loop is replaced by, if there were no iterations. -/
def noIterations (L : Loop) (c : Int) : Option (List V) :=
  if c = 0 then some L.inits else lookupAll [] L.yields

/-- The pattern on a loop and the operations after it; names from `fresh` on are not in use. -/
def pattern (g : Ctx) (L : Loop) (after : List Op) (fresh : V) : Outcome :=
  if !g.inCalculate then .failure
  else if !g.isForLike L then .failure
  else
    match g.int L.maxTripCount with
    | none => .failure
    | some c =>
      if c ≤ 0 then
        match noIterations L c with
        | none => .undef
        | some vs => .block (after.map (Op.replaceUses (L.results.zip vs))) vs
      else
        match iterations L fresh c.toNat 0 L.inits (fresh + c.toNat) with
        | none => .undef
        | some (ops, vs) => .block (indices fresh c.toNat ++ ops ++ after.map (Op.replaceUses (L.results.zip vs))) vs

end Verif.Unroll
