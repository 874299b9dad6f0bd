import Verif.Model.Fold

/-!
# Interpreting operations on a list within a block (`lib/Dialect/Torch/Transforms/SimplifyAbstractInterpCalculationsUtils.cpp`)

The pattern `AbstractlyInterpretListOpsWithinABlock` (lines 105-257) starts at a `torch.prim.ListConstruct`, follows its
users in program order and replaces every operation that changes the list by a new literal.

A block is the sequence of its operations.  Users inside the regions of an operation are represented by that operation
itself (lines 114-126): if none of them may mutate the list it is a `read`, otherwise a `mutate` that is nested.  An
operation that uses the list more than once occurs once in the walk here; visiting it a second time has no effect
(unless the list is appended to itself, which its type excludes).
-/

namespace Verif.ListInterp
open Fold (V)

/-- The operations the pattern tells apart. -/
inductive Op where
  /-- `torch.prim.ListConstruct` -/
  | construct (l : V) (es : List V)
  /-- `aten.append.t`; `used` tells whether its result is used -/
  | append (l el : V) (used : Bool)
  /-- `aten.insert.t` -/
  | insert (l idx el : V)
  /-- `aten._set_item.t` -/
  | setItem (l idx el : V) (used : Bool)
  /-- an operation that does not mutate lists (`potentiallyMutatesListOperands` is false), with its list operands and
  its result; `site` is what it does -/
  | read (site : Nat) (ls : List V) (r : V)
  /-- any other operation; `nested` if what may mutate the list is in another block -/
  | mutate (site : Nat) (ls : List V) (r : V) (nested : Bool)
  deriving DecidableEq, Repr

/-- Operands. -/
def Op.operands : Op → List V
  | .construct _ es => es
  | .append l el _ => [l, el]
  | .insert l idx el => [l, idx, el]
  | .setItem l idx el _ => [l, idx, el]
  | .read _ ls _ => ls
  | .mutate _ ls _ _ => ls

/-- Results. -/
def Op.results : Op → List V
  | .construct l _ => [l]
  | .read _ _ r => [r]
  | .mutate _ _ r _ => [r]
  | _ => []

/-- Is it among `op->getUsers()`? -/
def Op.uses (L : V) (o : Op) : Bool := o.operands.contains L

def sub (L t n : V) : V := if n = L then t else n

/-- Operands replaced. -/
def Op.subst (L t : V) : Op → Op
  | .construct l es => .construct l (es.map (sub L t))
  | .append l el u => .append (sub L t l) (sub L t el) u
  | .insert l idx el => .insert (sub L t l) (sub L t idx) (sub L t el)
  | .setItem l idx el u => .setItem (sub L t l) (sub L t idx) (sub L t el) u
  | .read s ls r => .read s (ls.map (sub L t)) r
  | .mutate s ls r n => .mutate s (ls.map (sub L t)) r n

/-- `matchLegalConstantIndexIntoListOfSize` (Utils.cpp, lines 33-42). -/
def legalIndex (k : V → Option Int) (v : V) (length : Nat) : Option Nat :=
  match k v with
  | none => none
  | some d =>
    let d := if d ≥ 0 then d else d + length
    if 0 ≤ d ∧ d < length then some d.toNat else none

/-- Lines 172-191: a constant index from zero to the length. -/
def insertIndex (k : V → Option Int) (v : V) (length : Nat) : Option Nat :=
  match k v with
  | none => none
  | some d => if d < 0 ∨ d > length then none else some d.toNat

/-- One more literal, and whether it is new. -/
def addLiteral (isSelf : Bool) (lit : List V) : Option (List (List V) × Bool) → Option (List (List V) × Bool)
  | none => none
  | some (lits, gen) => some (lit :: lits, isSelf || gen)

/-- The list an operation of a kind the pattern understands changes. -/
def Op.self? : Op → Option V
  | .append l _ _ => some l
  | .insert l _ _ => some l
  | .setItem l _ _ _ => some l
  | _ => none

/-- `potentiallyMutatesListOperands`, for the other kinds. -/
def Op.mutates : Op → Bool
  | .mutate .. => true
  | _ => false

def Op.nested : Op → Bool
  | .mutate _ _ _ n => n
  | _ => false

/-- What such an operation makes of the running list (lines 160-207); `none` is failure of the pattern. -/
def Op.apply (k : V → Option Int) (running : List V) : Op → Option (List V)
  | .append _ el used => if used then none else some (running ++ [el])
  | .insert _ idx el =>
    match insertIndex k idx running.length with
    | none => none
    | some i => some (running.insertIdx i el)
  | .setItem _ idx el used =>
    if used then none
    else
      match legalIndex k idx running.length with
      | none => none
      | some i => some (running.set i el)
  | _ => some running

/-- The first loops (lines 130-213) over the operations after the list's construction: the literals, one for each of the
operations that change it or have it for an operand of a kind that changes lists, and whether one of them is new.  `none`
is failure of the pattern.  Both loops stop at an operation that may mutate the list in a way not understood. -/
def literals (L : V) (k : V → Option Int) : List V → List Op → Option (List (List V) × Bool)
  | _, [] => some ([], false)
  | running, o :: rest =>
    if o.uses L then
      match o.self? with
      | some l =>
        match o.apply k running with
        | none => none
        | some r =>
          if l = L then addLiteral true r (literals L k r rest) else addLiteral false running (literals L k running rest)
      | none => if o.mutates then some ([], false) else literals L k running rest
    else literals L k running rest

/-- An operation in front of the rewritten ones. -/
def consOp (o : Op) : Option (List Op × V) → Option (List Op × V)
  | none => none
  | some (ops, last) => some (o :: ops, last)

/-- The second loop (lines 219-251): new operations, and the name of the latest literal.  `none`: `listLiterals` is read
past its end (undefined behaviour).  It only stops at operations that may mutate the list in another block. -/
def rewrite (L : V) : (lits : List (List V)) → (latest fresh : V) → List Op → Option (List Op × V)
  | _, latest, _, [] => some ([], latest)
  | lits, latest, fresh, o :: rest =>
    if o.uses L then
      match o.self? with
      | some l =>
        match lits with
        | [] => none
        | lit :: lits =>
          let r := rewrite L lits fresh (fresh + 1) rest
          consOp (.construct fresh lit) (if l = L then r else consOp o r)
      | none => if o.nested then some (o :: rest, latest) else consOp (o.subst L latest) (rewrite L lits latest fresh rest)
    else consOp o (rewrite L lits latest fresh rest)

/-- What the pattern does. -/
inductive Outcome where
  | failure
  | undef
  | block (ops : List Op)
  deriving DecidableEq

/-- The pattern, for the list `L` made from `es` and the operations after it in its block; names from `fresh` on are not in
use. -/
def pattern (L : V) (es : List V) (k : V → Option Int) (fresh : V) (ops : List Op) : Outcome :=
  match literals L k es ops with
  | none => .failure
  | some (lits, gen) =>
    if !gen then .failure
    else
      match rewrite L lits fresh (fresh + 1) ops with
      | none => .undef
      | some (ops, last) => .block (.construct fresh es :: ops.map (Op.subst L last))

end Verif.ListInterp
