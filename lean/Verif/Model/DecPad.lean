import Verif.Model.LinView

/-!
# Decomposition of padding (DecomposeComplexOps.cpp 9304-9409)

Simplified: integers are not bounded. The operator that is made is given by its name and its list of pads, with two for each dimension from the last on; what it does to a tensor is not. Types are left out.
-/

namespace Verif.DecPad

open Lin

/-- Ways to pad that are not with a constant. -/
inductive Way where
  | reflect
  | replicate
  deriving DecidableEq

/-- The value of padding with a constant: missing, of an optional type, or given. -/
inductive Fill (E : Type) where
  | missing
  | optional
  | given (v : E)

/-- What the operator is replaced by: `aten.constant_pad_nd`, the operand, or one of `aten.reflection_pad1d` to `aten.reflection_pad3d` and `aten.replication_pad1d` to `aten.replication_pad3d`. -/
inductive Made (E : Type) where
  | constant (pads : List Int) (value : E)
  | self
  | padding (way : Way) (dims : Nat) (pads : List Int)

/-- The loop that looks for the last two pads that are not both zero (lines 9338-9342), before it looks at the two after the first `2 * k`. The index is unsigned, and two less than one is a place far beyond the end of the list. -/
def trim (pads : List Int) : Nat → Outcome Nat
  | 0 => .crash
  | k + 1 => if pads.getD (2 * k + 1) 0 ≠ 0 ∨ pads.getD (2 * k) 0 ≠ 0 then .ok (2 * k + 2) else trim pads k

/-- The modes known (lines 9362-9407). -/
def way (mode : String) : Option Way :=
  if mode = "reflect" then some .reflect
  else if mode = "replicate" then some .replicate
  else none

/-- The switch over the number of dimensions (lines 9360-9407). -/
def dispatch {E : Type} (mode : String) (pads : List Int) (useful : Nat) : Outcome (Made E) :=
  match way mode with
  | none => .unmatched
  | some w =>
    let numPadDims := useful / 2
    if numPadDims = 1 ∨ numPadDims = 2 ∨ numPadDims = 3 then .ok (.padding w numPadDims (pads.take useful)) else .unmatched

/-- `DecomposeAtenPadOp` (lines 9304-9409). `mode` is missing if it is not a constant, `pads` if the list is not made in the program; `constant` says if all pads are constants. The pads are those that the program is run with. -/
def decompose {E : Type} (zero : E) (mode : Option String) (fill : Fill E) (pads : Option (List Int)) (constant : Bool) (run : List Int) : Outcome (Made E) :=
  match mode with
  | none => .unmatched
  | some mode =>
    if mode = "constant" then
      match fill with
      | .optional => .unmatched
      | .missing => .ok (.constant run zero)
      | .given v => .ok (.constant run v)
    else match pads with
    | none => .unmatched
    | some pads =>
      if constant then
        if pads.length % 2 = 1 then .unmatched
        else (trim pads (pads.length / 2)).bind fun useful =>
          if useful = 0 then .ok .self else dispatch mode pads useful
      else dispatch mode pads pads.length

end Verif.DecPad
