import Verif.Model.RefTracker

/-!
# Which tensor a literal denotes
-/

namespace Verif.Ref

/-- The tensor an emitted literal evaluates to: the attribute's elements, converted to Booleans
(non-zero = 1) if there is a conversion; `none` if the operation is ill-typed. -/
def Literal.denotes (l : Literal) : Option Tensor :=
  if (l.value.dtype, l.value.shape) = l.type then
    match l.convert with
    | none => some ⟨l.value.dtype, l.value.shape, l.value.data⟩
    | some (d, s) =>
      if s = l.value.shape then
        some ⟨d, s, l.value.data.map fun x => if x = 0 then 0 else 1⟩
      else none
  else none

/-- The address whose identity the tracker sees when an event imports a literal. -/
def Event.via : Event → Option Nat
  | .import a none => some a
  | .import _ (some tmp) => some tmp
  | _ => none

/-- Tensors imported as literals are neither destroyed nor overwritten later, and the address of
the temporary made for a Boolean tensor is never the address of a later imported object. -/
def Kept (h : List Event) : Prop :=
  h.Pairwise fun earlier later =>
    match earlier with
    | .import a none => later ≠ .free a ∧ ∀ d, later ≠ .write a d
    | .import _ (some tmp) => later.via ≠ some tmp
    | _ => True

end Verif.Ref
