import Verif.Model.DecPad

/-! # Padding -/

namespace Verif.DecPad

/-- Two lists of pads that pad the same: they differ only in zeros at the end, that is, in dimensions that are not padded. -/
def SamePads (p q : List Int) : Prop := ∀ i, p.getD i 0 = q.getD i 0

/-- No dimension from `n` on, counted from the last, is padded. -/
def Within (n : Nat) (p : List Int) : Prop := ∀ i, 2 * n ≤ i → p.getD i 0 = 0

end Verif.DecPad
