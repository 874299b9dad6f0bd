import Verif.Spec.Broadcast

/-! # What expanding and tiling do to a shape (for C59) -/

namespace Verif.Shape

/-- `c` is the shape after `self.expand(sizes)`: as many dimensions as requested sizes, each the
requested one or, for the request -1, the one `self` has there; `self` can be expanded to it. -/
def IsExpand (self sizes c : List Int) : Prop :=
  c.length = sizes.length ∧ ExpandsTo self c ∧
  ∀ k < sizes.length, if trail sizes k = -1 then k < self.length ∧ trail c k = trail self k
    else trail c k = trail sizes k

/-- `c` is `s` with every dimension, counted from the end, repeated the number of times given by `r`. -/
def IsRepeat (s r c : List Int) : Prop :=
  c.length = max s.length r.length ∧ ∀ k, trail c k = trail s k * trail r k

end Verif.Shape
