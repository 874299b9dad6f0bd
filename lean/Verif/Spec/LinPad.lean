import Verif.Spec.Linalg
import Verif.Model.LinPad

/-! # Reflection padding -/

namespace Verif.Lin

/-- The position at which one ends up, seen from position `i` of the padded dimension, looking into mirrors at both ends of a
dimension of size `n`. -/
def mirror (n left i : Int) : Int :=
  if i < left then left - i else if i < left + n then i - left else n - 1 - (i - left - (n - 1))

/-- Dimension `d` padded by reflection. -/
def padded {E : Type} (x : Tensor E) (d : Nat) (left right : Int) : Tensor E :=
  ⟨x.sizes.set d (left + x.sizes.getD d 0 + right), fun idx => x.elem (idx.set d (mirror (x.sizes.getD d 0) left (idx.getD d 0)))⟩

end Verif.Lin
