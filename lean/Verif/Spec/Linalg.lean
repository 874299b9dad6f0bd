import Verif.Model.Linalg
import Verif.Spec.FoldSlice

/-!
# Tensors as values
-/

namespace Verif.Lin

/-- A tensor proper: sizes are not negative, and every element is there. -/
def Tensor.Ok {E : Type} (t : Tensor E) : Prop := (∀ n ∈ t.sizes, 0 ≤ n) ∧ ∀ idx, inRange t.sizes idx = true → ∃ e, t.elem idx = some e

/-- The same sizes and the same elements. -/
def Same {E : Type} (t u : Tensor E) : Prop := t.sizes = u.sizes ∧ ∀ idx, inRange u.sizes idx = true → t.elem idx = u.elem idx

/-- The positions `ps` of dimension `d`, in this order. -/
def keep {E : Type} (x : Tensor E) (d : Nat) (ps : List Nat) : Tensor E :=
  ⟨x.sizes.set d ps.length, fun idx =>
    match ps[(idx.getD d 0).toNat]? with
    | some p => x.elem (idx.set d p)
    | none => none⟩

/-- `x` with the positions `ps` of dimension `d` replaced by those of `src`. -/
def replace {E : Type} (x src : Tensor E) (d : Nat) (ps : List Nat) : Tensor E :=
  ⟨x.sizes, fun idx => if (idx.getD d 0).toNat ∈ ps then src.elem (idx.set d (ps.idxOf (idx.getD d 0).toNat : Nat)) else x.elem idx⟩

end Verif.Lin
