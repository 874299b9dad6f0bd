import Verif.Spec.LinPerm
import Verif.Model.LinBroadcast

/-! # Broadcasting -/

namespace Verif.Lin

/-- Sizes aligned at the end are those of the target, or one. -/
def BroadcastsTo (sizes target : List Int) : Prop :=
  sizes.length ≤ target.length ∧
  ∀ (k : Nat) (n : Int), sizes[k]? = some n → n = 1 ∨ target[k + (target.length - sizes.length)]? = some n

/-- The index of a broadcast tensor at which the element at `idx` is found: aligned at the end, zero in dimensions of size one. -/
def bcIndex (sizes idx : List Int) : List Int :=
  List.zipWith (fun n i => if n = 1 then 0 else i) sizes (idx.drop (idx.length - sizes.length))

/-- `t` is `x` broadcast to `target`. -/
def IsBroadcastOf {E : Type} (t x : Tensor E) (target : List Int) : Prop :=
  t.sizes = target ∧ ∀ idx, inRange target idx = true → t.elem idx = x.elem (bcIndex x.sizes idx)

/-- The sizes of the result of `broadcast_to`: -1 stands for the size of the input. -/
def Requests (sizes : List Int) (size target : List Int) : Prop :=
  size.length = target.length ∧ BroadcastsTo sizes target ∧
  ∀ (i : Nat) (s : Int), size[i]? = some s →
    (0 ≤ s ∧ target[i]? = some s) ∨
    (s = -1 ∧ target.length - sizes.length ≤ i ∧ target[i]? = sizes[i - (target.length - sizes.length)]?)

/-- What a type says is true of the sizes. -/
def TypeOf (ty : List (Option Int)) (sizes : List Int) : Prop :=
  ty.length = sizes.length ∧ ∀ (d : Nat) (n : Int), ty[d]? = some (some n) → sizes[d]? = some n

/-- No dimension of unknown size for which `P` is broadcast. -/
def NoDynamicBroadcast {E : Type} (x : Operand E) (target : List Int) (P : Nat → Prop) : Prop :=
  ∀ k, P (k + (target.length - x.type.length)) → x.type[k]? = some none →
    x.tensor.sizes[k]? = target[k + (target.length - x.type.length)]?

/-- The sizes all `shapes` are broadcast to. -/
def IsCommonShape (shapes : List (List Int)) (target : List Int) : Prop :=
  (∀ s ∈ shapes, BroadcastsTo s target) ∧
  (∀ (i : Nat) (n : Int), target[i]? = some n → ∃ s ∈ shapes, ∃ k, k + (target.length - s.length) = i ∧ s[k]? = some n)

/-- `t` has `f` of the elements of the tensors, broadcast against each other. -/
def IsElementwiseOf {E F : Type} (f : List E → F) (t : Tensor F) (xs : List (Tensor E)) : Prop :=
  IsCommonShape (xs.map (·.sizes)) t.sizes ∧
  ∀ idx, inRange t.sizes idx = true →
    ∃ es, List.Forall₂ (fun (x : Tensor E) e => x.elem (bcIndex x.sizes idx) = some e) xs es ∧ t.elem idx = some (f es)

end Verif.Lin
