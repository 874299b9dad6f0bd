import Verif.Model.FoldSlice
import Verif.Spec.Slice

/-!
# Slices of tensors
-/

namespace Verif.FoldSlice

/-- A tensor: sizes and elements in row-major order. -/
structure Tensor (E : Type) where
  sizes : List Nat
  data : List E
  deriving DecidableEq

/-- The indices `start:end_:step` picks from a dimension of size `n`, in order. -/
def picked (n : Nat) (start end_ : Option Int) (step : Int) : List Nat :=
  if 0 < step then (List.range n).filter (Shape.selected n start end_ step)
  else ((List.range n).filter
    (Shape.selectedDown n (start.getD ((n : Int) - 1)) (end_.getD (-(n : Int) - 1)) step)).reverse

/-- The tensor cut into blocks along dimension `d` of size `n`: `outer` rows of `n` blocks of `inner` elements; of each row
the blocks `is` are kept. -/
def keepBlocks {E : Type} (data : List E) (outer n inner : Nat) (is : List Nat) : List E :=
  (List.range outer).flatMap fun a => is.flatMap fun i => (data.drop ((a * n + i) * inner)).take inner

/-- `y` is `x[..., start:end_:step, ...]` along `dim`. -/
def IsSlice {E : Type} (x : Tensor E) (dim : Int) (start end_ : Option Int) (step : Int) (y : Tensor E) : Prop :=
  ∃ d n, Shape.IsDim x.sizes.length dim d ∧ x.sizes[d]? = some n
    ∧ y.sizes = x.sizes.set d (picked n start end_ step).length
    ∧ y.data = keepBlocks x.data (x.sizes.take d).prod n (x.sizes.drop (d + 1)).prod (picked n start end_ step)

/-- `y` is the slice of `x` at position `index` of dimension `dim`, without that dimension. -/
def IsSelect {E : Type} (x : Tensor E) (dim index : Int) (y : Tensor E) : Prop :=
  ∃ d n i, Shape.IsDim x.sizes.length dim d ∧ x.sizes[d]? = some n ∧ i < n ∧ (index = i ∨ index = (i : Int) - n)
    ∧ y.sizes = x.sizes.eraseIdx d
    ∧ y.data = keepBlocks x.data (x.sizes.take d).prod n (x.sizes.drop (d + 1)).prod [i]

/-- A tensor of a type. -/
def HasTy {E : Type} (x : Tensor E) (t : Ty) : Prop :=
  x.data.length = x.sizes.prod ∧ ∀ ss, t.sizes = some ss → List.Forall₂ (fun s n => s = none ∨ s = some n) ss x.sizes

/-- The value of a constant of the given sizes. -/
def Const.tensor {E : Type} (sizes : List Nat) : Const E → Tensor E
  | .splat e => ⟨sizes, List.replicate sizes.prod e⟩
  | .dense es => ⟨sizes, es⟩

/-- The operands' values in an execution. -/
structure Denotes {E : Type} (a : Args E) (x : Tensor E) (dim : Int) (start end_ : Option Int) (step : Int) : Prop where
  self : ∀ c, a.self = some c → x = c.tensor x.sizes
  dim : ∀ d, a.dim = some d → dim = d
  start : ∀ s, a.start = some s → start = some s
  end_ : ∀ s, a.end_ = some s → end_ = some s
  step : ∀ s, a.step = some s → step = s

/-- What the folder returns stands for `y`. -/
def Res.Means {E : Type} (r : Res E) (x y : Tensor E) : Prop :=
  match r with
  | .none => True
  | .undef => False
  | .operand => y = x
  | .splat e => y = (Const.splat e).tensor y.sizes
  | .dense es => y.data = es

end Verif.FoldSlice
