import Verif.Spec.Dims

/-! # Concatenation (for C40) -/

namespace Verif.Shape

/-- `a` and `b` have the same rank and the same sizes except possibly in dimension `d`. -/
def SameExcept (d : Nat) (a b : List Int) : Prop :=
  a.length = b.length ∧ ∀ i, i ≠ d → a[i]? = b[i]?

/-- `c` is the shape of the concatenation of tensors of shapes `ts` along `dim`.  Tensors of shape `[0]`
do not count (PyTorch's legacy rule); there must be a tensor and none may have rank zero. -/
def IsCat (ts : List (List Int)) (dim : Int) (c : List Int) : Prop :=
  ts ≠ [] ∧ (∀ t ∈ ts, t ≠ []) ∧
  if ts.filter (· ≠ [0]) = [] then c = [0]
  else ∃ d, IsDim c.length dim d ∧ (∀ t ∈ ts.filter (· ≠ [0]), SameExcept d t c) ∧
    c[d]? = some ((ts.filter (· ≠ [0])).map (fun t => t.getD d 0)).sum

/-- `c` is the shape of the stack of tensors of shapes `ts` along `dim`: dimension `d` of `c` is the number
of tensors, and without it `c` is the shape of every one of them. -/
def IsStack (ts : List (List Int)) (dim : Int) (c : List Int) : Prop :=
  ts ≠ [] ∧ ∃ d, d < c.length ∧ IsDim c.length dim d ∧ c[d]? = some (ts.length : Int) ∧
    ∀ t ∈ ts, t = c.eraseIdx d

end Verif.Shape
