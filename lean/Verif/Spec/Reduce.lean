import Verif.Spec.Dims

/-! # What a reduction does to a shape (for C39) -/

namespace Verif.Shape

/-- `c` is `self` with the dimensions `D` removed, or replaced by one with `keepdim`; the others stay in
order. -/
def Reduced (self : List Int) (D : List Nat) (keepdim : Bool) (c : List Int) : Prop :=
  if keepdim then
    c.length = self.length ∧
    ∀ i (h : i < c.length) (h' : i < self.length), c[i] = if i ∈ D then 1 else self[i]
  else Picks self ((List.range self.length).filter (· ∉ D)) c

/-- The dimensions a list argument names; no list, or an empty one, means all. -/
def NamesDims (rank : Nat) (dims : Option (List Int)) (D : List Nat) : Prop :=
  if dims = none ∨ dims = some [] then D = List.range rank else IsDims rank (dims.getD []) D

/-- The dimension argument of a reduction: none, one dimension, or a list. -/
inductive DimArg where
  | none
  | one (d : Int)
  | many (ds : List Int)
  deriving DecidableEq, Repr

/-- The dimensions such an argument names. -/
def ArgNames (rank : Nat) : DimArg → List Nat → Prop
  | .none, D => D = List.range rank
  | .one d, D => ∃ k, IsDim rank d k ∧ D = [k]
  | .many ds, D => NamesDims rank (some ds) D

end Verif.Shape
