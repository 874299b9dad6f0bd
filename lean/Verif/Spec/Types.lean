import Verif.Model.Types

/-!
# Specification vocabulary for types (C46, C47): which run-time values a type describes
-/

namespace Verif.TypesSpec
open Verif.Types

/-- A run-time tensor: whether it is an immutable value, its sizes, its dtype, and its storage
layout (`none` = dense). -/
structure Tensor where
  value : Bool
  sizes : List Nat
  dtype : Nat
  layout : Option Nat
  deriving DecidableEq

/-- Run-time values. `obj n x` is any value of the unstructured type `n`. -/
inductive Val where
  | none
  | int (i : Int)
  | float (bits : Nat)
  | obj (name payload : Nat)
  | tuple (vs : List Val)
  | list (vs : List Val)
  | dict (kvs : List (Val × Val))
  | tensor (t : Tensor)

/-- The sizes `ns` match the static sizes, `-1` being unknown. -/
def SizesMatch : List Int → List Nat → Prop
  | [], [] => True
  | s :: ss, n :: ns => (s = -1 ∨ s = (n : Int)) ∧ SizesMatch ss ns
  | _, _ => False

/-- The sizes agree with the (possibly absent) static sizes. -/
def SizesOk : Option (List Int) → List Nat → Prop
  | some ss, ns => SizesMatch ss ns
  | none, _ => True

/-- The dtype agrees with the (possibly absent) static dtype. -/
def DtypeOk : Option Nat → Nat → Prop
  | some d, e => e = d
  | none, _ => True

/-- The tensor is described by the tensor type, leaving the sparsity encoding aside. -/
def TensorDescribes (t : TensorTy) (x : Tensor) : Prop :=
  x.value = t.value ∧
  SizesOk t.sizes x.sizes ∧ DtypeOk t.dtype x.dtype

/-- Including the sparsity encoding. -/
def TensorDescribesLayout (t : TensorTy) (x : Tensor) : Prop :=
  TensorDescribes t x ∧ (match t.sparsity with | some s => x.layout = some s | none => x.layout = none)

mutual
/-- `v` is a value of type `t`; `D` says which tensors a tensor type describes. -/
def Mem (D : TensorTy → Tensor → Prop) : Ty → Val → Prop
  | .none, v => v = .none
  | .int, v => ∃ i, v = .int i
  | .float, v => ∃ b, v = .float b
  | .number, v => (∃ i, v = .int i) ∨ (∃ b, v = .float b)
  | .any, _ => True
  | .other n, v => ∃ p, v = .obj n p
  | .optional t, v => v = .none ∨ Mem D t v
  | .union ts, v => MemAny D ts v
  | .tuple ts, v => ∃ vs, v = .tuple vs ∧ MemAll D ts vs
  | .list t, v => ∃ vs, v = .list vs ∧ ∀ x ∈ vs, Mem D t x
  | .dict k w, v => ∃ kvs, v = .dict kvs ∧ ∀ x ∈ kvs, Mem D k x.1 ∧ Mem D w x.2
  | .tensor t, v => ∃ x, v = .tensor x ∧ D t x

/-- `v` is a value of one of the types. -/
def MemAny (D : TensorTy → Tensor → Prop) : List Ty → Val → Prop
  | [], _ => False
  | t :: ts, v => Mem D t v ∨ MemAny D ts v

/-- Componentwise membership, lengths agreeing. -/
def MemAll (D : TensorTy → Tensor → Prop) : List Ty → List Val → Prop
  | [], [] => True
  | t :: ts, v :: vs => Mem D t v ∧ MemAll D ts vs
  | _, _ => False
end

/-- A tensor type accepted by the verifier: sizes are `-1` or non-negative. -/
def WellFormed (t : TensorTy) : Prop := ∀ ss, t.sizes = some ss → ∀ s ∈ ss, -1 ≤ s

/-- Two tensor types of the same value-ness which are not both mutable and without sizes. -/
def Regular (l r : TensorTy) : Prop :=
  l.value = r.value ∧ (l.value = true ∨ l.sizes.isSome ∨ r.sizes.isSome)

end Verif.TypesSpec
