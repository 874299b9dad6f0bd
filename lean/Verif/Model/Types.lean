import Verif.Py.Basic

/-!
# Model of `lib/Dialect/Torch/IR/TorchTypes.cpp`: subtyping and the meet of tensor types
-/

namespace Verif.Types

/-- `kUnknownSize` (`include/torch-mlir/Dialect/Torch/IR/TorchTypes.h:38`). -/
def kUnknownSize : Int := -1

/-- A `!torch.vtensor` / `!torch.tensor` type: value semantics flag, optional sizes, optional dtype,
optional sparsity encoding (dtypes and encodings are opaque: only compared). -/
structure TensorTy where
  value : Bool
  sizes : Option (List Int)
  dtype : Option Nat
  sparsity : Option Nat
  deriving DecidableEq, Repr

/-- Torch dialect types. `other` stands for the types without structure relevant to subtyping
(bool, str, device, generator, class types, …). -/
inductive Ty where
  | none
  | int
  | float
  | number
  | any
  | other (name : Nat)
  | optional (t : Ty)
  | union (ts : List Ty)
  | tuple (ts : List Ty)
  | list (t : Ty)
  | dict (k v : Ty)
  | tensor (t : TensorTy)
  deriving Repr

mutual
/-- `subtype == type` on uniqued MLIR types: structural equality. -/
def tyEq : Ty → Ty → Bool
  | .none, .none => true
  | .int, .int => true
  | .float, .float => true
  | .number, .number => true
  | .any, .any => true
  | .other a, .other b => a == b
  | .optional a, .optional b => tyEq a b
  | .union as, .union bs => tysEq as bs
  | .tuple as, .tuple bs => tysEq as bs
  | .list a, .list b => tyEq a b
  | .dict a b, .dict c d => tyEq a c && tyEq b d
  | .tensor a, .tensor b => a == b
  | _, _ => false

/-- Equality of lists of types. -/
def tysEq : List Ty → List Ty → Bool
  | [], [] => true
  | a :: as, b :: bs => tyEq a b && tysEq as bs
  | _, _ => false
end

/-- The lambda `isSubsizes` (`TorchTypes.cpp:87-100`). -/
def isSubsizes : List Int → List Int → Bool
  | [], [] => true
  | t :: ts, s :: ss => !(t != kUnknownSize && t != s) && isSubsizes ts ss
  | _, _ => false

/-- The tensor part of `isValidSubtype` (`TorchTypes.cpp:67-109`). -/
def tensorSub (s t : TensorTy) : Bool :=
  if s.value != t.value then false
  else if t.dtype.isSome && (s.dtype.isNone || t.dtype != s.dtype) then false
  else
    match t.sizes with
    | Option.none => true
    | some ts =>
      match s.sizes with
      | Option.none => false
      | some ss => isSubsizes ts ss

mutual
/-- `isValidSubtype` (`TorchTypes.cpp:26-111`). -/
def isValidSubtype (s t : Ty) : Bool :=
  if tyEq s t then true
  else
    match s with
    | .union ss => allSub ss t
    | s =>
      match t with
      | .any => true
      | .number =>
        match s with
        | .int => true
        | .float => true
        | _ => false
      | .optional t => isValidSubtype s t || (match s with | .none => true | _ => false)
      | .union ts => anySub s ts
      | .tuple ts =>
        match s with
        | .tuple ss => zipSub ss ts
        | _ => false
      | .tensor t =>
        match s with
        | .tensor s => tensorSub s t
        | _ => false
      | _ => false
termination_by (sizeOf s + sizeOf t, 0)

/-- all contained types are subtypes (`TorchTypes.cpp:32-38`) -/
def allSub (ss : List Ty) (t : Ty) : Bool :=
  match ss with
  | [] => true
  | s :: ss => isValidSubtype s t && allSub ss t
termination_by (sizeOf ss + sizeOf t, 1)

/-- subtype of some contained type (`TorchTypes.cpp:50-56`) -/
def anySub (s : Ty) (ts : List Ty) : Bool :=
  match ts with
  | [] => false
  | t :: ts => isValidSubtype s t || anySub s ts
termination_by (sizeOf s + sizeOf ts, 1)

/-- tuples: equal length and pointwise (`TorchTypes.cpp:58-65`) -/
def zipSub (ss ts : List Ty) : Bool :=
  match ss, ts with
  | [], [] => true
  | s :: ss, t :: ts => isValidSubtype s t && zipSub ss ts
  | _, _ => false
termination_by (sizeOf ss + sizeOf ts, 1)
end

/-- One size of the meet (`TorchTypes.cpp:556-566`). -/
def meetSize (l r : Int) : Option Int :=
  if l = r then some l
  else if l = kUnknownSize then some r
  else if r = kUnknownSize then some l
  else none

/-- The loop over sizes (`TorchTypes.cpp:554-567`); the lists have equal length there. -/
def meetSizes : List Int → List Int → Option (List Int)
  | [], _ => some []
  | l :: ls, rs =>
    match rs with
    | [] => none
    | r :: rs =>
      match meetSize l r, meetSizes ls rs with
      | some x, some xs => some (x :: xs)
      | _, _ => none

/-- `meetTensorTypes` (`TorchTypes.cpp:516-569`) for operands of the same value-ness; `none` is the
null type.  Neither constructor call passes a sparsity encoding (`:538`, `getWithSizesAndDtype`
`:231-238`), so the result has none. -/
def meetTensorTypes (l r : TensorTy) : Option TensorTy :=
  if l.dtype.isSome ∧ r.dtype.isSome ∧ l.dtype ≠ r.dtype then none
  else
    let dtype := if l.dtype.isSome then l.dtype else r.dtype
    match l.sizes, r.sizes with
    | Option.none, Option.none =>
      some { value := true, sizes := Option.none, dtype := dtype, sparsity := Option.none }
    | lo, ro =>
      match lo, ro with
      | some ls, some rs =>
        if ls.length ≠ rs.length then none
        else
          match meetSizes ls rs with
          | some ns => some { value := l.value, sizes := some ns, dtype := dtype, sparsity := Option.none }
          | Option.none => none
      | some ls, Option.none =>
        match meetSizes ls ls with
        | some ns => some { value := l.value, sizes := some ns, dtype := dtype, sparsity := Option.none }
        | Option.none => none
      | Option.none, some rs =>
        match meetSizes rs rs with
        | some ns => some { value := l.value, sizes := some ns, dtype := dtype, sparsity := Option.none }
        | Option.none => none
      | Option.none, Option.none => none

end Verif.Types
