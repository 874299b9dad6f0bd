import Verif.Model.LinView

/-!
# Adding, removing and splitting dimensions in the linalg backend

`lib/Conversion/TorchToLinalg/DataMovement.cpp` 660-803, 1629-1749 and `lib/Conversion/Utils/Utils.cpp` 479-594.

Simplified: 64-bit products are unbounded; the rank of the result of `aten.unflatten.int` is that of the input and the number of sizes
less one.
-/

namespace Verif.Lin

/-- `toPositiveDim`. -/
def toPositiveDim (dim rank : Int) : Int := if dim ≥ 0 then dim else dim + rank

/-- `isValidDim`. -/
def isValidDim (dim rank : Int) : Bool := decide (0 ≤ dim ∧ dim < rank)

/-- The sizes in a type, as in an `ArrayRef<int64_t>`. -/
def typeSizes (ty : List (Option Int)) : List Int := ty.map (·.getD unknown)

/-- `tensor.expand_shape` to a type; a scalar can be expanded to dimensions of size one. -/
def expandTo {E : Type} (x : Operand E) (outs : List Int) (groups : List (List Nat)) : Outcome (Tensor E) :=
  if x.type.length = 0 then
    if groups.isEmpty && outs.all (fun n => decide (n = 1)) then .ok ⟨outs, fun _ => x.tensor.get []⟩ else .bad
  else if !groupsVerify (typeSizes x.type) outs groups then .bad else expandShape x.tensor outs groups

/-- `tensor.collapse_shape` to a type; dimensions known to be of size one can be collapsed to a scalar. -/
def collapseTo {E : Type} (x : Operand E) (outs : List Int) (groups : List (List Nat)) : Outcome (Tensor E) :=
  if outs.length = 0 then
    if groups.isEmpty && (typeSizes x.type).all (fun n => decide (n = 1)) then .ok ⟨[], fun _ => x.tensor.get (x.type.map fun _ => 0)⟩ else .bad
  else if !groupsVerify outs (typeSizes x.type) groups then .bad else .ok (collapseShape x.tensor groups)

/-- The loop of `unsqueezeTensor` (`Utils.cpp` 511-521): the groups of dimensions `i`, …, `i + n - 1`, and whether the new one was passed. -/
def unsqueezeLoop (dim : Int) : Nat → Nat → Bool → List (List Nat)
  | 0, _, _ => []
  | n + 1, i, crossed =>
    if crossed then [i + 1] :: unsqueezeLoop dim n (i + 1) crossed
    else if (i : Int) = dim then [i, i + 1] :: unsqueezeLoop dim n (i + 1) true
    else [i] :: unsqueezeLoop dim n (i + 1) false

/-- `unsqueezeTensor` (`Utils.cpp` 481-525), the lowering of `aten.unsqueeze`. -/
def lowerUnsqueeze {E : Type} (x : Operand E) (dim : Int) : Outcome (Tensor E) :=
  let rank := x.type.length
  let dim := toPositiveDim dim (rank + 1)
  if !isValidDim dim (rank + 1) then .unmatched else
  let outs := (typeSizes x.type).take dim.toNat ++ 1 :: (typeSizes x.type).drop dim.toNat
  let dim := if dim = rank ∧ rank ≠ 0 then (rank : Int) - 1 else dim
  expandTo x outs (unsqueezeLoop dim rank 0 false)

/-- The loop of `squeezeTensor` (`Utils.cpp` 569-584). -/
def squeezeLoop (dim : Int) : Nat → Nat → Bool → List (List Nat)
  | 0, _, _ => []
  | n + 1, i, crossed =>
    if crossed then [i + 1] :: squeezeLoop dim n (i + 1) crossed
    else if dim ≠ 0 ∧ (i : Int) ≠ dim - 1 then [i] :: squeezeLoop dim n (i + 1) false
    else ([i] ++ (if dim = 0 then [1] else []) ++ (if (i : Int) = dim - 1 then [dim.toNat] else [])) :: squeezeLoop dim n (i + 1) true

/-- `squeezeTensor` (`Utils.cpp` 529-592), the lowering of `aten.squeeze.dim`. -/
def lowerSqueezeDim {E : Type} (x : Operand E) (dim : Int) : Outcome (Tensor E) :=
  let rank := x.type.length
  if rank = 0 then .ok x.tensor else
  let dim := toPositiveDim dim rank
  if !isValidDim dim rank then .unmatched else
  let ty := x.type.getD dim.toNat none
  if ty = none ∧ x.tensor.sizes.getD dim.toNat 0 ≠ 1 then .aborts else
  if ty ≠ some 1 ∧ ty ≠ none then .ok x.tensor else
  let outs := (typeSizes x.type).take dim.toNat ++ (typeSizes x.type).drop (dim.toNat + 1)
  collapseTo x outs (squeezeLoop dim (rank - 1) 0 false)

/-- The first loop of `aten.squeeze` (`DataMovement.cpp` 1668-1671): the groups, the dimensions that remain, and how many of the result
were found. -/
def squeezeAll (res : List Int) : List Int → Nat → Nat → List (List Nat) → List (List Nat) × List Int × Nat × Nat
  | [], i, j, groups => (groups, [], i, j)
  | n :: ns, i, j, groups =>
    if j < res.length then squeezeAll res ns (i + 1) (if n = res.getD j 0 then j + 1 else j) (groups.modify j (· ++ [i]))
    else (groups, n :: ns, i, j)

/-- `ConvertAtenSqueezeOp` (`DataMovement.cpp` 1629-1696). -/
def lowerSqueeze {E : Type} (x : Operand E) (resTy : List (Option Int)) : Outcome (Tensor E) :=
  let rank := x.type.length
  if rank = 0 then .unmatched else
  if rank = resTy.length then
    if castOk resTy x.tensor.sizes then .ok x.tensor else .bad
  else if resTy.length = 0 then collapseTo x [] []
  else
    match squeezeAll (typeSizes resTy) (typeSizes x.type) 0 0 (List.replicate resTy.length []) with
    | (groups, rest, i, j) =>
      if rest.any (fun n => decide (n ≠ 1)) then .unmatched else
      if j ≠ resTy.length then .unmatched else
      collapseTo x (typeSizes resTy) (groups.modify (groups.length - 1) (· ++ List.range' i rest.length))

/-- `ConvertAtenUnflattenIntOp` (`DataMovement.cpp` 662-802); the sizes given by their values. -/
def lowerUnflatten {E : Type} (x : Operand E) (dim : Int) (sizes : List Int) (resTy : List (Option Int)) : Outcome (Tensor E) :=
  let rank := x.type.length
  let dim := toPositiveDim dim rank
  if !isValidDim dim rank then .unmatched else
  let d := dim.toNat
  let n := sizes.length
  let outs := typeSizes resTy
  let dynamic := ((outs.drop d).take n).count unknown
  let cast := x.type.any (·.isNone) && resTy.all (·.isSome)
  let refined := outs.take d ++ ((outs.drop d).take n).prod :: outs.drop (d + n)
  if cast && !castOk (refined.map some) x.tensor.sizes then .bad else
  let self : Operand E := if cast then ⟨x.tensor, refined.map some⟩ else x
  if dynamic < 2 then
    expandTo self outs ((List.range d).map (fun i => [i]) ++ List.range' d n :: (List.range' (d + n) (rank - (d + 1))).map fun i => [i])
  else
    (reshape x.tensor (x.tensor.sizes.take d ++ sizes ++ x.tensor.sizes.drop (d + 1))).bind fun t => if castOk resTy t.sizes then .ok t else .bad

end Verif.Lin
