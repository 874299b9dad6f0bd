import Verif.Model.LinPerm

/-!
# Broadcasting in the linalg backend

`lib/Conversion/TorchToLinalg/Utils.cpp` 265-617, `DataMovement.cpp` 1978-2115.  The outer `none` is a pattern that does not match, the
inner one an assertion of the generated program that fails.  `strict` is `isAssumingStrictSymbolicShapes`.

Simplified: casts between static and dynamic sizes do nothing; `linalg.generic` runs over the sizes of its output.
-/

namespace Verif.Lin

/-! ## `broadcastToGivenShape` -/

/-- What the loop of lines 435-509 does for one dimension of the output. -/
structure BcStep where
  /-- entry of `outShape` -/
  size : Int
  /-- entry of `broadcastedStatus`, if there is one -/
  status : Option Bool
  /-- `hasDynamicNumpyBroadcast` is set -/
  numpy : Bool
  /-- the assertion of the dimension -/
  holds : Bool

/-- A dimension the input does not have (lines 444-449, 465-475): the size asked for, the size in the type of the output. -/
def newDim (strict : Bool) (shape : Int) (out : Option Int) : Option BcStep :=
  match out with
  | some n => if n < 0 then none else some ⟨n, none, false, true⟩
  | none => some ⟨shape, none, false, strict || decide (shape ≥ 0)⟩

/-- A dimension of the input (lines 451-463, 476-508): in addition its size in the type of the input, its size, `useBroadcastToShape`. -/
def oldDim (strict : Bool) (shape : Int) (out inTy : Option Int) (n : Int) (use : Bool) : Option BcStep :=
  match out with
  | some m =>
    if inTy ≠ none ∧ inTy ≠ some m ∧ inTy ≠ some 1 then none
    else some ⟨m, some (decide (inTy ≠ some m ∧ inTy ≠ none)), decide (inTy = none), true⟩
  | none =>
    if inTy = some 1 then some ⟨if shape < 0 then 1 else shape, some true, false, true⟩
    else if use then some ⟨shape, some false, decide (inTy = none), strict || decide (shape ≥ 0)⟩
    else some ⟨n, some false, false, true⟩

/-- The body of the loop. -/
def bcStep {E : Type} (strict : Bool) (x : Operand E) (shape : List Int) (outTy : List (Option Int)) (use : List Bool) (i : Nat) : Option BcStep :=
  let diff := shape.length - x.type.length
  if i < diff then newDim strict (shape.getD i 0) (outTy.getD i none)
  else oldDim strict (shape.getD i 0) (outTy.getD i none) (x.type.getD (i - diff) none) (x.tensor.sizes.getD (i - diff) 0) (use.getD (i - diff) false)

/-- Lines 525-556: the groups of `collapse_shape` and the dimensions that are not broadcast. -/
def collapseGroups (status : List Bool) : List (List Nat) × List Nat :=
  let n := status.countP (! ·)
  let step := fun (st : List (List Nat) × List Nat × Int) (p : Bool × Nat) =>
    let (groups, kept, previous) := st
    if p.1 then
      let clamped := if previous < 0 then 0 else previous.toNat
      (groups.modify clamped (· ++ [p.2]), kept, previous)
    else (groups.modify (previous + 1).toNat (· ++ [p.2]), kept ++ [p.2], previous + 1)
  let r := status.zipIdx.foldl step (List.replicate n [], [], -1)
  (r.1, r.2.1)

/-- The indices of a position in row-major order. -/
def delinearize : List Int → Int → List Int
  | [], _ => []
  | _ :: ns, i => i / ns.prod :: delinearize ns (i % ns.prod)

/-- `tensor.collapse_shape`. -/
def collapseShape {E : Type} (x : Tensor E) (groups : List (List Nat)) : Tensor E :=
  let sizes := groups.map fun g => g.map fun d => x.sizes.getD d 0
  ⟨sizes.map List.prod, fun idx =>
    if groups.isEmpty then x.get (x.sizes.map fun _ => 0)
    else x.get ((List.zipWith delinearize sizes idx).flatten)⟩

/-- `broadcastToGivenShape` (lines 398-617). -/
def broadcastToGivenShape {E : Type} (strict : Bool) (x : Operand E) (shape : List Int) (outTy : List (Option Int)) (use : List Bool) :
    Option (Option (Tensor E)) :=
  if shape.length < x.type.length then none else
  let diff := shape.length - x.type.length
  match (List.range shape.length).mapM (bcStep strict x shape outTy use) with
  | none => none
  | some steps =>
    if !steps.all (·.holds) then some none else
    let outShape := steps.map (·.size)
    let status := steps.filterMap (·.status)
    if !steps.any (·.numpy) || strict then
      if !status.any id ∧ x.type.length = shape.length then some (some x.tensor) else
      let (groups, kept) := collapseGroups status
      let input := if status.any id then collapseShape x.tensor groups else x.tensor
      some (some ⟨outShape, fun idx => input.get (kept.map fun i => idx.getD (i + diff) 0)⟩)
    else
      some (some ⟨outShape, fun idx => x.tensor.get ((List.range x.type.length).map fun i =>
        if x.type.getD i none = some 1 then 0 else if x.tensor.sizes.getD i 0 = 1 then 0 else idx.getD (i + diff) 0)⟩)

/-- `ConvertAtenBroadcastToOp` (DataMovement.cpp 1978-2028).  A size is a constant or known at run time only. -/
def lowerBroadcastTo {E : Type} (strict : Bool) (x : Operand E) (size : List (Int × Bool)) (outTy : List (Option Int)) : Option (Option (Tensor E)) :=
  let use := (size.drop (size.length - x.type.length)).map fun s => if s.2 then decide (s.1 ≥ 0) else true
  broadcastToGivenShape strict x (size.map (·.1)) outTy use

/-- `ConvertAtenCopyOp` (lines 2052-2115); `conv` converts the elements. -/
def lowerCopy {E F : Type} (strict : Bool) (conv : E → F) (self : Operand F) (src : Operand E) : Option (Option (Tensor F)) :=
  match broadcastToGivenShape strict src self.tensor.sizes self.type [] with
  | none => none
  | some none => some none
  | some (some t) => some (some ⟨self.tensor.sizes, fun idx => (t.get idx).map conv⟩)

/-! ## `createElementwiseLinalgGeneric` -/

/-- Lines 291-294. -/
def resultRank {E : Type} (os : List (Operand E)) : Nat := (os.map fun o => o.type.length).foldl max 0

/-- `nonStaticOneResultDims` (lines 306-320). -/
def nonStaticOne {E : Type} (os : List (Operand E)) (i : Nat) : Bool :=
  os.any fun o => decide (resultRank os - o.type.length ≤ i ∧ o.type.getD (i - (resultRank os - o.type.length)) none ≠ some 1)

/-- The affine map of an operand (lines 325-349): a dimension of the result, or the constant zero. -/
def operandMap {E : Type} (os : List (Operand E)) (o : Operand E) : List (Option Nat) :=
  o.type.zipIdx.map fun p =>
    let d := p.2 + (resultRank os - o.type.length)
    if p.1 = some 1 ∧ nonStaticOne os d = true then none else some d

/-- The dimensions of the result an operand runs along, with its sizes. -/
def visits {E : Type} (os : List (Operand E)) (o : Operand E) : List (Nat × Int) :=
  (operandMap os o).zipIdx.filterMap fun p => p.1.map fun d => (d, o.tensor.sizes.getD p.2 0)

/-- Lines 351-376: the size is recorded, or has to be the one recorded. -/
def record (strict : Bool) (st : List (Option Int) × Bool) (v : Nat × Int) : List (Option Int) × Bool :=
  match st.1.getD v.1 none with
  | none => (st.1.set v.1 (some v.2), st.2)
  | some m => (st.1, st.2 && (strict || decide (m = v.2)))

/-- `createElementwiseLinalgGeneric` (lines 265-395); `none`: an assertion fails. -/
def elementwise {E F : Type} (strict : Bool) (os : List (Operand E)) (body : List E → F) : Option (Tensor F) :=
  let r := os.foldl (fun st o => (visits os o).foldl (record strict) st) (List.replicate (resultRank os) none, true)
  if !r.2 then none else
  some ⟨r.1.map (·.getD 1), fun idx =>
    (os.mapM fun (o : Operand E) => o.tensor.get ((operandMap os o).map fun
      | some d => idx.getD d 0
      | none => 0)).map body⟩

end Verif.Lin
