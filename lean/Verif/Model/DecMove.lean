import Verif.Model.AtenOps

/-!
# Decompositions of data movement

The patterns of lib/Dialect/Torch/Transforms/DecomposeComplexOps.cpp that express an operator by slices, concatenations, flips and
permutations: what the operators they create compute.

Simplified: types are left out, except for the ranks the patterns look at, which are those of the tensors (so sizes and element types are
known); `unmatched` is a pattern that does not apply, `bad` a program whose execution raises an error.
-/

namespace Verif.Dec

open Lin

variable {E : Type}

inductive Res (T : Type) where
  | ok (t : T)
  | unmatched
  | error
  | bad

def Res.of {T : Type} : Option T → Res T
  | some t => .ok t
  | none => .bad

def Res.get? {T : Type} : Res T → Option T
  | .ok t => some t
  | _ => none

/-- `DecomposeAtenFliplrOp` (1318-1354). -/
def decFliplr (x : Tensor E) : Res (Tensor E) := if x.sizes.length < 2 then .unmatched else .of (flip x [1])

/-- `DecomposeAtenFlipudOp` (1357-1393). -/
def decFlipud (x : Tensor E) : Res (Tensor E) := if x.sizes.length < 1 then .unmatched else .of (flip x [0])

/-- `aten.size.int`. -/
def sizeInt (x : Tensor E) (dim : Int) : Option Int := (wrapDim x.sizes.length dim).map fun d => x.sizes.getD d 0

/-- `DecomposeAtenSelectIntOp` (1426-1473).  The result has rank one less, so the slice is squeezed. -/
def decSelect (x : Tensor E) (dim index : Int) : Option (Tensor E) := do
  let n ← sizeInt x dim
  let start := index + (if index < 0 then 1 else 0) * n
  let s ← slice x dim (some start) (some (start + 1))
  squeezeDim s dim

/-- The loop of `DecomposeAtenSplitWithSizesOp` (1564-1582). -/
def splitLoop (x : Tensor E) (dim : Int) : Int → List Int → Option (List (Tensor E))
  | _, [] => some []
  | begin, size :: sizes => do
    let t ← slice x dim (some begin) (some (begin + size))
    let ts ← splitLoop x dim (begin + size) sizes
    some (t :: ts)

/-- `DecomposeAtenSplitWithSizesOp` (1524-1588). -/
def decSplit (x : Tensor E) (sizes : List Int) (dim : Int) : Res (List (Tensor E)) :=
  if sizes = [] then .unmatched else .of (splitLoop x dim 0 sizes)

/-- `DecomposeAtenNarrowOp` (1592-1616); `DecomposeAtenNarrowTensorOp` (1620-1637) reads `start` from a tensor. -/
def decNarrow (x : Tensor E) (dim start length : Int) : Option (Tensor E) := slice x dim (some start) (some (start + length))

/-- `DecomposeAtenAtleast1dOp` (1899-1919). -/
def decAtleast1d (x : Tensor E) : Option (Tensor E) := if x.sizes = [] then unsqueeze x 0 else some x

/-- `DecomposeAtenAtleast2dOp` (1938-1966). -/
def decAtleast2d (x : Tensor E) : Option (Tensor E) :=
  if 2 ≤ x.sizes.length then some x else do
    let t ← decAtleast1d x
    unsqueeze t 0

/-- `DecomposeAtenTOp` (4793-4821). -/
def decT (x : Tensor E) : Res (Tensor E) :=
  if x.sizes.length > 2 then .unmatched else if x.sizes.length < 2 then .ok x else .of (transpose x 0 1)

/-- `DecomposeAtenStackOp` (4826-4866). -/
def decStack (xs : List (Tensor E)) (dim : Int) : Option (Tensor E) := do
  let us ← xs.mapM fun x => unsqueeze x dim
  cat us dim

/-- An operand of `hstack` made at least one-dimensional (4885-4897): a new `aten.atleast_1d` has the type of its operand, and so its rank
for `getTensorRank`. -/
def hstackOperand (x : Tensor E) : Option (Tensor E × Nat) :=
  if x.sizes.length < 1 then (decAtleast1d x).map fun t => (t, x.sizes.length) else some (x, x.sizes.length)

/-- `DecomposeAtenHstackOp` (4872-4918). -/
def decHstack (xs : List (Tensor E)) : Option (Tensor E) := do
  let us ← xs.mapM hstackOperand
  match us with
  | [] => none
  | u :: _ => cat (us.map (·.1)) (if u.2 = 1 then 0 else 1)

/-- `imitateRoll` (5015-5034). -/
def imitateRoll (x : Tensor E) (shift dim : Int) : Option (Tensor E) := do
  let s0 ← slice x dim (some (-shift)) none
  let s1 ← slice x dim (some 0) (some (-shift))
  cat [s0, s1] dim

/-- The loop of `DecomposeAtenRollOp` (5041-5050). -/
def rollLoop (x : Tensor E) : List (Int × Int) → Option (Tensor E)
  | [] => some x
  | p :: ps => do
    let t ← imitateRoll x p.1 p.2
    rollLoop t ps

/-- `DecomposeAtenRollOp` (4986-5054). -/
def decRoll (x : Tensor E) (shifts dims : List Int) : Res (Tensor E) :=
  if shifts.length ≠ dims.length then .error else .of (rollLoop x (shifts.zip dims))

/-- `DecomposeAtenRot90Op` (7441-7500): C++ division rounds towards zero.  `dims` has two elements. -/
def decRot90 (x : Tensor E) (k d0 d1 : Int) : Option (Tensor E) :=
  let k := Int.tmod (Int.tmod k 4 + 4) 4
  if k = 1 then do
    let t ← flip x [d1]
    transpose t d0 d1
  else if k = 2 then flip x [d0, d1]
  else if k = 3 then do
    let t ← flip x [d0]
    transpose t d0 d1
  else some x

/-- `DecomposeAtenNumpyTOp` (10238-10264). -/
def decNumpyT (x : Tensor E) : Option (Tensor E) := permute x ((List.range x.sizes.length).reverse.map fun (d : Nat) => (d : Int))

/-- `DecomposeAtenSelectScatterOp` (10462-10492). -/
def decSelectScatter (x src : Tensor E) (dim index : Int) : Option (Tensor E) := do
  let u ← unsqueeze src dim
  sliceScatter x u dim index (index + 1)

/-- `computeDimsOrderForMoveDim` (174-182). -/
def moveDimOrder (s d r : Nat) : List Nat := ((List.range r).eraseIdx s).insertIdx d s

/-- `DecomposeAtenMovedimIntOp` (11177-11228). -/
def decMovedim (x : Tensor E) (source destination : Int) : Res (Tensor E) :=
  if x.sizes.length ≤ 1 then .ok x else
    match wrapDim x.sizes.length source, wrapDim x.sizes.length destination with
    | some s, some d => .of (permute x ((moveDimOrder s d x.sizes.length).map fun (d : Nat) => (d : Int)))
    | _, _ => .unmatched

/-- The loop of `DecomposePrimsSqueezeOp` (11156-11166): `squeezeTensor` (Torch/Utils/Utils.cpp 428-459) asserts at run time that the size
is one. -/
def squeezeLoop (x : Tensor E) : List Int → Option (Tensor E)
  | [] => some x
  | dim :: dims => do
    let n ← sizeInt x dim
    if n = 1 then do
      let t ← squeezeDim x dim
      squeezeLoop t dims
    else none

/-- `std::sort` from the back (11151). -/
def sortDown (l : List Int) : List Int := l.mergeSort fun a b => decide (b ≤ a)

/-- `DecomposePrimsSqueezeOp` (11140-11172). -/
def decPrimsSqueeze (x : Tensor E) (dims : List Int) : Option (Tensor E) := squeezeLoop x (sortDown dims)

end Verif.Dec
