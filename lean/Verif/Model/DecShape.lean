import Verif.Model.DecMove
import Verif.Model.LinBroadcast

/-!
# Decompositions that split, merge and broadcast dimensions

The patterns of lib/Dialect/Torch/Transforms/DecomposeComplexOps.cpp for shuffles and repetitions: what the operators they create compute.
The primitive operators are read as PyTorch defines them.
-/

namespace Verif.Dec

open Lin

variable {E : Type}

/-- `prims.split_dim`: the dimension becomes `outer` parts of the same size (the conditions are those of the shape function,
abstract_interp_lib_gen.py 497-513). -/
def splitDim (x : Tensor E) (d : Nat) (outer : Int) : Option (Tensor E) :=
  if d < x.sizes.length ∧ 0 < outer ∧ x.sizes.getD d 0 % outer = 0 then
    let inner := x.sizes.getD d 0 / outer
    some ⟨x.sizes.take d ++ outer :: inner :: x.sizes.drop (d + 1),
      fun idx => x.elem (idx.take d ++ (idx.getD d 0 * inner + idx.getD (d + 1) 0) :: idx.drop (d + 2))⟩
  else none

/-- `prims.collapse` and `aten.flatten.using_ints`: the dimensions from `s` to `e` become one. -/
def collapse (x : Tensor E) (s e : Nat) : Option (Tensor E) :=
  if s ≤ e ∧ e < x.sizes.length then
    let mid := (x.sizes.drop s).take (e + 1 - s)
    some ⟨x.sizes.take s ++ mid.prod :: x.sizes.drop (e + 1),
      fun idx => x.elem (idx.take s ++ delinearize mid (idx.getD s 0) ++ idx.drop (s + 1))⟩
  else none

/-- `aten.flatten.using_ints` from 0 to -1: a scalar becomes a vector. -/
def flattenAll (x : Tensor E) : Option (Tensor E) :=
  if x.sizes = [] then some ⟨[1], fun _ => x.elem []⟩ else collapse x 0 (x.sizes.length - 1)

/-- The sizes a tensor is expanded to: -1 keeps a size. -/
def expandSizes (sizes size : List Int) : List Int := List.zipWith (fun n s => if s = -1 then n else s) sizes size

/-- `aten.broadcast_to` and `aten.expand` to sizes of the same rank. -/
def expand (x : Tensor E) (size : List Int) : Option (Tensor E) :=
  let target := expandSizes x.sizes size
  if x.sizes.length = size.length ∧ (List.zip x.sizes target).all (fun p => decide (0 ≤ p.2 ∧ (p.1 = 1 ∨ p.1 = p.2))) = true then
    some ⟨target, fun idx => x.elem (List.zipWith (fun n i => if n = 1 then 0 else i) x.sizes idx)⟩
  else none

/-- Constants for dimensions. -/
def dimList (lead : Nat) (tail : List Nat) : List Int := (List.range lead ++ tail.map (lead + ·)).map fun (d : Nat) => (d : Int)

/-- `DecomposeAtenPixelShuffleOp` (3795-3914). -/
def decPixelShuffle (x : Tensor E) (factor : Int) : Res (Tensor E) :=
  if x.sizes.length < 3 then .unmatched else .of do
    let lead := x.sizes.length - 3
    let inC := x.sizes.getD (x.sizes.length - 3) 0
    let outC := Int.fdiv inC (factor * factor)
    let a ← splitDim x lead outC
    let b ← splitDim a (lead + 1) factor
    let c ← permute b (dimList lead [0, 3, 1, 4, 2])
    let d ← collapse c (lead + 3) (lead + 4)
    collapse d (lead + 1) (lead + 2)

/-- `DecomposeAtenPixelUnshuffleOp` (3941-4053). -/
def decPixelUnshuffle (x : Tensor E) (factor : Int) : Res (Tensor E) :=
  if x.sizes.length < 3 then .unmatched else .of do
    let lead := x.sizes.length - 3
    let inH := x.sizes.getD (x.sizes.length - 2) 0
    let inW := x.sizes.getD (x.sizes.length - 1) 0
    let a ← splitDim x (lead + 1) (Int.fdiv inH factor)
    let b ← splitDim a (lead + 3) (Int.fdiv inW factor)
    let c ← permute b (dimList lead [0, 2, 4, 1, 3])
    collapse c lead (lead + 2)

/-- The rest of `DecomposeAtenChannelShuffleOp` after the split (4174-4186). -/
def shuffleRest (a : Tensor E) (rank : Nat) : Option (Tensor E) := do
  let c ← permute a (([0, 2, 1] ++ List.range' 3 (rank - 2)).map fun (d : Nat) => (d : Int))
  collapse c 1 2

/-- `DecomposeAtenChannelShuffleOp` (4087-4189): the dimension is split into `tempC` parts (4167-4172). -/
def decChannelShuffle (x : Tensor E) (groups : Int) : Res (Tensor E) :=
  if x.sizes.length < 3 then .unmatched else .of do
    let tempC := Int.fdiv (x.sizes.getD 1 0) groups
    let a ← splitDim x 1 tempC
    shuffleRest a x.sizes.length

/-- `ConvertPrimsSplitDimOp` (TorchToLinalg/Uncategorized.cpp 2374-2412): the sizes are those of the type of the result; `outer_length` is not
looked at. -/
def splitDimTyped (x : Tensor E) (d : Nat) (outer inner : Int) : Option (Tensor E) :=
  if d < x.sizes.length ∧ x.sizes.getD d 0 = outer * inner then
    some ⟨x.sizes.take d ++ outer :: inner :: x.sizes.drop (d + 1),
      fun idx => x.elem (idx.take d ++ (idx.getD d 0 * inner + idx.getD (d + 1) 0) :: idx.drop (d + 2))⟩
  else none

/-- `DecomposeAtenChannelShuffleOp` with the split done as its type says, (N, groups, tempC, ...) (4138-4141). -/
def decChannelShuffleTyped (x : Tensor E) (groups : Int) : Res (Tensor E) :=
  if x.sizes.length < 3 then .unmatched else .of do
    let tempC := Int.fdiv (x.sizes.getD 1 0) groups
    let a ← splitDimTyped x 1 groups tempC
    shuffleRest a x.sizes.length

/-- An element of `repeats`, known to be a constant or not. -/
structure Rep where
  value : Int
  known : Bool
  deriving DecidableEq

/-- `repeatInts` (5091-5098): -1 is `kUnknownSize`. -/
def Rep.int (r : Rep) : Int := if r.known then r.value else -1

/-- `broadcastRepeatedSingletonDims` (5101-5109): each element of `repeats` for a dimension of the input, with what is known of the size. -/
def singletons : List Rep → List (Option Int) → List (Rep × Bool)
  | r :: rs, n :: ns => (r, decide (n = some 1 ∧ r.int > 1)) :: singletons rs ns
  | _, _ => []

/-- Dimensions that are not split (5124, 5173). -/
def skips (p : Rep × Bool) : Bool := decide (p.1.int = 1) || p.2

/-- New dimensions at the front (5112-5119). -/
def batchLoop (x : Tensor E) (i : Nat) : Nat → Option (Tensor E)
  | 0 => some x
  | n + 1 => do
    let t ← unsqueeze x i
    batchLoop t (i + 1) n

/-- New dimensions for repetitions (5122-5131); `count` is the number of `unsqueezeDims`. -/
def unsqueezeLoop (x : Tensor E) (batch count i : Nat) : List (Rep × Bool) → Option (Tensor E)
  | [] => some x
  | p :: ps =>
    if skips p then unsqueezeLoop x batch count (i + 1) ps
    else do
      let t ← unsqueeze x ((i + count - batch : Nat) : Int)
      unsqueezeLoop t batch (count + 1) (i + 1) ps

/-- `lengths` (5141-5159). -/
def lengthsLoop (x : Tensor E) (lengths : List Int) : List (Rep × Bool) → List Int
  | [] => lengths
  | p :: ps =>
    if p.2 then lengthsLoop x (lengths ++ [p.1.value]) ps
    else
      let lengths := if p.1.int ≠ 1 then lengths ++ [p.1.value] else lengths
      lengthsLoop x (lengths ++ [x.sizes.getD lengths.length 0]) ps

/-- Dimensions merged again (5170-5193). -/
def flattenLoop (x : Tensor E) (i : Nat) : List (Rep × Bool) → Option (Tensor E)
  | [] => some x
  | p :: ps =>
    if skips p then flattenLoop x (i + 1) ps
    else do
      let t ← collapse x i (i + 1)
      flattenLoop t (i + 1) ps

/-- `DecomposeAtenRepeatOp` (5059-5196). -/
def decRepeat (x : Tensor E) (type : List (Option Int)) (reps : List Rep) : Res (Tensor E) :=
  if x.sizes.length > reps.length then .unmatched else .of do
    let batch := reps.length - x.sizes.length
    let dims := singletons (reps.drop batch) type
    let a ← batchLoop x 0 batch
    let b ← unsqueezeLoop a batch batch batch dims
    let c ← expand b (lengthsLoop b ((reps.take batch).map (·.value)) dims)
    flattenLoop c batch dims

/-- `DecomposeAtenTileOp` (12794-12826). -/
def decTile (x : Tensor E) (type : List (Option Int)) (reps : List Rep) : Res (Tensor E) :=
  decRepeat x type (if reps.length < x.sizes.length then List.replicate (x.sizes.length - reps.length) ⟨1, true⟩ ++ reps else reps)

/-- `DecomposeAtenRepeatInterleaveSelfIntOp` (5200-5288) for a dimension. -/
def decRepeatInterleave (x : Tensor E) (reps dim : Int) : Option (Tensor E) := do
  let d := if dim ≥ 0 then dim else dim + x.sizes.length
  let u ← unsqueeze x (d + 1)
  let e ← expand u ((List.replicate (x.sizes.length + 1) (-1)).set (d + 1).toNat reps)
  collapse e d.toNat (d + 1).toNat

/-- `DecomposeAtenRepeatInterleaveSelfIntOp` (5200-5288) without a dimension. -/
def decRepeatInterleaveAll (x : Tensor E) (reps : Int) : Option (Tensor E) := do
  let d : Int := x.sizes.length - 1
  let u ← unsqueeze x (d + 1)
  let e ← expand u ((List.replicate (x.sizes.length + 1) (-1)).set (d + 1).toNat reps)
  flattenAll e

end Verif.Dec
