import Verif.Model.LinPool
import Verif.Model.LinSqueeze

/-!
# Indirect data movement in the linalg backend

`lib/Conversion/TorchToLinalg/IndirectDataMovement.cpp`.

Simplified: casts between static and dynamic sizes do nothing; indices are unbounded integers; a scale is a fraction, and quotients of sizes
are exact where the code divides 32-bit floating-point numbers; additions are those of any type with an addition.  Left out: checks that
arguments are constants or made by `prim.ListConstruct`.
-/

namespace Verif.Ind

open Lin

variable {E : Type}

/-- A tensor made by `linalg.generic`, and whether the assertions in its body hold at an index. -/
structure Checked (E : Type) where
  tensor : Tensor E
  holds : List Int → Bool

/-- The index `createLinalgPayloadCalculationForGatherOps` reads (lines 31-43): `out` are the values of `linalg.index`. -/
def gatherIndex (inputRank : Nat) (index : Int) (dim outputRank : Nat) (out : List Int) : List Int :=
  (List.range inputRank).map fun (i : Nat) =>
    if i = dim then index else out.getD ((i : Int) + (if i < dim then 0 else (outputRank : Int) - inputRank)).toNat 0

/-- The assertions (lines 45-58). -/
def gatherAsserts (sizes : List Int) (dim : Nat) (index : Int) : Bool := decide (index < sizes.getD dim 0) && decide (index ≥ 0)

/-- `createLinalgPayloadCalculationForGatherOps` (lines 28-62). -/
def gatherPayload (x : Tensor E) (inputRank : Nat) (index : Int) (dim outputRank : Nat) (out : List Int) : Option E :=
  x.get (gatherIndex inputRank index dim outputRank out)

/-- `aten.gather` (lines 65-111). -/
def lowerGather (x : Tensor E) (dim : Int) (index : Tensor Int) : Outcome (Checked E) :=
  let dim := toPositiveDim dim x.sizes.length
  if !isValidDim dim x.sizes.length then .unmatched else
  let rank := index.sizes.length
  .ok ⟨⟨index.sizes, fun idx => (index.get idx).bind fun v => gatherPayload x rank v dim.toNat rank idx⟩,
    fun idx => (index.get idx).any fun v => gatherAsserts x.sizes dim.toNat v⟩

/-- `aten.embedding` (lines 115-170). -/
def lowerEmbedding (weight : Tensor E) (indices : Tensor Int) : Outcome (Checked E) :=
  if weight.sizes.length ≠ 2 then .unmatched else
  let sizes := indices.sizes ++ [weight.sizes.getD 1 0]
  let rank := indices.sizes.length
  .ok ⟨⟨sizes, fun idx => (indices.get (idx.take rank)).bind fun v => gatherPayload weight 2 v 0 sizes.length idx⟩,
    fun idx => (indices.get (idx.take rank)).any fun v => gatherAsserts weight.sizes 0 v⟩

/-- The end of the bag `i` (lines 321-346). -/
def nextOffset (offsets : Tensor Int) (indices : Int) (i : Int) : Option Int :=
  let last := decide (offsets.sizes.getD 0 0 = i + 1)
  let next := offsets.get [if last then 0 else i + 1]
  next.map fun n => if last then indices else n

/-- One step of the reduction (lines 316-378). -/
def bagStep (add : E → E → E) (weight : Tensor E) (indices offsets : Tensor Int) (i k : Int) (acc : E) (j : Int) : Option E :=
  match indices.get [j], offsets.get [i], nextOffset offsets (indices.sizes.getD 0 0) i with
  | some index, some offset, some next =>
    (weight.get [index, k]).map fun w =>
      if (decide (offset < j) || decide (offset = j)) && decide (j < next) then add w acc else acc
  | _, _, _ => none

/-- The first result of `aten.embedding_bag.padding_idx` (lines 209-419).  Neither `per_sample_weights` nor `padding_idx` is looked at. -/
def lowerEmbeddingBag (add : E → E → E) (zero : E) (weight : Tensor E) (indices offsets : Tensor Int) (mode : Int) (includeLast : Bool)
    (_perSample : Option (Tensor E)) (_paddingIdx : Option Int) : Outcome (Tensor E) :=
  if mode ≠ 0 then .unmatched else
  if weight.sizes.length ≠ 2 then .unmatched else
  if indices.sizes.length ≠ 1 then .unmatched else
  if offsets.sizes.length ≠ 1 then .unmatched else
  if includeLast then .unmatched else
  let n := (indices.sizes.getD 0 0).toNat
  .ok ⟨[offsets.sizes.getD 0 0, weight.sizes.getD 1 0], fun idx =>
    (List.range n).foldl (fun acc (j : Nat) =>
      acc.bind fun a => bagStep add weight indices offsets (idx.getD 0 0) (idx.getD 1 0) a j) (some zero)⟩

/-- `aten.index_select` (lines 434-506). -/
def lowerIndexSelect (x : Tensor E) (dim : Int) (index : Tensor Int) : Outcome (Tensor E) :=
  let dim := toPositiveDim dim x.sizes.length
  if !isValidDim dim x.sizes.length then .unmatched else
  let d := dim.toNat
  let index : Tensor Int := if index.sizes.length = 0 then ⟨[1], fun _ => index.get []⟩ else index
  .ok ⟨x.sizes.set d (index.sizes.getD 0 0), fun idx => (index.get [idx.getD d 0]).bind fun v => x.get (idx.set d v)⟩

/-! ## `aten.index.Tensor_hacked_twin` -/

/-- `makeIndexValuePositive` (lines 509-518). -/
def makePositive (index size : Int) : Int := if index < 0 then index + size else index

/-- `indexTensorDims`, `indexTensors` and `contiguous`. -/
structure Collected where
  dims : List Nat
  tensors : List (Operand Int)
  contiguous : Bool

/-- The body of the loop of lines 562-571. -/
def collectStep (c : Collected) (p : Option (Operand Int) × Nat) : Collected :=
  match p.1 with
  | none => c
  | some t => ⟨c.dims ++ [p.2], c.tensors ++ [t], c.contiguous && !(!c.dims.isEmpty && decide ((c.dims.getLastD 0 : Int) ≠ (p.2 : Int) - 1))⟩

/-- Lines 559-571. -/
def collect (idxs : List (Option (Operand Int))) : Collected := idxs.zipIdx.foldl collectStep ⟨[], [], true⟩

/-- `maxRank` (lines 596-601). -/
def maxRank (ts : List (Operand Int)) : Int := ts.foldl (fun m t => max m (t.type.length : Int)) (-1)

/-- The body of the loop of lines 610-622, for the dimension `k` of the broadcast shape: `dynamicDims` and `staticDimSize`. -/
def dimStep (rank : Int) (k : Nat) (st : List Int × Int) (t : Operand Int) : List Int × Int :=
  if rank - t.type.length > k then st else
  let dim := ((k : Int) - rank + t.type.length).toNat
  match t.type.getD dim none with
  | none => (st.1 ++ [t.tensor.sizes.getD dim 0], st.2)
  | some n => (st.1, max st.2 n)

/-- One dimension of the broadcast shape (lines 607-642).  `dynamicDims[0]` need not exist. -/
def bcDim (strict : Bool) (ts : List (Operand Int)) (known : Option Int) (k : Nat) : Outcome Int :=
  match known with
  | some n => .ok n
  | none =>
    let st := ts.foldl (dimStep (maxRank ts) k) ([], -1)
    if st.1.length ≥ 2 then .unmatched else
    match st.1 with
    | [] => .bad
    | d :: _ => if !strict && decide (st.2 > 1) && decide (st.2 ≠ d) then .aborts else .ok d

/-- The loop of lines 606-643. -/
def bcDims (strict : Bool) (ts : List (Operand Int)) (resTy : List (Option Int)) (start : Nat) : List Nat → Outcome (List Int)
  | [] => .ok []
  | k :: ks => (bcDim strict ts (resTy.getD (start + k) none) k).bind fun n =>
      (bcDims strict ts resTy start ks).bind fun ns => .ok (n :: ns)

/-- `broadcastedIndexShape` (lines 594-648). -/
def bcShape (strict : Bool) (ts : List (Operand Int)) (resTy : List (Option Int)) (start : Nat) : Outcome (List Int) :=
  match ts with
  | [t] => .ok t.tensor.sizes
  | _ => bcDims strict ts resTy start (List.range (maxRank ts).toNat)

/-- The loop of lines 666-672, from dimension `i` on: `dims` are those of `indexTensorDims` not yet passed. -/
def unchangedSizes : List Nat → List Int → Nat → List Int
  | _, [], _ => []
  | d :: dims, n :: ns, i => if i = d then unchangedSizes dims ns (i + 1) else n :: unchangedSizes (d :: dims) ns (i + 1)
  | [], ns, _ => ns

/-- `resultShape` (lines 654-673). -/
def resultShape (c : Collected) (sizes bc : List Int) (resRank : Nat) : List Int :=
  if c.contiguous then
    let front := (List.range (c.dims.getD 0 0)).map (fun (i : Nat) => sizes.getD i 0) ++ bc
    front ++ (List.range' front.length (resRank - front.length)).map (fun (i : Nat) => sizes.getD (i - bc.length + c.dims.length) 0)
  else bc ++ unchangedSizes c.dims sizes 0

/-- The index an index tensor is read at (lines 684-700). -/
def tensorIndex (t : Operand Int) (start bcRank : Nat) (out : List Int) : List Int :=
  (List.range t.type.length).map fun (d : Nat) =>
    if t.type.getD d none = some 1 then 0 else out.getD (start + bcRank - t.type.length + d) 0

/-- Lines 737-752, from dimension `i` on: `dims` and `args` are those not yet passed, `unchanged` counts the others. -/
def mixedIndices (bcRank : Nat) (out : List Int) : List Nat → List Int → List Int → Nat → Nat → List Int
  | _, _, [], _, _ => []
  | d :: dims, v :: args, n :: ns, i, unchanged =>
    if i = d then makePositive v n :: mixedIndices bcRank out dims args ns (i + 1) unchanged
    else out.getD (bcRank + unchanged) 0 :: mixedIndices bcRank out (d :: dims) (v :: args) ns (i + 1) (unchanged + 1)
  | _, _, _ :: ns, i, unchanged => out.getD (bcRank + unchanged) 0 :: mixedIndices bcRank out [] [] ns (i + 1) (unchanged + 1)

/-- `extractionIndices` (lines 719-753). -/
def extractionIndices (c : Collected) (sizes : List Int) (bcRank : Nat) (args out : List Int) : List Int :=
  if c.contiguous then
    let first := c.dims.getD 0 0
    let front := (List.range first).map (fun (i : Nat) => out.getD i 0) ++ args.zipIdx.map fun p => makePositive p.1 (sizes.getD (first + p.2) 0)
    front ++ (List.range' front.length (sizes.length - front.length)).map fun (i : Nat) => out.getD (i + bcRank - c.dims.length) 0
  else mixedIndices bcRank out c.dims args sizes 0 0

/-- The elements of the index tensors, the arguments of the body. -/
def readArgs (ts : List (Operand Int)) (start bcRank : Nat) (out : List Int) : Option (List Int) :=
  ts.mapM fun t => t.tensor.get (tensorIndex t start bcRank out)

/-- `aten.index.Tensor_hacked_twin` (lines 536-762).  `resTy`: the sizes in the type of the result. -/
def lowerIndex (strict : Bool) (x : Tensor E) (idxs : List (Option (Operand Int))) (resTy : List (Option Int)) : Outcome (Tensor E) :=
  let c := collect idxs
  if c.tensors.isEmpty then .unmatched else
  let start := if c.contiguous then c.dims.getD 0 0 else 0
  (bcShape strict c.tensors resTy start).bind fun bc =>
    .ok ⟨resultShape c x.sizes bc resTy.length, fun out =>
      (readArgs c.tensors start bc.length out).bind fun args => x.get (extractionIndices c x.sizes bc.length args out)⟩

/-! ## Upsampling -/

/-- The scale in one dimension (lines 823-847, 986-1017): rounded up. -/
def scaleFactor (scale : Option (Int × Int)) (small large : Int) : Int :=
  match scale with
  | some s => Pool.ceilDiv s.1 s.2
  | none => Pool.ceilDiv large small

/-- `aten.upsample_nearest2d` (lines 788-885). -/
def lowerUpsample (x : Tensor E) (oh ow : Int) (sh sw : Option (Int × Int)) : Tensor E :=
  let kh := scaleFactor sh (x.sizes.getD 2 0) oh
  let kw := scaleFactor sw (x.sizes.getD 3 0) ow
  ⟨(x.sizes.set 2 oh).set 3 ow, fun idx => x.get ((idx.set 2 ((idx.getD 2 0).fdiv kh)).set 3 ((idx.getD 3 0).fdiv kw))⟩

/-- `getGradOutputValue` (lines 888-935). -/
def gradValue (zero : E) (g : Tensor E) (kh kw n c ih iw x y : Int) : Option E :=
  let oh := ih * kh + x
  let ow := iw * kw + y
  let lastH := g.sizes.getD 2 0 - 1
  let lastW := g.sizes.getD 3 0 - 1
  (g.get [n, c, if oh ≤ lastH then oh else lastH, if ow ≤ lastW then ow else lastW]).map fun e =>
    if decide (oh ≤ lastH) && decide (ow ≤ lastW) then e else zero

/-- The loops over the kernel. -/
def kernelLoops (kh kw : Int) : List (Int × Int) :=
  (List.range kh.toNat).flatMap fun (x : Nat) => (List.range kw.toNat).map fun (y : Nat) => ((x : Int), (y : Int))

/-- `aten.upsample_nearest2d_backward` (lines 951-1079). -/
def lowerUpsampleBackward (add : E → E → E) (zero : E) (g : Tensor E) (inputSize : List Int) (sh sw : Option (Int × Int)) : Tensor E :=
  let kh := scaleFactor sh (inputSize.getD 2 0) (g.sizes.getD 2 0)
  let kw := scaleFactor sw (inputSize.getD 3 0) (g.sizes.getD 3 0)
  ⟨inputSize, fun idx =>
    (kernelLoops kh kw).foldl (fun acc p =>
      acc.bind fun a => (gradValue zero g kh kw (idx.getD 0 0) (idx.getD 1 0) (idx.getD 2 0) (idx.getD 3 0) p.1 p.2).map (add a)) (some zero)⟩

end Verif.Ind
