import Mathlib.Data.List.Basic
import Mathlib.Data.List.Dedup

/-!
# The `tm_tensor` operators as loops

`lib/Dialect/TMTensor/Transforms/ConvertToLoops.cpp` and `generateScalarImplementation` of the operators in
`lib/Dialect/TMTensor/IR/TMTensorOps.cpp`.  The operators are lowered on buffers (memrefs); a buffer is a function from
multi-indices to elements, and different operands are different buffers.  The code builds `scf`, `memref` and `arith`
operations; what is modelled is what these do when they run.
-/

namespace Verif.Tm

/-- A buffer. -/
abbrev Buf (E : Type) := List Nat → E

/-- `memref.store`. -/
def Buf.store {E : Type} (b : Buf E) (idx : List Nat) (v : E) : Buf E := fun j => if j = idx then v else b j

/-- `lowerToLoopsImpl` (ConvertToLoops.cpp 37-62): one `scf.for` per dimension, from 0 by 1. -/
def loops {S : Type} (body : List Nat → S → S) : List Nat → List Nat → S → S
  | [], ivs, s => body ivs s
  | n :: ns, ivs, s => (List.range n).foldl (fun s i => loops body ns (ivs ++ [i]) s) s

/-- `lowerToLoops` (lines 65-71). -/
def lower {S : Type} (sizes : List Nat) (body : List Nat → S → S) (s : S) : S := loops body sizes [] s

/-! ## `tm_tensor.sort` -/

/-- The operands of a sort: a number of buffers of the same shape. -/
abbrev Outs (E : Type) := Nat → Buf E

def Outs.store {E : Type} (s : Outs E) (o : Nat) (idx : List Nat) (v : E) : Outs E :=
  fun o' => if o' = o then (s o).store idx v else s o'

/-- The arguments of the region (TMTensorOps.cpp 932-945): of each operand the elements at `lo` and at `hi`. -/
def sortArgs {E : Type} (m : Nat) (s : Outs E) (lo hi : List Nat) : List E :=
  (List.range m).flatMap fun o => [s o lo, s o hi]

/-- Lines 971-987: the elements of every operand are exchanged.  `v1` and `v2` were loaded before. -/
def sortSwap {E : Type} (m : Nat) (s : Outs E) (lo hi : List Nat) : Outs E :=
  (List.range m).foldl (fun t o => (t.store o lo (s o hi)).store o hi (s o lo)) s

/-- The body of the inner loop (lines 932-990); `region` is the comparison. -/
def sortStep {E : Type} (region : List E → Bool) (m d : Nat) (ivs : List Nat) (s : Outs E) (iv : Nat) : Outs E :=
  if region (sortArgs m s (ivs.set d iv) (ivs.set d (iv + 1))) then s
  else sortSwap m s (ivs.set d iv) (ivs.set d (iv + 1))

/-- `SortOp::generateScalarImplementation` (lines 916-991): a loop from 0 to the size of the dimension minus 1. -/
def sortBody {E : Type} (region : List E → Bool) (m d n : Nat) (ivs : List Nat) (s : Outs E) : Outs E :=
  (List.range (n - 1)).foldl (sortStep region m d ivs) s

/-- `SortOp::getIterationDomain` (lines 901-914): all sizes of the first operand. -/
def sort {E : Type} (region : List E → Bool) (m d : Nat) (sizes : List Nat) (s : Outs E) : Outs E :=
  lower sizes (sortBody region m d (sizes[d]?.getD 0)) s

/-! ## `tm_tensor.scan` -/

/-- `ScanOp::generateScalarImplementation` (lines 507-570); `f` is the region. -/
def scanBody {E : Type} (f : E → E → E) (inclusive : Bool) (d : Nat) (input : Buf E) (ivs : List Nat) (s : Buf E × Buf E) :
    Buf E × Buf E :=
  let acc := ivs.eraseIdx d
  let iv := ivs[d]?.getD 0
  if iv = 0 then
    (s.1.store ivs (if inclusive then input ivs else s.2 acc), s.2)
  else
    let prev := ivs.set d (iv - 1)
    let v := f (s.1 prev) (if inclusive then input ivs else input prev)
    (s.1.store ivs v, s.2.store acc v)

/-- Output and accumulator (`getIterationDomain`: lines 463-476). -/
def scan {E : Type} (f : E → E → E) (inclusive : Bool) (d : Nat) (sizes : List Nat) (input output acc : Buf E) : Buf E × Buf E :=
  lower sizes (scanBody f inclusive d input) (output, acc)

/-! ## `tm_tensor.scatter` -/

/-- Lines 795-812: the position in the original: the positions of the update's dimensions at the end, … -/
def scatterBase (rank : Nat) (ivs : List Nat) : List (Option Int) :=
  let updateIvs := ivs.drop 1
  List.replicate (rank - updateIvs.length) none ++ updateIvs.map fun i : Nat => some (i : Int)

/-- … one index added at the dimension it is for. -/
def scatterAdd (starts : List (Option Int)) (dim : Nat) (idx : Int) : List (Option Int) :=
  starts.set dim (match starts[dim]? with
    | some (some s) => some (idx + s)
    | _ => some idx)

def scatterStarts (rank : Nat) (dimMap : List Nat) (indices : Nat → Nat → Int) (ivs : List Nat) : List (Option Int) :=
  (List.range dimMap.length).foldl (fun st i => scatterAdd st (dimMap[i]?.getD 0) (indices (ivs.headD 0) i)) (scatterBase rank ivs)

/-- All positions are there: `none` where a `Value()` is left. -/
def allThere : List (Option Int) → Option (List Int)
  | [] => some []
  | none :: _ => none
  | some i :: is =>
    match allThere is with
    | none => none
    | some r => some (i :: r)

/-- Inside of a shape. -/
def inside : List Nat → List Int → Option (List Nat)
  | [], [] => some []
  | n :: ns, i :: is =>
    if 0 ≤ i ∧ i < n then
      match inside ns is with
      | none => none
      | some r => some (i.toNat :: r)
    else none
  | _, _ => none

/-- The element an update goes to. -/
def scatterTarget (sizes dimMap : List Nat) (indices : Nat → Nat → Int) (ivs : List Nat) : Option (List Nat) :=
  match allThere (scatterStarts sizes.length dimMap indices ivs) with
  | none => none
  | some is => inside sizes is

/-- `ScatterOp::generateScalarImplementation` (lines 783-829); `f update current` is the region.  The state is `none` after an
access outside of the original, and if a position is missing (the code then builds a load with a null operand). -/
def scatterBody {E : Type} (f : E → E → E) (sizes dimMap : List Nat) (indices : Nat → Nat → Int) (updates : Buf E)
    (ivs : List Nat) (s : Option (Buf E)) : Option (Buf E) :=
  match s with
  | none => none
  | some b =>
    match scatterTarget sizes dimMap indices ivs with
    | none => none
    | some p => some (b.store p (f (updates ivs) (b p)))

/-- `getIterationDomain` (lines 771-781): all positions of the updates. -/
def scatter {E : Type} (f : E → E → E) (sizes dimMap : List Nat) (usizes : List Nat) (indices : Nat → Nat → Int)
    (updates original : Buf E) : Option (Buf E) :=
  lower usizes (scatterBody f sizes dimMap indices updates) (some original)

/-- `isInvalid` (lines 602-613). -/
def dimMapInvalid (dimMap : List Int) (rank : Nat) : Bool :=
  decide (dimMap.length > rank) || decide (dimMap.length ≠ dimMap.dedup.length) || dimMap.any fun i => decide (i < 0) || decide (i ≥ rank)

/-- One of the two loops of lines 666-697, from `a0` and `u0` on: no dimension of the updates exceeds the original's. -/
def dimsFit (sizes usizes : List Nat) (a0 u0 len : Nat) : Bool :=
  (List.range len).all fun t => decide (usizes[u0 + t]?.getD 0 ≤ sizes[a0 + t]?.getD 0)

/-- The checks of shapes in `ScatterOp::verify` (lines 615-697) for static shapes; the indices have `rows` rows and `depth`
columns.  What lines 699-737 check (the types of the region) is not modelled. -/
def verifyScatter (sizes usizes : List Nat) (rows depth : Nat) (dimMap : List Int) : Bool :=
  let rank := sizes.length
  let urank := usizes.length
  decide (dimMap.length = depth) && !dimMapInvalid dimMap rank && decide (1 ≤ urank) && decide (some rows = usizes[0]?) &&
    !decide (urank - 1 > rank) && !decide (rank > depth + urank - 1) &&
    (let fullSliceDims := rank - depth
     let insertDims := rank + 1 - urank
     dimsFit sizes usizes depth (urank - fullSliceDims) (min (rank - depth) fullSliceDims) &&
     dimsFit sizes usizes insertDims 1 (min (depth - insertDims) (urank - fullSliceDims - 1)))

/-! ## `tm_tensor.topk` -/

/-- What the inner loop carries: the buffers, the value and its index. -/
structure TopkState (E : Type) where
  values : Buf E
  indices : Buf Int
  value : E
  index : Int

/-- The body of the inner loop (lines 1136-1190); `f new old` is the region. -/
def topkStep {E : Type} (f : E → E → Bool) (d : Nat) (ivs : List Nat) (s : TopkState E) (iv : Nat) : TopkState E :=
  let p := ivs.set d iv
  let kValue := s.values p
  let kIndex := s.indices p
  let forward := f s.value kValue
  let reverse := f kValue s.value
  let equal := forward == reverse
  let firstIndex := decide (s.index < kIndex)
  let indexCmp := forward || (equal && firstIndex)
  { values := s.values.store p (if forward then s.value else kValue)
    indices := s.indices.store p (if indexCmp then s.index else kIndex)
    value := if forward then kValue else s.value
    index := if indexCmp then kIndex else s.index }

/-- The index of an element (lines 1113-1120): without indices the position along the dimension. -/
def topkIndex (d : Nat) (idx : Option (Buf Int)) (ivs : List Nat) : Int :=
  match idx with
  | some b => b ivs
  | none => (ivs[d]?.getD 0 : Nat)

/-- `TopkOp::generateScalarImplementation` (lines 1104-1193); `k` is the size of the outputs along the dimension. -/
def topkBody {E : Type} (f : E → E → Bool) (d k : Nat) (input : Buf E) (idx : Option (Buf Int)) (ivs : List Nat)
    (s : Buf E × Buf Int) : Buf E × Buf Int :=
  let r := (List.range k).foldl (topkStep f d ivs)
    ⟨s.1, s.2, input ivs, topkIndex d idx ivs⟩
  (r.values, r.indices)

/-- Values and indices (`getIterationDomain`: lines 1088-1102). -/
def topk {E : Type} (f : E → E → Bool) (d k : Nat) (sizes : List Nat) (input : Buf E) (idx : Option (Buf Int))
    (values : Buf E) (indices : Buf Int) : Buf E × Buf Int :=
  lower sizes (topkBody f d k input idx) (values, indices)

end Verif.Tm
