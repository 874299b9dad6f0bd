import Verif.Model.LinBroadcast

/-!
# Views in the linalg backend

`lib/Conversion/TorchToLinalg/DataMovement.cpp` 597-658, 794-1467.

Simplified: 64-bit products are unbounded (the one computed in 32 bits is not); sets of indices that always are `0, 1, …, n-1` are given
by their number; the length of the list of sizes is compared with the rank of the result at the beginning; loops that
advance by at least one dimension in every turn have the number of dimensions as a bound.
-/

namespace Verif.Lin

/-- What becomes of an operation. -/
inductive Outcome (α : Type) where
  /-- the pattern does not match -/
  | unmatched
  /-- the compiler stops (division by zero, access to an empty optional) -/
  | crash
  /-- an operation is made that does not pass its verifier, or whose behavior is undefined -/
  | bad
  /-- an assertion of the program fails -/
  | aborts
  | ok (a : α)

def Outcome.isOk {α : Type} : Outcome α → Bool
  | .ok _ => true
  | _ => false

def Outcome.bind {α β : Type} (o : Outcome α) (f : α → Outcome β) : Outcome β :=
  match o with
  | .unmatched => .unmatched
  | .crash => .crash
  | .bad => .bad
  | .aborts => .aborts
  | .ok a => f a

/-- `kUnknownSize`. -/
def unknown : Int := -1

/-- Lines 832-838: `isValidReduction`. -/
def validReduction (n : Int) (l : List Int) : Bool := decide (unknown ∈ l ∨ n = unknown) || decide (l.prod = n)

/-- `mapAllDimsToSingleDim` (lines 825-854): how many dimensions of each side are mapped. -/
def mapAll (xs ys : List Int) : Option (Nat × Nat) :=
  if xs.isEmpty || ys.isEmpty then none else
  if xs.length = 1 then
    if validReduction (xs.getD 0 0) ys then some (1, ys.length) else none
  else if ys.length = 1 then
    if validReduction (ys.getD 0 0) xs then some (xs.length, 1) else none
  else none

/-- The loop of `mapStaticallyKnownDims` (lines 878-891). -/
def staticLoop : Nat → List Int → List Int → Int → Int → Nat → Nat → Option (Nat × Nat)
  | fuel, xs, ys, tx, ty, a, b =>
    if tx = ty then some (a, b) else
    match fuel with
    | 0 => none
    | fuel + 1 =>
      if tx < ty then
        match xs with
        | [] => none
        | x :: xs => if x = unknown then none else staticLoop fuel xs ys (tx * x) ty (a + 1) b
      else
        match ys with
        | [] => none
        | y :: ys => if y = unknown then none else staticLoop fuel xs ys tx (ty * y) a (b + 1)

/-- `mapStaticallyKnownDims` (lines 863-897). -/
def mapStatic (xs ys : List Int) : Option (Nat × Nat) :=
  match xs, ys with
  | x :: xs, y :: ys => if x = unknown ∨ y = unknown then none else staticLoop (xs.length + ys.length) xs ys x y 1 1
  | _, _ => none

/-- The loop of `mapParallelUnknownDims` (lines 940-967). -/
def parallelLoop (mx my : Int) : Nat → List Int → List Int → Int → Int → Bool → Bool → Nat → Nat → Option (Nat × Nat)
  | fuel, xs, ys, tx, ty, hx, hy, a, b =>
    if ¬(tx ≠ ty ∨ hx ≠ hy) then some (a, b) else
    match fuel with
    | 0 => none
    | fuel + 1 =>
      if (hx = false ∧ hy = true) ∨ tx < ty then
        match xs with
        | [] => none
        | x :: xs =>
          if x = unknown then if hx then none else parallelLoop mx my fuel xs ys (tx * mx) ty true hy (a + 1) b
          else parallelLoop mx my fuel xs ys (tx * x) ty hx hy (a + 1) b
      else
        match ys with
        | [] => none
        | y :: ys =>
          if y = unknown then if hy then none else parallelLoop mx my fuel xs ys tx (ty * my) hx true a (b + 1)
          else parallelLoop mx my fuel xs ys tx (ty * y) hx hy a (b + 1)

/-- `mapParallelUnknownDims` (lines 910-973). -/
def mapParallel (xs ys : List Int) (mx my : Int) : Option (Nat × Nat) :=
  if xs.count unknown > 1 ∨ ys.count unknown > 1 then none else
  match xs, ys with
  | x :: xs, y :: ys =>
    parallelLoop mx my (xs.length + ys.length) xs ys (if x = unknown then mx else x) (if y = unknown then my else y)
      (decide (x = unknown)) (decide (y = unknown)) 1 1
  | _, _ => none

/-- The first unknown size replaced. -/
def setUnknown (n : Int) : List Int → List Int
  | [] => []
  | x :: xs => if x = unknown then n :: xs else x :: setUnknown n xs

/-- `calculateSingleDynamicSize` (lines 980-1000); `none`: division by zero. -/
def calculateSingle (xs ys : List Int) : Option (List Int × List Int) :=
  if xs.isEmpty || ys.isEmpty then some (xs, ys) else
  if xs.count unknown + ys.count unknown ≠ 1 then some (xs, ys) else
  if xs.count unknown = 1 then
    let p := xs.prod.tdiv unknown
    if p = 0 then none else some (setUnknown (ys.prod.tdiv p) xs, ys)
  else
    let p := ys.prod.tdiv unknown
    if p = 0 then none else some (xs, setUnknown (xs.prod.tdiv p) ys)

/-- An entry of the list of sizes: a constant, the size of a dimension of the input, or a value known at run time only. -/
inductive ViewSize where
  | const (n : Int)
  | sizeOf (d : Nat)
  | other (v : Int)

/-- Its value at run time. -/
def ViewSize.value (sizes : List Int) : ViewSize → Int
  | .const n => n
  | .sizeOf d => sizes.getD d 0
  | .other v => v

/-- The constant -1 (lines 1090-1095). -/
def ViewSize.infers : ViewSize → Bool
  | .const n => decide (n = -1)
  | _ => false

/-- What is known of it (lines 1011-1026). -/
def ViewSize.known (ins : List Int) : ViewSize → Int
  | .const n => if n ≠ -1 then n else unknown
  | .sizeOf d => ins.getD d 0
  | .other _ => unknown

/-- `getMultiplier` (lines 1034-1045); `none`: division by zero. -/
def getMultiplier (ins outs : List Int) : Option (Int × Int) :=
  let p := ins.prod.natAbs
  let q := outs.prod.natAbs
  if Nat.gcd p q = 0 then none else some ((q / Nat.gcd p q : Nat), (p / Nat.gcd p q : Nat))

/-- The state of the loop of lines 1168-1270. -/
structure ViewState where
  ins : List Int
  outs : List Int
  i : Nat
  o : Nat
  inA : List (List Nat)
  outA : List (List Nat)
  checks : List (Nat × Nat)

/-- Lines 1239-1246: a pair of groups, of `a` dimensions of the input and `b` of the output. -/
def ViewState.group (st : ViewState) (a b : Nat) : ViewState :=
  { st with i := st.i + a, o := st.o + b, inA := st.inA ++ [List.range' st.i a], outA := st.outA ++ [List.range' st.o b] }

/-- Lines 1195-1209: the slices after `mapAllDimsToSingleDim`. -/
def adjustSlices (xs ys : List Int) : Option (List Int × List Int) :=
  (calculateSingle xs ys).map fun (xs, ys) =>
    if xs.length = 1 ∧ unknown ∈ ys then ([unknown], ys)
    else if ys.length = 1 ∧ unknown ∈ xs then (xs, [unknown])
    else (xs, ys)

/-- The inner loop (lines 1171-1247), up to the next unchanged dimensions. -/
def viewInner (mx my : Int) (ni no : Nat) : Nat → Bool → ViewState → Outcome ViewState
  | fuel, assumed, st =>
    if ¬(st.i < ni ∧ st.o < no) then .ok st else
    match fuel with
    | 0 => .unmatched
    | fuel + 1 =>
      let xs := (st.ins.drop st.i).take (ni - st.i)
      let ys := (st.outs.drop st.o).take (no - st.o)
      if assumed = true ∧ xs.length = 1 ∧ ys.length ≠ 1 ∧ xs.getD 0 0 = unknown then .unmatched else
      match mapAll xs ys with
      | some (a, b) =>
        match adjustSlices xs ys with
        | none => .crash
        | some (xs', ys') =>
          viewInner mx my ni no fuel assumed
            ({ st with ins := st.ins.take st.i ++ xs' ++ st.ins.drop ni, outs := st.outs.take st.o ++ ys' ++ st.outs.drop no }.group a b)
      | none =>
        match mapStatic xs ys with
        | some (a, b) => viewInner mx my ni no fuel assumed (st.group a b)
        | none =>
          match mapParallel xs ys mx my with
          | some (a, b) => viewInner mx my ni no fuel true (st.group a b)
          | none =>
            if xs.getD 0 0 = unknown then
              let checks := if ys.getD 0 0 ≠ unknown then st.checks ++ [(st.i, st.o)] else st.checks
              viewInner mx my ni no fuel true ({ st with checks := checks, ins := st.ins.set st.i (st.outs.getD st.o 0) }.group 1 1)
            else .unmatched

/-- Appends to the last group. -/
def pushLast (groups : List (List Nat)) (d : Nat) : List (List Nat) := groups.modify (groups.length - 1) (· ++ [d])

/-- Lines 1257-1269: dimensions of size one up to the unchanged one go into the last group. -/
def absorb (shape : List Int) (next : Nat) : Nat → Nat → List (List Nat) → Option (Nat × List (List Nat))
  | fuel, d, groups =>
    if ¬(d ≤ next ∧ d < shape.length) then some (d, groups) else
    match fuel with
    | 0 => none
    | fuel + 1 => if d ≠ next ∧ shape.getD d 0 ≠ 1 then none else absorb shape next fuel (d + 1) (pushLast groups d)

/-- One turn of the outer loop (lines 1168-1270). -/
def viewOuter (mx my : Int) (st : ViewState) (u : Nat × Nat) : Outcome ViewState :=
  (viewInner mx my u.1 u.2 st.ins.length false st).bind fun st =>
    let st := if u.1 ≠ st.ins.length then { st with inA := st.inA ++ [[]], outA := st.outA ++ [[]] } else st
    match absorb st.ins u.1 st.ins.length st.i st.inA with
    | none => .unmatched
    | some (i, inA) =>
      match absorb st.outs u.2 st.outs.length st.o st.outA with
      | none => .unmatched
      | some (o, outA) => .ok { st with i := i, o := o, inA := inA, outA := outA }

def viewOuters (mx my : Int) (st : ViewState) : List (Nat × Nat) → Outcome ViewState
  | [] => .ok st
  | u :: us => (viewOuter mx my st u).bind fun st => viewOuters mx my st us

/-- `unchangedDims` (lines 1112-1133). -/
def unchangedDims (ins outs : List Int) (size : List ViewSize) : List (Nat × Nat) :=
  let equal := ins.count unknown = 1 ∧ outs.count unknown = 1 ∧ ins.prod = outs.prod
  (size.zipIdx.filterMap fun (s, o) =>
    match s with
    | .sizeOf d => some (d, o)
    | _ => if equal ∧ outs.getD o 0 = unknown then some (ins.idxOf unknown, o) else none) ++ [(ins.length, outs.length)]

/-- A cast to a type with the sizes `ty`. -/
def castOk (ty : List (Option Int)) (sizes : List Int) : Bool :=
  ty.length = sizes.length && (List.zipWith (fun n m => decide (n = none ∨ n = some m)) ty sizes).all id

/-- `makeShapeLLVMCompatible`. -/
def dimType (n : Int) : Option Int := if n = unknown then none else some n

/-- 32 bits. -/
def wrap32 (n : Int) : Int := (n + 2147483648) % 4294967296 - 2147483648

/-- Lines 1315-1328: an entry of `intermediateShape`, computed in an `int`. -/
def intermediate (outs : List Int) (g : List Nat) : Int :=
  if g.any fun d => decide (outs.getD d 0 < 0) then unknown else g.foldl (fun s d => wrap32 (s * outs.getD d 0)) 1

/-- `reshapeLikeShapesAreCompatible`, the verifier of `collapse_shape` and `expand_shape`: the sizes in the type on the collapsed side,
those on the expanded side. -/
def groupsVerify (collapsed expanded : List Int) (groups : List (List Nat)) : Bool :=
  decide (groups.flatten = List.range expanded.length) && decide (groups.length = collapsed.length) &&
  (List.zipWith (fun c g => if g.any (fun d => decide (expanded.getD d 0 = unknown)) then decide (c = unknown)
    else decide (c = (g.map fun d => expanded.getD d 0).prod)) collapsed groups).all id

/-- The position in row-major order. -/
def linearize : List Int → List Int → Int
  | _ :: ns, i :: is => i * ns.prod + linearize ns is
  | _, _ => 0

/-- The size of a dimension of the result of `expand_shape`: the one in the type, or what remains of the group. -/
def expandedSize (outs : List Int) (n : Int) (g : List Nat) (d : Nat) : Int :=
  if outs.getD d 0 ≠ unknown then outs.getD d 0
  else n / ((g.filter fun e => decide (e ≠ d)).map fun e => outs.getD e 0).prod

/-- `tensor.expand_shape`; undefined if the sizes of a group do not make up the size expanded, or more than one is not known. -/
def expandShape {E : Type} (x : Tensor E) (outs : List Int) (groups : List (List Nat)) : Outcome (Tensor E) :=
  let sizes := (List.zipWith (fun n g => g.map (expandedSize outs n g)) x.sizes groups)
  if (List.zipWith (fun n ns => decide (n = ns.prod)) x.sizes sizes).all id ∧ groups.all (fun g => decide ((g.filter fun d => decide (outs.getD d 0 = unknown)).length ≤ 1)) then
    .ok ⟨sizes.flatten, fun idx => x.get (List.zipWith (fun g ns => linearize ns (g.map fun d => idx.getD d 0)) groups sizes)⟩
  else .bad

/-- Lines 1283-1377: the operations. -/
def viewFinish {E : Type} (x : Operand E) (size : List ViewSize) (resTy : List (Option Int)) (st : ViewState) : Outcome (Tensor E) :=
  if st.checks.any fun p => decide (x.tensor.sizes.getD p.1 0 ≠ (size.getD p.2 (.const 0)).value x.tensor.sizes) then .aborts else
  if st.inA.all (fun g => g.length = 1) ∧ st.outA.all (fun g => g.length = 1) then
    if castOk resTy x.tensor.sizes then .ok x.tensor else .bad
  else
  if st.outs.any (fun n => decide (n < -1)) then .bad else
  if !castOk (st.ins.map dimType) x.tensor.sizes then .bad else
  let collapses := st.inA.any fun g => g.length > 1
  let inter := st.outA.map (intermediate st.outs)
  if collapses && !groupsVerify inter st.ins st.inA then .bad else
  let src := if collapses then collapseShape x.tensor st.inA else x.tensor
  let srcTy := if collapses then inter else st.ins
  let result :=
    if st.outA.any fun g => g.length > 1 then
      if !groupsVerify srcTy st.outs st.outA then .bad else expandShape src st.outs st.outA
    else if collapses then .ok src else .crash
  result.bind fun t => if castOk resTy t.sizes then .ok t else .bad

/-- `ConvertAtenViewOp` (lines 1047-1380). -/
def lowerView {E : Type} (x : Operand E) (size : List ViewSize) (resTy : List (Option Int)) : Outcome (Tensor E) :=
  let ins := x.type.map (·.getD unknown)
  if resTy.length = 0 then
    if ins.all (fun n => decide (n = 1)) then .ok ⟨[], fun _ => x.tensor.get (ins.map fun _ => 0)⟩ else .bad
  else if ins.length = 0 then
    if castOk resTy (resTy.map fun _ => 1) then .ok ⟨resTy.map fun _ => 1, fun _ => x.tensor.get []⟩ else .bad
  else if size.length ≠ resTy.length then .unmatched else
  if size.countP ViewSize.infers > 1 then .unmatched else
  match calculateSingle ins (size.map (·.known ins)) with
  | none => .crash
  | some (ins, outs) =>
    if outs.count unknown > 1 then .unmatched else
    match getMultiplier ins outs with
    | none => .crash
    | some (mx, my) =>
      (viewOuters mx my ⟨ins, outs, 0, 0, [], [], []⟩ (unchangedDims ins outs size)).bind fun st => viewFinish x size resTy st

/-! ## Other lowerings -/

/-- `ConvertAtenFlattenUsingIntsOp` (lines 599-657).  Of a scalar the result is one element. -/
def lowerFlatten {E : Type} (x : Tensor E) (start end_ : Int) : Outcome (Tensor E) :=
  let r := x.sizes.length
  if r = 1 then .ok x else
  let start := if start < 0 then start + r else start
  let end_ := if end_ < 0 then end_ + r else end_
  if r = 0 then
    if ¬(-1 ≤ start ∧ start ≤ 0 ∧ -1 ≤ end_ ∧ end_ ≤ 0) then .unmatched else .ok ⟨[1], fun _ => x.get []⟩
  else if start < 0 ∨ start ≥ r ∨ end_ < 0 ∨ end_ ≥ r ∨ start > end_ then .unmatched else
  let groups := (List.range r).foldl (fun (st : List (List Nat) × Nat) (i : Nat) =>
    (st.1.modify st.2 (· ++ [i]), if (i : Int) < start ∨ (i : Int) ≥ end_ then st.2 + 1 else st.2)) (List.replicate (r - (end_ - start).toNat) [], 0)
  .ok (collapseShape x groups.1)

/-- `tensor.reshape`. -/
def reshape {E : Type} (x : Tensor E) (sizes : List Int) : Outcome (Tensor E) :=
  if sizes.all (fun n => decide (0 ≤ n)) ∧ sizes.prod = x.sizes.prod then .ok ⟨sizes, fun idx => x.get (delinearize x.sizes (linearize sizes idx))⟩ else .bad

/-- `ConvertAtenViewOpToReshape` (lines 1384-1464); the division is undefined if the divisor is zero, and the list must not be empty
(`sizes.front()`). -/
def lowerViewToReshape {E : Type} (strict : Bool) (x : Tensor E) (size : List Int) : Outcome (Tensor E) :=
  if size.isEmpty then .crash else
  let known := size.foldl (fun p s => if s < 0 then p else p * s) 1
  let count := size.foldl (fun c s => if s < 0 then c + 1 else c) 0
  if !strict && decide (count > 1) then .aborts else
  if known = 0 then .bad else
  let inferred := x.sizes.prod.tdiv known
  reshape x (size.map fun s => if s < 0 then inferred else s)

end Verif.Lin
