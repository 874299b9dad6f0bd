import Verif.Spec.Fx
import Verif.Model.While

/-!
# Execution of the operations emitted for a `while_loop`, and Python's `while`

`V` is the type of carried values (tensors, scalars).  Functions of the MLIR module are given by
`F : String → List V → Option (List V)` (`none`: no such function or wrong arguments), `truth` is
`torch.aten.Bool.Tensor`.
-/

namespace Verif.Fx.Spec

/-- Run-time values. -/
inductive Val (V : Type) where
  | carried (v : V)
  | bool (b : Bool)
  | int (i : Int)
  deriving DecidableEq

variable {V : Type} (F : String → List V → Option (List V)) (truth : V → Bool)

/-- The carried values among run-time values; `none` if one is something else. -/
def carriedOf (vs : List (Option (Val V))) : Option (List V) :=
  vs.mapM fun o => match o with | some (.carried v) => some v | _ => none

/-- Execute an operation of the region; `vals` are the region's values so far. -/
def runRegionOp (vals : List (Val V)) : RegionOp → Option (List (Val V))
  | .call callee operands n => do
    let args ← carriedOf (operands.map fun i => vals[i]?)
    let outs ← F callee args
    if outs.length = n then some (vals ++ outs.map .carried) else none
  | .boolTensor x =>
    match vals[x]? with
    | some (.carried v) => some (vals ++ [.bool (truth v)])
    | _ => none

/-- Execute the region once, in iteration `i`: the condition for going on and the next carried
values. -/
def runRegion (r : Region) (i : Nat) (vs : List V) : Option (Bool × List V) := do
  let start := Val.int i :: vs.map .carried
  if start.length = r.nArgs then
    let vals ← r.ops.foldlM (runRegionOp F truth) start
    match vals[r.cond]? with
    | some (.bool c) => do
      let outs ← carriedOf (r.yields.map fun i => vals[i]?)
      some (c, outs)
    | _ => none
  else none

/-- `torch.prim.Loop`: iterate while the condition holds and fewer than the maximal number of
iterations were made; `left` iterations may still be made, `i` were made. -/
def runLoop (step : Nat → List V → Option (Bool × List V)) : Nat → Nat → Bool → List V →
    Option (List V)
  | 0, _, _, vs => some vs
  | _ + 1, _, false, vs => some vs
  | left + 1, i, true, vs => do
    let (c, vs') ← step i vs
    runLoop step left (i + 1) c vs'

/-- Memory: SSA value ↦ run-time value. -/
abbrev Mem (V : Type) := Nat → Option (Val V)

/-- Bind the results of an operation. -/
def Mem.bind (μ : Mem V) : List Nat → List (Val V) → Mem V
  | x :: xs, v :: vs => Mem.bind (fun y => if y = x then some v else μ y) xs vs
  | _, _ => μ

/-- Execute an operation of the enclosing function; only those used by `while_loop`. -/
def runOp (μ : Mem V) (o : Op) : Option (Mem V) :=
  match o.kind with
  | .call callee => do
    let args ← carriedOf (o.operands.map μ)
    let outs ← F callee args
    if outs.length = o.results.length then some (μ.bind o.results (outs.map .carried)) else none
  | .torchOp "torch.aten.Bool.Tensor" =>
    match o.operands.map μ with
    | [some (.carried v)] => some (μ.bind o.results [.bool (truth v)])
    | _ => none
  | .const (.int k) _ => some (μ.bind o.results [.int k])
  | .loop cond body =>
    match o.operands.map μ with
    | some (.int m) :: some (.bool c) :: inits => do
      let vs ← carriedOf inits
      if vs.length = o.results.length then
        let outs ← runLoop (runRegion F truth (whileRegion cond body o.results.length)) m.toNat 0 c vs
        some (μ.bind o.results (outs.map .carried))
      else none
    | _ => none
  | _ => none

/-- Execute operations in order. -/
def runOps (μ : Mem V) (ops : List Op) : Option (Mem V) := ops.foldlM (runOp F truth) μ

/-- `while cond(*carried): carried = body(*carried)` started with `vs` ends with `out` after `n`
iterations. -/
inductive WhileRuns (cond : List V → Bool) (body : List V → List V) : List V → Nat → List V → Prop
  | stop {vs : List V} : cond vs = false → WhileRuns cond body vs 0 vs
  | next {vs out : List V} {n : Nat} : cond vs = true → WhileRuns cond body (body vs) n out →
      WhileRuns cond body vs (n + 1) out

/-- The function a `get_attr` argument of a higher-order operation refers to. -/
def FuncIs (env : Env) (a : Arg) (f : String) : Prop :=
  ∃ r n t, a = .node r ∧ nodeOf env r = some n ∧ n.op = .getAttr t ∧ env.funcOf t = some (some f)

/-- An entry of a tuple as an argument. -/
def elemArg : Elem → Arg
  | .node r => .node r
  | .lit l => .lit l
  | .nested => .tuple []

/-- The carried arguments with tuples expanded. -/
def flatCarries (carries : List Arg) : List Arg :=
  carries.flatMap fun a => match a with
    | .tuple xs => xs.map elemArg
    | a => [a]

/-- Number of results of a `while_loop` node according to its metadata. -/
def whileResults (node : Node) : Nat := if node.valTys.length > 1 then node.valTys.length else 1

/-- The contiguous operations `code` were emitted for the `while_loop` node `i` with condition
function `c`, body function `b` and carried arguments `carries`: executed in any memory in which the
carried arguments have the values `vs`, as many as the loop has results, they leave in the results of
the node what Python's `while` computes, provided the loop makes at most 2^63 - 1 iterations. -/
def WhileCode (s : St) (i : Nat) (c b : String) (xs : List Nat) (node : Node) (code : List Op) :
    Prop :=
  ∀ (V : Type) (F : String → List V → Option (List V)) (truth : V → Bool)
    (cond : List V → Bool) (body : List V → List V) (μ : Mem V) (vs out : List V) (n : Nat),
    (∀ ws : List V, ws.length = vs.length → ∃ t, F c ws = some [t] ∧ truth t = cond ws) →
    (∀ ws : List V, ws.length = vs.length → F b ws = some (body ws) ∧ (body ws).length = vs.length) →
    vs.length = whileResults node → List.Forall₂ (fun x v => μ x = some (.carried v)) xs vs →
    WhileRuns cond body vs n out → n ≤ 2 ^ 63 - 1 →
    ∃ μ', runOps F truth μ code = some μ' ∧
      ∀ (k : Nat) v, out[k]? = some v → ∃ y, dictGet s.v (.ref (.graph i) (k : Int)) = some (.val y) ∧
        μ' y = some (.carried v)

end Verif.Fx.Spec
