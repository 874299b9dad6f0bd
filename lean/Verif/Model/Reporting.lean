import Verif.Py.Basic
import Verif.Py.Loop
import Verif.Py.Sort

/-!
# Model of the end-to-end test report

Source: `projects/pt1/python/torch_mlir_e2e_test/reporting.py` (all of it except the formatting of
messages) and `projects/pt1/e2e_testing/main.py` lines 204-241.

Simplifications: floats are NaN, the infinities and rational numbers with exact arithmetic (no rounding,
no overflow; `1e-4` and the other literals are the decimal numbers, `-0.0` is `0.0`); a tensor is its shape, the
name of its dtype and its elements in row-major order, each read as such a number (complex and
quantised tensors are not modelled); dictionary keys are strings; a message is the kind of mismatch
with the chain of contexts.  Numbers of other Python classes, `None` and everything else is `other`
with its class name.
-/

namespace Verif.Report

/-- A Python `float` (and an element of a tensor converted to one). -/
inductive Fl where
  | nan
  | inf (negative : Bool)
  | fin (q : Rat)
  deriving DecidableEq

/-- `a - b` -/
def Fl.sub : Fl → Fl → Fl
  | .nan, _ => .nan
  | _, .nan => .nan
  | .inf a, .inf b => if a = b then .nan else .inf a
  | .inf a, .fin _ => .inf a
  | .fin _, .inf b => .inf (!b)
  | .fin a, .fin b => .fin (a - b)

/-- `abs(a)` -/
def Fl.abs : Fl → Fl
  | .nan => .nan
  | .inf _ => .inf false
  | .fin a => .fin a.abs

/-- `a / b`: Python raises for a zero divisor, whatever the dividend. -/
def Fl.div : Fl → Fl → Py Fl
  | a, .fin b => if b = 0 then .error .zeroDivision else
      match a with
      | .nan => .ok .nan
      | .inf n => .ok (.inf (n != decide (b < 0)))
      | .fin a => .ok (.fin (a / b))
  | .nan, _ => .ok .nan
  | _, .nan => .ok .nan
  | .inf _, .inf _ => .ok .nan
  | .fin _, .inf _ => .ok (.fin 0)

/-- `a > b`: false if either is NaN. -/
def Fl.gt : Fl → Fl → Bool
  | .nan, _ => false
  | _, .nan => false
  | .inf a, .inf b => !a && b
  | .inf a, .fin _ => !a
  | .fin _, .inf b => b
  | .fin a, .fin b => decide (b < a)

/-- `abs(value - golden) / golden > 1e-4` (line 85) -/
def floatFar (value golden : Fl) : Py Bool := do
  let r ← (value.sub golden).abs.div golden
  .ok (r.gt (.fin (1 / 10000)))

/-- A tensor; `elem i` is the `i`-th element in row-major order. -/
structure Tensor where
  shape : List Nat
  dtype : String
  elem : Nat → Fl

/-- `t.numel()` -/
def Tensor.numel (t : Tensor) : Nat := t.shape.foldr (· * ·) 1

/-- One element of `torch.isclose(…, rtol=1e-03, atol=1e-07, equal_nan=True)`. -/
def isClose (value golden : Fl) : Bool :=
  match value, golden with
  | .nan, .nan => true
  | .inf a, .inf b => a == b
  | .fin v, .fin g => decide ((v - g).abs ≤ 1 / 10000000 + (1 / 1000 * g).abs)
  | _, _ => false

/-- `torch.allclose(value, golden, rtol=1e-03, atol=1e-07, equal_nan=True)` for equal shapes. -/
def allClose (value golden : Tensor) : Bool :=
  (List.range golden.numel).all fun i => isClose (value.elem i) (golden.elem i)

/-- The Python values the framework compares (`TorchScriptValue`, framework.py lines 43-49, and
everything else as `other`). -/
inductive Val where
  | float (x : Fl)
  | int (n : Int)
  | bool (b : Bool)
  | str (s : String)
  | tuple (l : List Val)
  | list (l : List Val)
  | dict (d : List (String × Val))
  | tensor (t : Tensor)
  | other (cls : String)

/-- A link of the chain of contexts (lines 114, 129, 149, 227, 234, 258). -/
inductive Ctx where
  | tupleElement (i : Nat)
  | listElement (i : Nat)
  | dictElement (k : String)
  | input (i : Nat) (symbol : String)
  | output (symbol : String)
  | traceItem (i : Nat) (symbol : String)
  deriving DecidableEq, Repr

/-- The kinds of failure (lines 84-178, 210-219). -/
inductive Why where
  | type (expected : String)
  | notClose | notEqual | length | keys | shape | dtype | unexpectedGolden
  | symbol | inputCount
  deriving DecidableEq, Repr

/-- One failure reason: where and what (`ErrorContext.format_error`, lines 55-56). -/
structure Reason where
  context : List Ctx
  why : Why
  deriving DecidableEq, Repr

/-- `if isinstance(value, tuple) and len(value) == 1: value = value[0]` (lines 78-81) -/
def unwrap : Val → Val
  | .tuple [x] => x
  | v => v

/-- Comparing with one golden value: the value and the chain of contexts give the failure reasons. -/
abbrev Checker := Val → List Ctx → Py (List Reason)

/-- `isinstance(v, int)` and the number; `bool` is a subclass of `int`. -/
def asInt : Val → Option Int
  | .int n => some n
  | .bool b => some (if b then 1 else 0)
  | _ => none

/-- Lines 82-89. -/
def checkFloat (golden : Fl) : Checker := fun value c =>
  match value with
  | .float x => do
      let far ← floatFar x golden
      if far then .ok [⟨c, .notClose⟩] else .ok []
  | _ => .ok [⟨c, .type "float"⟩]

/-- Lines 90-97. -/
def checkInt (golden : Int) : Checker := fun value c =>
  match asInt value with
  | some n => if n = golden then .ok [] else .ok [⟨c, .notEqual⟩]
  | none => .ok [⟨c, .type "int"⟩]

/-- Lines 98-105. -/
def checkStr (golden : String) : Checker := fun value c =>
  match value with
  | .str s => if s = golden then .ok [] else .ok [⟨c, .notEqual⟩]
  | _ => .ok [⟨c, .type "str"⟩]

/-- `[ValueReport(v, g, context.chain(… i)) for i, (v, g) in enumerate(zip(value, golden))]`, all
reasons appended (lines 113-119, 128-134). -/
def checkItems (link : Nat → Ctx) (c : List Ctx) : Nat → List Val → List Checker → Py (List Reason)
  | i, v :: vs, f :: fs => do
      let r ← f v (c ++ [link i])
      let rs ← checkItems link c (i + 1) vs fs
      .ok (r ++ rs)
  | _, _, _ => .ok []

/-- Lines 106-120. -/
def checkTuple (golden : List Checker) : Checker := fun value c =>
  match value with
  | .tuple l =>
      if l.length ≠ golden.length then .ok [⟨c, .length⟩]
      else checkItems .tupleElement c 0 l golden
  | _ => .ok [⟨c, .type "tuple"⟩]

/-- Lines 121-135. -/
def checkList (golden : List Checker) : Checker := fun value c =>
  match value with
  | .list l =>
      if l.length ≠ golden.length then .ok [⟨c, .length⟩]
      else checkItems .listElement c 0 l golden
  | _ => .ok [⟨c, .type "list"⟩]

/-- `sorted(d.keys())` -/
def sortedKeys {ν : Type} (d : List (String × ν)) : List String :=
  sortBy (fun a b => decide (a ≤ b)) (d.map (·.1))

/-- `d[k]` -/
def lookup {ν : Type} (d : List (String × ν)) (k : String) : Py ν :=
  match dictGet d k with
  | some v => .ok v
  | none => .error .keyError

/-- Body of the comprehension over the keys (lines 146-150). -/
def checkKey (value : List (String × Val)) (golden : List (String × Checker)) (c : List Ctx)
    (k : String) : Py (List Reason) := do
  let v ← lookup value k
  let f ← lookup golden k
  f v (c ++ [.dictElement k])

/-- Lines 136-156. -/
def checkDict (golden : List (String × Checker)) : Checker := fun value c =>
  match value with
  | .dict d =>
      if sortedKeys golden ≠ sortedKeys d then .ok [⟨c, .keys⟩]
      else do
        let rs ← pyMap (checkKey d golden c) (sortedKeys golden)
        .ok rs.flatten
  | _ => .ok [⟨c, .type "dict"⟩]

/-- Lines 157-175. -/
def checkTensor (golden : Tensor) : Checker := fun value c =>
  match value with
  | .tensor t =>
      if t.shape ≠ golden.shape then .ok [⟨c, .shape⟩]
      else if t.dtype ≠ golden.dtype then .ok [⟨c, .dtype⟩]
      else if allClose t golden then .ok []
      else .ok [⟨c, .notClose⟩]
  | _ => .ok [⟨c, .type "torch.Tensor"⟩]

mutual
/-- `ValueReport._evaluate_outcome` (lines 82-178) for a golden value and a value that have been
unwrapped already. -/
def check : Val → Checker
  | .float g => checkFloat g
  | .int g => checkInt g
  | .bool g => checkInt (if g then 1 else 0)
  | .str g => checkStr g
  | .tuple l => checkTuple (checkers l)
  | .list l => checkList (checkers l)
  | .dict d => checkDict (fieldCheckers d)
  | .tensor g => checkTensor g
  | .other _ => fun _ c => .ok [⟨c, .unexpectedGolden⟩]

/-- `ValueReport` for every element of a golden list; lines 78-81 unwrap both sides. -/
def checkers : List Val → List Checker
  | [] => []
  | .tuple [g] :: gs => (fun v => check g (unwrap v)) :: checkers gs
  | g :: gs => (fun v => check g (unwrap v)) :: checkers gs

/-- `ValueReport` for every value of a golden dictionary. -/
def fieldCheckers : List (String × Val) → List (String × Checker)
  | [] => []
  | (k, .tuple [g]) :: gs => (k, fun v => check g (unwrap v)) :: fieldCheckers gs
  | (k, g) :: gs => (k, fun v => check g (unwrap v)) :: fieldCheckers gs
end

/-- `ValueReport(value, golden, context).failure_reasons` (lines 59-186). -/
def valueReport (value golden : Val) (c : List Ctx) : Py (List Reason) :=
  check (unwrap golden) (unwrap value) c

/-- `TraceItem` (framework.py lines 52-64) -/
structure TraceItem where
  symbol : String
  inputs : List Val
  output : Val

/-- The loop over the inputs (lines 221-230): one entry per failing input. -/
def inputReports (symbol : String) (c : List Ctx) : Nat → List Val → List Val → Py (List (List Reason))
  | i, v :: vs, g :: gs => do
      let r ← valueReport v g (c ++ [.input i symbol])
      let rs ← inputReports symbol c (i + 1) vs gs
      .ok (if r = [] then rs else r :: rs)
  | _, _, _ => .ok []

/-- `[x] if failed else []` -/
def oneIf (b : Bool) (r : Reason) : List (List Reason) := if b then [[r]] else []

/-- `TraceItemReport(…).failure_reasons` (lines 208-237); the text of one entry is a list of reasons. -/
def itemReport (item golden : TraceItem) (c : List Ctx) : Py (List (List Reason)) := do
  let inputs ← inputReports item.symbol c 0 item.inputs golden.inputs
  let out ← valueReport item.output golden.output (c ++ [.output item.symbol])
  .ok (oneIf (item.symbol != golden.symbol) ⟨c, .symbol⟩
    ++ oneIf (item.inputs.length != golden.inputs.length) ⟨c, .inputCount⟩
    ++ inputs ++ (if out = [] then [] else [out]))

/-- `TestResult` (framework.py lines 237-261) -/
structure TestResult where
  name : String
  compilationError : Option String
  runtimeError : Option String
  trace : List TraceItem
  goldenTrace : List TraceItem

/-- The loop over the trace (lines 251-260). -/
def itemReports : Nat → List TraceItem → List TraceItem → Py (List (List (List Reason)))
  | i, t :: ts, g :: gs => do
      let r ← itemReport t g [.traceItem i t.symbol]
      let rs ← itemReports (i + 1) ts gs
      .ok (r :: rs)
  | _, _, _ => .ok []

/-- `SingleTestReport(result, ErrorContext.empty()).failed` (lines 245-268). -/
def testFailed (r : TestResult) : Py Bool :=
  if r.compilationError.isSome then .ok true
  else if r.runtimeError.isSome then .ok true
  else do
    let reports ← itemReports 0 r.trace r.goldenTrace
    .ok (reports.any fun x => decide (x ≠ []))

/-- The four outcomes. -/
inductive Outcome where
  | pass | fail | xfail | xpass
  deriving DecidableEq, Repr

/-- Lines printed by `report_results`; the error text is left out. -/
inductive Line where
  | verdict (o : Outcome) (name : String)
  | unexpectedSummary (config : String)
  | heading (o : Outcome) (count : Nat)
  | entry (o : Outcome) (name : String)
  | summary
  | total (o : Outcome) (count : Nat)
  deriving DecidableEq, Repr

/-- Lines 310-324: the outcome of one result. -/
def outcome (failed expected : Bool) : Outcome :=
  if expected then (if failed then .xfail else .xpass)
  else (if !failed then .pass else .fail)

/-- Body of the loop of lines 308-324. -/
def classify (expectedFailures : List String) (r : TestResult) : Py (Outcome × String) := do
  let failed ← testFailed r
  .ok (outcome failed (expectedFailures.contains r.name), r.name)

/-- `results_by_outcome[o]` -/
def byOutcome (rs : List (Outcome × String)) (o : Outcome) : List String :=
  (rs.filter fun r => r.1 = o).map (·.2)

/-- Keys of `results_by_outcome` after line 334, in the order of first use: line 333 touches `FAIL`, and
`XPASS` if there are no `FAIL`s. -/
def outcomeKeys (rs : List (Outcome × String)) : List Outcome :=
  (rs.map Prod.fst ++ [Outcome.fail]
    ++ (if (byOutcome rs .fail).length = 0 then [Outcome.xpass] else [])).eraseDups

/-- Lines 340-352 for one outcome. -/
def section_ (rs : List (Outcome × String)) (o : Outcome) : List Line :=
  if o = .pass ∨ o = .xfail then []
  else if (byOutcome rs o).length = 0 then []
  else .heading o (byOutcome rs o).length :: (byOutcome rs o).map (Line.entry o)

/-- Lines 357-359 for one outcome. -/
def totalLine (rs : List (Outcome × String)) (o : Outcome) : List Line :=
  if byOutcome rs o = [] then [] else [.total o (byOutcome rs o).length]

/-- `had_unexpected_results` (lines 332-334) -/
def hadUnexpected (rs : List (Outcome × String)) : Bool :=
  (byOutcome rs .fail).length != 0 || (byOutcome rs .xpass).length != 0

/-- `report_results` (lines 284-360): the printed lines and the returned flag. -/
def reportResults (results : List TestResult) (expectedFailures : List String) (config : String) :
    Py (List Line × Bool) := do
  let rs ← pyMap (classify expectedFailures) results
  .ok (rs.map (fun r => Line.verdict r.1 r.2)
    ++ (if hadUnexpected rs then [.unexpectedSummary config] else [])
    ++ ((outcomeKeys rs).map (section_ rs)).flatten
    ++ [.summary]
    ++ (([.pass, .fail, .xfail, .xpass] : List Outcome).map (totalLine rs)).flatten,
    hadUnexpected rs)

/-- How the test driver was called and what it found. -/
structure Run where
  /-- names in `GLOBAL_TEST_REGISTRY` -/
  registry : List String
  /-- the value of the long `--crashing_tests…` option, if given -/
  doNotAttempt : Option (List String)
  /-- crashing set of the configuration -/
  crashing : List String
  /-- expected failures of the configuration -/
  xfail : List String
  /-- `re.match(args.filter, name)` -/
  filter : String → Bool
  ignoreFailures : Bool
  config : String

/-- `do_not_attempt` (main.py lines 204-206) -/
def Run.excluded (a : Run) : List String := a.doNotAttempt.getD [] ++ a.crashing

/-- `available_tests` filtered (main.py lines 207-209, 219-221) -/
def Run.selected (a : Run) : List String :=
  (a.registry.filter fun n => !a.excluded.contains n).filter a.filter

/-- `main` from line 204 on: the exit status, given what `run_tests` returns for the selected tests. -/
def mainExit (a : Run) (runTests : List String → List TestResult) : Py Nat :=
  if (a.doNotAttempt.getD []).any fun n => !a.registry.contains n then .ok 1
  else if a.selected.length = 0 then .ok 1
  else do
    let r ← reportResults (runTests a.selected) a.xfail a.config
    if a.ignoreFailures then .ok 0 else .ok (if r.2 then 1 else 0)

end Verif.Report
