import Verif.Model.Reporting

/-!
# What a test report should say

Only the data types of the model are used here, none of its functions.
-/

namespace Verif.Report

/-- Two floats agree: the same (NaN with NaN, an infinity with itself) or within a ten-thousandth of the
golden one. -/
def FloatClose (v g : Fl) : Prop :=
  v = g ∨ ∃ a b : Rat, v = .fin a ∧ g = .fin b ∧ (a - b).abs ≤ 1 / 10000 * b.abs

/-- Two tensor elements agree: the same, or within a thousandth of the golden one plus `1e-7`. -/
def ElemClose (v g : Fl) : Prop :=
  v = g ∨ ∃ a b : Rat, v = .fin a ∧ g = .fin b ∧ (a - b).abs ≤ 1 / 10000000 + 1 / 1000 * b.abs

/-- A tuple of one element counts as that element. -/
def bare (v : Val) : Val :=
  match v with
  | .tuple l => if l.length = 1 then l.headD v else v
  | _ => v

/-- Python's integers include the booleans. -/
def number (v : Val) : Option Int :=
  match v with
  | .int n => some n
  | .bool true => some 1
  | .bool false => some 0
  | _ => none

/-- The value `v` equals the golden value `g` within tolerance. -/
inductive Same : Val → Val → Prop where
  | float {x y : Fl} : FloatClose x y → Same (.float x) (.float y)
  | int {v g : Val} {n : Int} : number v = some n → number g = some n → Same v g
  | str (s : String) : Same (.str s) (.str s)
  | tuple {vs gs : List Val} : vs.length = gs.length →
      (∀ (i : Nat) (v g : Val), vs[i]? = some v → gs[i]? = some g → Same (bare v) (bare g)) →
      Same (.tuple vs) (.tuple gs)
  | list {vs gs : List Val} : vs.length = gs.length →
      (∀ (i : Nat) (v g : Val), vs[i]? = some v → gs[i]? = some g → Same (bare v) (bare g)) →
      Same (.list vs) (.list gs)
  | dict {vd gd : List (String × Val)} :
      (∀ k : String, k ∈ vd.map Prod.fst ↔ k ∈ gd.map Prod.fst) →
      (∀ (k : String) (v g : Val), dictGet vd k = some v → dictGet gd k = some g →
        Same (bare v) (bare g)) →
      Same (.dict vd) (.dict gd)
  | tensor {t u : Tensor} : t.shape = u.shape → t.dtype = u.dtype →
      (∀ i : Nat, i < u.shape.foldr (· * ·) 1 → ElemClose (t.elem i) (u.elem i)) →
      Same (.tensor t) (.tensor u)

/-- Equality within tolerance, tuples of one being their element. -/
def Agree (v g : Val) : Prop := Same (bare v) (bare g)

/-- Two lists of values agree position by position. -/
def AgreeAll (vs gs : List Val) : Prop :=
  vs.length = gs.length ∧
    ∀ (i : Nat) (v g : Val), vs[i]? = some v → gs[i]? = some g → Agree v g

/-- The same call with the same results. -/
def SameCall (t g : TraceItem) : Prop :=
  t.symbol = g.symbol ∧ AgreeAll t.inputs g.inputs ∧ Agree t.output g.output

/-- The same calls position by position. -/
def SameCalls (ts gs : List TraceItem) : Prop :=
  ∀ (i : Nat) (t g : TraceItem), ts[i]? = some t → gs[i]? = some g → SameCall t g

/-- The same calls in the same order, none missing. -/
def SameTrace (ts gs : List TraceItem) : Prop := ts.length = gs.length ∧ SameCalls ts gs

/-- Every float in the value satisfies `p`, and dictionaries have distinct keys. -/
inductive Floats (p : Fl → Prop) : Val → Prop where
  | float {x : Fl} : p x → Floats p (.float x)
  | int (n : Int) : Floats p (.int n)
  | bool (b : Bool) : Floats p (.bool b)
  | str (s : String) : Floats p (.str s)
  | tensor (t : Tensor) : Floats p (.tensor t)
  | other (c : String) : Floats p (.other c)
  | tuple {l : List Val} : (∀ v ∈ l, Floats p v) → Floats p (.tuple l)
  | list {l : List Val} : (∀ v ∈ l, Floats p v) → Floats p (.list l)
  | dict {d : List (String × Val)} : (d.map Prod.fst).Nodup → (∀ e ∈ d, Floats p e.2) →
      Floats p (.dict d)

/-- A finite number above zero. -/
def Positive (x : Fl) : Prop := ∃ q : Rat, x = .fin q ∧ 0 < q

/-- All values of a trace satisfy `P`. -/
def TraceAll (P : Val → Prop) (ts : List TraceItem) : Prop :=
  ∀ t ∈ ts, (∀ v ∈ t.inputs, P v) ∧ P t.output

/-- The compiled trace can be judged: golden scalars are positive, compiled scalars are not NaN. -/
def Judgeable (r : TestResult) : Prop :=
  TraceAll (Floats (· ≠ .nan)) r.trace ∧ TraceAll (Floats Positive) r.goldenTrace

/-- Neither the compilation nor the run reported an error. -/
def NoError (r : TestResult) : Prop := r.compilationError = none ∧ r.runtimeError = none

/-- `r` is unexpected: it failed and should not, or passed and should not. -/
def Unexpected (failed : TestResult → Bool) (expected : List String) (r : TestResult) : Prop :=
  failed r = true ∧ r.name ∉ expected ∨ failed r = false ∧ r.name ∈ expected

/-- The outcome a result belongs under. -/
def Belongs (failed : TestResult → Bool) (expected : List String) (r : TestResult) : Outcome → Prop
  | .pass => failed r = false ∧ r.name ∉ expected
  | .fail => failed r = true ∧ r.name ∉ expected
  | .xfail => failed r = true ∧ r.name ∈ expected
  | .xpass => failed r = false ∧ r.name ∈ expected

/-- The verdict lines among the printed ones. -/
def verdicts (ls : List Line) : List (Outcome × String) :=
  ls.filterMap fun l => match l with
    | .verdict o n => some (o, n)
    | _ => none

/-- The lines under the headings. -/
def entries (ls : List Line) : List (Outcome × String) :=
  ls.filterMap fun l => match l with
    | .entry o n => some (o, n)
    | _ => none

/-- The totals at the end. -/
def totals (ls : List Line) : List (Outcome × Nat) :=
  ls.filterMap fun l => match l with
    | .total o n => some (o, n)
    | _ => none

end Verif.Report
