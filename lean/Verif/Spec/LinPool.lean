import Verif.Model.LinPool
import Verif.Spec.LinView

/-! # Poolings -/

namespace Verif.Pool

open Lin

variable {E : Type}

/-- The elements of a tensor are those of `val`. -/
def Holds (x : Tensor E) (val : List Int → E) : Prop := ∀ idx, inRange x.sizes idx = true → x.elem idx = some (val idx)

/-- The parameters torch accepts. -/
def Axis.Good (p : Axis) (n : Int) : Prop :=
  0 < p.kernel ∧ 0 < p.stride ∧ 0 < p.dilation ∧ 0 ≤ p.low ∧ 0 ≤ p.high ∧ p.high ≤ p.dilation * (p.kernel - 1) + 1 ∧ 0 ≤ n ∧
  p.dilation * (p.kernel - 1) < n + p.low + p.high ∧ n + p.low + p.high + p.stride < 2 ^ 63

/-- The places of a window: it lies in the padded dimension; with `ceil` it may stick out, if the one before it does not reach the end, but must
start in the input or in the padding before it. -/
def IsPlace (ceil : Bool) (n : Int) (p : Axis) (o : Int) : Prop :=
  0 ≤ o ∧ if ceil then o * p.stride + p.dilation * (p.kernel - 1) + 1 < n + p.low + p.high + p.stride ∧ o * p.stride < n + p.low
    else o * p.stride + p.dilation * (p.kernel - 1) < n + p.low + p.high

/-- There is a result for every place of a window. -/
def HasPlaces (ceil : Bool) (ns : List Int) (ps : List Axis) (outs : List Int) : Prop :=
  outs.length = ps.length ∧ ∀ (d : Nat) (n : Int) (p : Axis) (m : Int), ns[d]? = some n → ps[d]? = some p → outs[d]? = some m →
    ∀ o, (0 ≤ o ∧ o < m) ↔ IsPlace ceil n p o

/-- The positions of a dimension of size `n` that the window at place `o` sees. -/
def seen (n : Int) (p : Axis) (o : Int) : List Int :=
  ((List.range p.kernel.toNat).map fun (k : Nat) => o * p.stride - p.low + k * p.dilation).filter fun i => decide (0 ≤ i ∧ i < n)

/-- The positions that a window sees, in row-major order. -/
def window : List Int → List Axis → List Int → List (List Int)
  | n :: ns, p :: ps, o :: os => (seen n p o).flatMap fun i => (window ns ps os).map (i :: ·)
  | _, _, _ => [[]]

/-- The positions of a dimension that a window sees, or would see if it were padded: those before the end of the padding. -/
def counted (includePad : Bool) (n : Int) (p : Axis) (o : Int) : Int :=
  if includePad then (((List.range p.kernel.toNat).map fun (k : Nat) => o * p.stride + k * p.dilation).filter fun i => decide (i < n + p.low + p.high)).length
  else (seen n p o).length

/-- What the sum over a window is divided by. -/
def count (includePad : Bool) : List Int → List Axis → List Int → Int
  | n :: ns, p :: ps, o :: os => counted includePad n p o * count includePad ns ps os
  | _, _, _ => 1

/-- The positions of a dimension of size `n` that belong to part `o` of `out` equal parts: those that overlap with it. -/
def part (n out o : Int) : List Int :=
  ((List.range n.toNat).map fun (i : Nat) => (i : Int)).filter fun i => decide (i * out < (o + 1) * n ∧ o * n < (i + 1) * out)

/-- The positions that belong to a part in every dimension, in row-major order. -/
def parts : List Int → List Int → List Int → List (List Int)
  | n :: ns, out :: outs, o :: os => (part n out o).flatMap fun i => (parts ns outs os).map (i :: ·)
  | _, _, _ => [[]]

/-- `m` is the greatest value of the list, or `lo` if it is empty. -/
def IsMax [LE E] (lo m : E) (l : List E) : Prop := (∀ e ∈ l, e ≤ m) ∧ (m ∈ l ∨ m = lo ∧ l = [])

/-- The first of the positions where the value is `m`. -/
def IsFirst (val : List Int → E) (m : E) (is : List (List Int)) (i : List Int) : Prop :=
  ∃ a b, is = a ++ i :: b ∧ val i = m ∧ ∀ j ∈ a, val j ≠ m

/-- Numbers with what floats have besides: something that is not a number, and something below all numbers. -/
inductive Fl where
  | nan
  | low
  | num (i : Int)
  deriving DecidableEq

/-- `arith.maximumf`: what is not a number wins. -/
def Fl.max : Fl → Fl → Fl
  | .nan, _ => .nan
  | _, .nan => .nan
  | .low, b => b
  | a, .low => a
  | .num i, .num j => .num (if i < j then j else i)

/-- `arith.cmpf oeq`: what is not a number equals nothing. -/
def Fl.oeq : Fl → Fl → Bool
  | .nan, _ => false
  | a, b => decide (a = b)

/-- `arith.cmpf ogt`: what is not a number is not greater than anything. -/
def Fl.ogt : Fl → Fl → Bool
  | .num _, .low => true
  | .num i, .num j => decide (j < i)
  | _, _ => false

end Verif.Pool
