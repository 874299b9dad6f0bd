import Verif.Lemmas.TmScan

/-!
# C79: scans
-/

namespace Verif

open Tm

/-- C79: `tm_tensor.scan` with any region: along the dimension, the output at place `k` combines the input's elements up to `k`
from the left (inclusive), or the accumulator's element and the input's elements before `k` (exclusive).  What the output held
before does not matter. -/
theorem C79_scan {E : Type} (f : E → E → E) (inclusive : Bool) (d n : Nat) (sizes : List Nat) (hn : sizes[d]? = some n)
    (input output acc : List Nat → E) (o : List Nat) (ho : InBox (sizes.eraseIdx d) o) (k : Nat) (hk : k < n) :
    (scan f inclusive d sizes input output acc).1 (o.insertIdx d k)
      = if inclusive then upTo f (fun i => input (o.insertIdx d i)) k
        else before f (acc o) (fun i => input (o.insertIdx d i)) k := by
  have h := congrFun (congrArg Prod.fst (scan_lane f inclusive d n sizes hn input output acc o ho)) k
  simp only [if_pos hk] at h
  exact h

/-- C79: afterwards the accumulator has the last elements of the output, if there are two or more along the dimension. -/
theorem C79_accumulator_partial {E : Type} (f : E → E → E) (inclusive : Bool) (d n : Nat) (sizes : List Nat) (hn : sizes[d]? = some n)
    (h2 : 2 ≤ n) (input output acc : List Nat → E) (o : List Nat) (ho : InBox (sizes.eraseIdx d) o) :
    (scan f inclusive d sizes input output acc).2 o = (scan f inclusive d sizes input output acc).1 (o.insertIdx d (n - 1)) := by
  have h := scan_lane f inclusive d n sizes hn input output acc o ho
  have h1 := congrFun (congrArg Prod.fst h) (n - 1)
  have h3 := congrArg Prod.snd h
  simp only [if_pos (show n - 1 < n by omega)] at h1
  simp only [if_neg (show ¬ n ≤ 1 by omega)] at h3
  rw [h3]
  exact h1.symm

/-- C79, violated: with one element along the dimension an inclusive scan leaves the accumulator as it was, whatever the input. -/
theorem C79_violated_accumulator {E : Type} (f : E → E → E) (d : Nat) (sizes : List Nat) (hn : sizes[d]? = some 1)
    (input output acc : List Nat → E) (o : List Nat) (ho : InBox (sizes.eraseIdx d) o) (hne : acc o ≠ input (o.insertIdx d 0)) :
    (scan f true d sizes input output acc).2 o ≠ (scan f true d sizes input output acc).1 (o.insertIdx d 0) := by
  have h := scan_lane f true d 1 sizes hn input output acc o ho
  have h1 := congrFun (congrArg Prod.fst h) 0
  have h3 := congrArg Prod.snd h
  simp only [if_pos Nat.zero_lt_one] at h1
  simp only [if_pos (Nat.le_refl 1)] at h3
  rw [h3]
  intro e
  exact hne (e.trans h1)

/-- C79: nothing else is written. -/
theorem C79_frame {E : Type} (f : E → E → E) (inclusive : Bool) (d n : Nat) (sizes : List Nat) (hn : sizes[d]? = some n)
    (input output acc : List Nat → E) :
    (∀ idx, ¬ InBox sizes idx → (scan f inclusive d sizes input output acc).1 idx = output idx) ∧
    (∀ o, ¬ InBox (sizes.eraseIdx d) o → (scan f inclusive d sizes input output acc).2 o = acc o) :=
  scan_frame f inclusive d n sizes hn input output acc

/-- C79: `aten.cumsum` and `aten.cumprod` are defined for the dimensions of the tensor. -/
theorem C79_aten_defined {E : Type} (op : E → E → E) (init : E) (sizes : List Nat) (dim : Int) (input : List Nat → E) :
    (atenCum op init sizes dim input).isSome = true ↔ -(sizes.length : Int) ≤ dim ∧ dim < sizes.length := by
  have hv : validDim (positiveDim dim sizes.length) sizes.length = true ↔ -(sizes.length : Int) ≤ dim ∧ dim < sizes.length := by
    unfold validDim positiveDim
    rw [decide_eq_true_iff]
    split <;> omega
  rw [← hv]
  unfold atenCum
  dsimp only
  by_cases h : validDim (positiveDim dim sizes.length) sizes.length = true
  · rw [if_pos h]; simp [h]
  · rw [if_neg h]; simp [h]

/-- C79: in each lane, place `k` of the result is the elements up to `k` combined from the left (no rounding is left out for
floats, where the order of the additions matters). -/
theorem C79_aten {E : Type} (op : E → E → E) (init : E) (sizes : List Nat) (dim : Int) (d n : Nat)
    (hd : dim = d ∨ dim = (d : Int) - sizes.length) (hn : sizes[d]? = some n) (input : List Nat → E) :
    ∃ out, atenCum op init sizes dim input = some out ∧
      ∀ o, InBox (sizes.eraseIdx d) o → ∀ k, k < n → out (o.insertIdx d k) = upTo op (fun i => input (o.insertIdx d i)) k := by
  have hdl : d < sizes.length := (List.getElem?_eq_some_iff.1 hn).1
  have hpos : positiveDim dim sizes.length = d := by
    unfold positiveDim
    rcases hd with rfl | rfl
    · rw [if_pos (by omega)]
    · rw [if_neg (by omega)]; omega
  refine ⟨(scan (fun a b => op a b) true d sizes input (fun _ => init) (fun _ => init)).1, ?_, fun o ho k hk => ?_⟩
  · unfold atenCum
    simp only [hpos]
    rw [if_pos (show validDim (d : Int) sizes.length = true from decide_eq_true (by omega))]
    rfl
  · rw [C79_scan _ true d n sizes hn _ _ _ o ho k hk]
    rfl

/-- C79: for integers of `w` bits, `aten.cumsum` gives the sums of the elements up to each place, modulo `2 ^ w`. -/
theorem C79_cumsum (w : Nat) (sizes : List Nat) (dim : Int) (d n : Nat) (hd : dim = d ∨ dim = (d : Int) - sizes.length)
    (hn : sizes[d]? = some n) (input : List Nat → BitVec w) :
    ∃ out, atenCum (· + ·) 0 sizes dim input = some out ∧
      ∀ o, InBox (sizes.eraseIdx d) o → ∀ k, k < n →
        out (o.insertIdx d k) = BitVec.ofInt w ((List.range (k + 1)).map fun i => (input (o.insertIdx d i)).toInt).sum := by
  obtain ⟨out, h1, h2⟩ := C79_aten (· + ·) (0 : BitVec w) sizes dim d n hd hn input
  refine ⟨out, h1, fun o ho k hk => ?_⟩
  rw [h2 o ho k hk]
  clear hk h1 h2
  induction k with
  | zero => simp [upTo]
  | succ k ih =>
    rw [upTo_succ, ih, List.range_succ (n := k + 1), List.map_append, List.sum_append, BitVec.ofInt_add]
    simp

/-- C79: and `aten.cumprod` the products. -/
theorem C79_cumprod (w : Nat) (sizes : List Nat) (dim : Int) (d n : Nat) (hd : dim = d ∨ dim = (d : Int) - sizes.length)
    (hn : sizes[d]? = some n) (input : List Nat → BitVec w) :
    ∃ out, atenCum (· * ·) 1 sizes dim input = some out ∧
      ∀ o, InBox (sizes.eraseIdx d) o → ∀ k, k < n →
        out (o.insertIdx d k)
          = BitVec.ofInt w (((List.range (k + 1)).map fun i => (input (o.insertIdx d i)).toInt).foldl (· * ·) 1) := by
  obtain ⟨out, h1, h2⟩ := C79_aten (· * ·) (1 : BitVec w) sizes dim d n hd hn input
  refine ⟨out, h1, fun o ho k hk => ?_⟩
  rw [h2 o ho k hk]
  clear hk h1 h2
  induction k with
  | zero => simp [upTo]
  | succ k ih =>
    rw [upTo_succ, ih, List.range_succ (n := k + 1), List.map_append, List.foldl_append, List.map_cons, List.map_nil,
      List.foldl_cons, List.foldl_nil, BitVec.ofInt_mul, BitVec.ofInt_toInt]

/-! The hypotheses can be met. -/

/-- `[[1, 2, 3], [4, 5, 6]]`, inclusive and exclusive sums along the last dimension; the accumulator is `[10, 20]`. -/
example :
    let input : List Nat → Int := fun idx => ((3 * idx.headD 0 + idx[1]?.getD 0 + 1 : Nat) : Int)
    let acc : List Nat → Int := fun idx => 10 * idx.headD 0 + 10
    let incl := scan (· + ·) true 1 [2, 3] input (fun _ => 99) acc
    let excl := scan (· + ·) false 1 [2, 3] input (fun _ => 99) acc
    lane incl.1 1 3 [0] = [1, 3, 6] ∧ lane incl.1 1 3 [1] = [4, 9, 15] ∧ incl.2 [1] = 15 ∧
    lane excl.1 1 3 [0] = [10, 11, 13] ∧ lane excl.1 1 3 [1] = [20, 24, 29] ∧ excl.2 [1] = 29 ∧ InBox ([2, 3].eraseIdx 1) [1] := by
  refine ⟨?_, ?_, ?_, ?_, ?_, ?_, ?_⟩ <;> decide +kernel

/-- One element: the accumulator is not written. -/
example : (scan (· + ·) true 0 [1] (fun _ => (5 : Int)) (fun _ => 0) (fun _ => 0)).2 [] = 0 ∧
    (scan (· + ·) true 0 [1] (fun _ => (5 : Int)) (fun _ => 0) (fun _ => 0)).1 [0] = 5 := by
  refine ⟨?_, ?_⟩ <;> decide +kernel

/-- int8: 100 + 100 wraps. -/
example : ∃ out, atenCum (· + ·) (0 : BitVec 8) [2] (-1) (fun _ => 100) = some out ∧ out [1] = 200 ∧ (out [1]).toInt = -56 :=
  ⟨_, rfl, by decide +kernel, by decide +kernel⟩

end Verif
