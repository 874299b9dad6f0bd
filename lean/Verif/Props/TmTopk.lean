import Verif.Lemmas.TmKth
import Verif.Props.TmSort

/-!
# C81: the best k, and the k-th smallest
-/

namespace Verif

open Tm

/-- C81: if the comparison is a strict order, different elements compare, and the outputs are in order to begin with, then along every
lane the outputs become the first k of what was in them and of the inputs, in order; equal values are ordered by their indices. -/
theorem C81_topk {E : Type} {f : E → E → Bool} {p : E → Prop} (hf : IsStrict p f) (d k n : Nat) (sizes : List Nat)
    (hn : sizes[d]? = some n) (input : Buf E) (idx : Option (Buf Int)) (values : Buf E) (indices : Buf Int) (o : List Nat)
    (ho : InBox (sizes.eraseIdx d) o) (hin : ∀ x ∈ lane input d n o, p x) (hout : ∀ x ∈ lane values d k o, p x)
    (hs : (pairLane values indices d k o).Pairwise fun a b => bestFirst f a b = true) :
    IsBest (bestFirst f)
      (pairLane values indices d k o ++ pairLane input (idx.getD fun ivs => (ivs[d]?.getD 0 : Nat)) d n o)
      (pairLane (topk f d k sizes input idx values indices).1 (topk f d k sizes input idx values indices).2 d k o) := by
  have := topk_best hf d k n sizes hn input idx values indices o ho hin hout hs
  cases idx <;> exact this

/-- C81, of dtypes other than unsigned ones and bool, without NaN, with one zero, and with infinities as fills: the results of
`aten.kthvalue` are the k-th smallest and a place where it is. -/
theorem C81_kth_partial {F : Type} (fc : FloatCmp F) (ff : FloatFill F) (nan : F → Bool) (hf : fc.Ok nan) (hdist : fc.Distinct nan)
    (hff : ff.Ok fc nan) (ty : ElemTy) (hty : ty = .float ∨ ∃ w, 1 ≤ w ∧ ty = .int w .signed) (sizes : List Nat) (dim : Int)
    (d n k : Nat) (hd : dim = d ∨ dim = (d : Int) - sizes.length) (hn : sizes[d]? = some n) (hk : 1 ≤ k) (hkn : k ≤ n)
    (hn31 : n < 2 ^ 31) (input : Buf (Sc F)) :
    ∃ values indices, atenKth fc ff ty sizes dim k input = some (values, indices) ∧
      ∀ o, InBox (sizes.eraseIdx d) o → (∀ x ∈ lane input d n o, Plain nan ty x) →
        IsKth (torchLe fc.ole nan ty) k (lane input d n o) (values o) (indices o) :=
  atenKth_lane fc ff nan hf hdist hff ty hty sizes dim d n k hd hn hk hkn hn31 input

/-- C81: the pattern applies to integers and floats, and to dimensions from `-rank` to `rank - 1`, and to nothing else. -/
theorem C81_defined {F : Type} (fc : FloatCmp F) (ff : FloatFill F) (ty : ElemTy) (sizes : List Nat) (dim : Int) (k : Nat)
    (input : Buf (Sc F)) :
    (atenKth fc ff ty sizes dim k input).isSome = true ↔ ty ≠ .other ∧ -(sizes.length : Int) ≤ dim ∧ dim < sizes.length := by
  unfold atenKth
  have hv : validDim (positiveDim dim sizes.length) sizes.length = true ↔ -(sizes.length : Int) ≤ dim ∧ dim < sizes.length := by
    unfold validDim positiveDim
    rw [decide_eq_true_iff]
    split <;> omega
  dsimp only
  split
  · next h =>
    have h := hv.1 h
    cases ty with
    | other => simp [compareOp, ElemTy.toBackend]
    | int w s => simpa [compareOp, ElemTy.toBackend] using h
    | float => simpa [compareOp, ElemTy.toBackend] using h
  · next h =>
    have h := fun h' => h (hv.2 h')
    simp only [Option.isSome_none, Bool.false_eq_true, false_iff]
    exact fun h' => h h'.2

/-- Floats to test with: 0 and 6 are the infinities, 7 is NaN. -/
def C81_floats : FloatCmp (Fin 8) := ⟨fun a b => decide (a ≤ b ∧ b < 7), fun a b => decide (a < b ∧ b < 7)⟩

def C81_nan (a : Fin 8) : Bool := decide (a = 7)

def C81_fill : FloatFill (Fin 8) := ⟨6, 0⟩

theorem kth_mem {T : Type} {le : T → T → Bool} {k : Nat} {l : List T} {v : T} {i : Int} (h : IsKth le k l v i) : v ∈ l := by
  obtain ⟨⟨j, -, hj⟩, -, -⟩ := h
  exact List.mem_of_getElem? hj

/-- C81, violated: unsigned values are compared as signed with the fill, which is then −1: of `[3, 5]` of dtype uint8 the smallest is
said to be 255, at place 2147483647. -/
theorem C81_violated_unsigned : ∃ values indices,
    atenKth C81_floats C81_fill (.int 8 .unsigned) [2] 0 1 (C78_vec [.bits 3, .bits 5]) = some (values, indices) ∧
    values [] = .bits 255 ∧ indices [] = 2147483647 ∧
    ¬ IsKth (torchLe C81_floats.ole C81_nan (.int 8 .unsigned)) 1 [.bits 3, .bits 5] (values []) (indices []) := by
  refine ⟨_, _, rfl, by decide +kernel, by decide +kernel, fun h => ?_⟩
  exact absurd (kth_mem h) (by decide +kernel)

/-- C81, violated: of `[false, true]` the smallest is said to be `true`. -/
theorem C81_violated_bool : ∃ values indices,
    atenKth C81_floats C81_fill (.int 1 .signless) [2] 0 1 (C78_vec [.bits 0, .bits 1]) = some (values, indices) ∧
    values [] = .bits 1 ∧ indices [] = 1 ∧
    ¬ IsKth (torchLe C81_floats.ole C81_nan (.int 1 .signless)) 1 [.bits 0, .bits 1] (values []) (indices []) := by
  refine ⟨_, _, rfl, by decide +kernel, by decide +kernel, fun h => ?_⟩
  exact absurd h.2.1 (by decide +kernel)

/-- C81, violated: of `[NaN, 1]` the second smallest is said to be an infinity, at the place of the NaN. -/
theorem C81_violated_nan : ∃ values indices,
    atenKth C81_floats C81_fill .float [2] 0 2 (C78_vec [.flt 7, .flt 1]) = some (values, indices) ∧
    values [] = .flt 6 ∧ indices [] = 0 ∧
    ¬ IsKth (torchLe C81_floats.ole C81_nan .float) 2 [.flt 7, .flt 1] (values []) (indices []) := by
  refine ⟨_, _, rfl, by decide +kernel, by decide +kernel, fun h => ?_⟩
  exact absurd (kth_mem h) (by decide +kernel)

/-- C81, violated: of elements that differ and compare as equal, the values stay and the indices are exchanged.  Here pairs are compared
by their first components: `(0, 1)`, at place 1, is said to be at place 0. -/
theorem C81_violated_tie :
    let f : Nat × Nat → Nat × Nat → Bool := fun a b => decide (a.1 < b.1)
    let input : Buf (Nat × Nat) := fun idx => ([(1, 0), (1, 1), (0, 2)] : List (Nat × Nat))[idx.headD 0]?.getD (0, 0)
    let r := topk f 0 2 [3] input none (fun _ => (9, 9)) (fun _ => 9)
    pairLane r.1 r.2 0 2 [] = [((0, 2), 2), ((1, 1), 0)] ∧ ((1, 1), 0) ∉ pairLane input (fun ivs => (ivs.headD 0 : Nat)) 0 3 [] := by
  refine ⟨?_, ?_⟩ <;> decide +kernel

/-! The hypotheses can be met. -/

theorem test81_floats_ok : C81_floats.Ok C81_nan where
  order := ⟨by simp only [C81_floats, C81_nan]; decide +kernel, by simp only [C81_floats, C81_nan]; decide +kernel⟩
  lt := by simp only [C81_floats, C81_nan]; decide +kernel
  ole_nan := by simp only [C81_floats, C81_nan]; decide +kernel
  olt_nan := by simp only [C81_floats, C81_nan]; decide +kernel

theorem test81_distinct : C81_floats.Distinct C81_nan := by unfold FloatCmp.Distinct; decide +kernel

theorem test81_fill_ok : C81_fill.Ok C81_floats C81_nan := ⟨by decide, by decide, by decide +kernel, by decide +kernel⟩

/-- `[[3, 6, 1, 3], [6, 6, 5, 2]]` (6 is infinite) along the last dimension: the third smallest. -/
example :
    let input : Buf (Sc (Fin 8)) := fun idx => .flt ((if idx.headD 0 = 0 then [3, 6, 1, 3] else [6, 6, 5, 2] : List (Fin 8))[idx[1]?.getD 0]?.getD 0)
    ∃ values indices, atenKth C81_floats C81_fill .float [2, 4] (-1) 3 input = some (values, indices) ∧
      values [0] = .flt 3 ∧ indices [0] = 0 ∧
      values [1] = .flt 6 ∧ indices [1] = 0 := by
  refine ⟨_, _, rfl, ?_, ?_, ?_, ?_⟩ <;> decide +kernel

/-- Of `[4, 130, 2]` of dtype int8 (130 is −126) the second smallest is 2, at place 2. -/
example : ∃ values indices,
    atenKth C81_floats C81_fill (.int 8 .signed) [3] 0 2 (C78_vec [.bits 4, .bits 130, .bits 2]) = some (values, indices) ∧
    values [] = .bits 2 ∧ indices [] = 2 := by
  refine ⟨_, _, rfl, ?_, ?_⟩ <;> decide +kernel

/-- Two runs over parts, with indices given: the outputs of the first are those to begin with of the second. -/
example :
    let f : Nat → Nat → Bool := fun a b => decide (a > b)
    let first := topk f 0 2 [3] (fun idx => [5, 9, 7][idx.headD 0]?.getD 0) none (fun _ => 0) (fun _ => 100)
    let second := topk f 0 2 [2] (fun idx => [8, 9][idx.headD 0]?.getD 0) (some fun idx => 3 + (idx.headD 0 : Nat)) first.1 first.2
    pairLane first.1 first.2 0 2 [] = [(9, 1), (7, 2)] ∧ pairLane second.1 second.2 0 2 [] = [(9, 1), (9, 4)] := by
  refine ⟨?_, ?_⟩ <;> decide +kernel

end Verif
