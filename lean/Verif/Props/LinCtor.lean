import Verif.Lemmas.LinCtor

/-!
# C97: padding and constructors of tensors lowered to linalg

`aten.constant_pad_nd`, `aten.replication_pad1d/2d/3d`, `aten.zeros`, `aten.ones` and `aten.arange.start_step` have the sizes and elements PyTorch gives them.
-/

namespace Verif

open Lin Red Ctor

variable {E : Type}

/-- Constant padding by pairs given from the last dimension on. Missing: negative paddings, which `tensor.pad` does not have. -/
theorem C97_constant_pad_partial (x : Tensor E) (pads : List Int) (v : E) (heven : pads.length / 2 * 2 = pads.length) (hrank : pads.length / 2 ≤ x.sizes.length)
    (hp : ∀ p ∈ pads, 0 ≤ p) (resTy : List (Option Int)) (out : List Int)
    (hout : IsPaddedSize x.sizes out (before x.sizes.length pads) (after x.sizes.length pads)) (hty : TypeOf resTy out) :
    ∃ t, lowerConstantPad x pads v resTy = .ok t ∧ IsConstantPadOf t x (before x.sizes.length pads) (after x.sizes.length pads) v := by
  have h := constantPad_spec x pads v heven hrank
  refine ⟨_, ?_, h⟩
  unfold lowerConstantPad
  simp only
  rw [if_neg (by omega), if_neg (by omega)]
  refine cast_ok ?_
  have hs := ext_getD (h.1.1.trans hout.1.symm) fun d hd => by
    rw [h.1.1] at hd
    rw [h.1.2 d hd, hout.2 d hd]
  rw [hs]
  exact hty

/-- Paddings that are no pairs, or more pairs than dimensions, are refused. -/
theorem C97_constant_pad_rejects (x : Tensor E) (pads : List Int) (v : E) (resTy : List (Option Int))
    (h : pads.length / 2 * 2 ≠ pads.length ∨ x.sizes.length < pads.length / 2) : lowerConstantPad x pads v resTy = .unmatched := by
  unfold lowerConstantPad
  simp only
  by_cases h1 : pads.length / 2 * 2 ≠ pads.length
  · rw [if_pos h1]
  · rw [if_neg h1, if_pos (by omega)]

/-- Replication padding of the last dimension, the last two or the last three. Missing: negative paddings (see `C97_violated_negative`). -/
theorem C97_replication_pad_partial (x : Tensor E) (pads : List Int) (hp : ∀ p ∈ pads, 0 ≤ p) (resTy : List (Option Int)) (out : List Int)
    (hout : IsPaddedSize x.sizes out (before x.sizes.length pads) (after x.sizes.length pads)) (hty : TypeOf resTy out)
    (hpos : ∀ d, d < x.sizes.length → x.sizes.length - pads.length / 2 ≤ d → 0 < x.sizes.getD d 0) :
    (pads.length = 2 → 2 ≤ x.sizes.length →
      ∃ t, lowerReplicationPad1d x pads resTy = .ok t ∧ IsReplicationPadOf t x (before x.sizes.length pads) (after x.sizes.length pads)) ∧
    (pads.length = 4 → 2 ≤ x.sizes.length →
      ∃ t, lowerReplicationPad2d x pads resTy = .ok t ∧ IsReplicationPadOf t x (before x.sizes.length pads) (after x.sizes.length pads)) ∧
    (pads.length = 6 → 3 ≤ x.sizes.length →
      ∃ t, lowerReplicationPad3d x pads resTy = .ok t ∧ IsReplicationPadOf t x (before x.sizes.length pads) (after x.sizes.length pads)) := by
  refine ⟨fun h1 h2 => ?_, fun h1 h2 => ?_, fun h1 h2 => ?_⟩
  · rw [h1] at hpos
    unfold lowerReplicationPad1d
    rw [if_neg (by omega), if_neg (by omega)]
    exact replicated_spec x pads 1 h1 (by omega) hp hpos resTy out hout hty
  · rw [h1] at hpos
    unfold lowerReplicationPad2d
    rw [if_neg (by omega), if_neg (by omega), if_neg (by omega)]
    exact replicated_spec x pads 2 h1 (by omega) hp hpos resTy out hout hty
  · rw [h1] at hpos
    unfold lowerReplicationPad3d
    rw [if_neg (by omega), if_neg (by omega)]
    exact replicated_spec x pads 3 h1 (by omega) hp hpos resTy out hout hty

/-- `aten.zeros` and `aten.ones`: every element is the one to fill with, if the type asked for is that of the result. -/
theorem C97_alloc {T : Type} [DecidableEq T] (pin : Arg Bool) (size : List Int) (dtype : Arg T) (resElem : T) (fill : T → Option E) (v : E)
    (resTy : List (Option Int)) (hpin : pin = .none ∨ pin = .const false) (hdt : dtype = .none ∨ dtype = .const resElem) (hv : fill resElem = some v)
    (hty : TypeOf resTy size) :
    ∃ t, lowerAlloc pin (some size) dtype resElem fill resTy = .ok t ∧ t.sizes = size ∧ ∀ idx, inRange size idx = true → t.get idx = some v := by
  refine ⟨Lin.fill size v, ?_, rfl, fun idx hi => get_of_range hi⟩
  unfold lowerAlloc
  rcases hpin with rfl | rfl <;> rcases hdt with rfl | rfl <;> simp only [hv, if_true] <;> exact cast_ok hty

/-- Pinned memory, sizes that are no list and types that are no constants are refused. -/
theorem C97_alloc_rejects {T : Type} [DecidableEq T] (pin : Arg Bool) (size : Option (List Int)) (dtype : Arg T) (resElem : T) (fill : T → Option E)
    (resTy : List (Option Int)) (h : pin = .const true ∨ pin = .other ∨ size = none ∨ dtype = .other) :
    lowerAlloc pin size dtype resElem fill resTy = .unmatched := by
  unfold lowerAlloc
  rcases h with rfl | rfl | rfl | rfl
  · rfl
  · rfl
  · rcases pin with _ | (_ | _) | _ <;> rfl
  · rcases pin with _ | (_ | _) | _ <;> cases size <;> rfl

/-- `aten.arange.start_step` on integers. Missing: distances that do not fit into the type of the result, bytes and truth values, and steps away from the end. -/
theorem C97_arange_partial {w : Nat} (h1 : 2 ≤ w) (h2 : w ≤ 64) (h8 : w ≠ 8) (start stop step : BitVec 64) (hstep : FitsIn w step.toInt)
    (hfit : FitsIn w (stop.toInt - start.toInt)) (hdir : 0 < step.toInt ∧ start.toInt ≤ stop.toInt ∨ step.toInt < 0 ∧ stop.toInt ≤ start.toInt)
    (resTy : List (Option Int))
    (hty : ∀ n, 0 ≤ n → (∀ i, 0 ≤ i → (i < n ↔ Within stop.toInt step.toInt (start.toInt + i * step.toInt))) → TypeOf resTy [n]) :
    ∃ t, lowerArange w start stop step resTy = .ok t ∧ IsRange t start.toInt stop.toInt step.toInt :=
  arange_spec h1 h2 h8 start stop step hstep hfit hdir resTy hty

/-! ## Examples and violations -/

namespace Test97

def iota (sizes : List Int) : Tensor (List Int) := ⟨sizes, fun idx => some idx⟩

def look {E : Type} (idx : List (List Int)) : Outcome (Tensor E) → Option (List Int × List (Option E))
  | .ok t => some (t.sizes, idx.map t.get)
  | _ => none

example : look [[0, 0], [1, 0], [2, 4], [1, 3]] (lowerConstantPad (iota [2, 3]) [1, 2, 1, 0] [] [none, some 6]) =
    some ([3, 6], [some [], some [], some [], some [0, 2]]) := by decide +kernel
example : look [[0, 0, 0], [0, 3, 5], [0, 2, 2]] (lowerReplicationPad2d (iota [1, 2, 3]) [1, 2, 2, 0] [some 1, none, none]) =
    some ([1, 4, 6], [some [0, 0, 0], some [0, 1, 2], some [0, 0, 1]]) := by decide +kernel
example : IsPaddedSize [1, 2, 3] [1, 4, 6] (before 3 [1, 2, 2, 0]) (after 3 [1, 2, 2, 0]) := by
  refine ⟨rfl, fun d hd => ?_⟩
  have hd' : d < 3 := hd
  match d, hd' with
  | 0, _ => rfl
  | 1, _ => rfl
  | 2, _ => rfl
example : look [[0], [3]] (lowerArange 32 7#64 (BitVec.ofInt 64 (-4)) (BitVec.ofInt 64 (-3)) [some 4]) = some ([4], [some 7#32, some (BitVec.ofInt 32 (-2))]) := by decide +kernel
example : look [[0, 1]] (lowerAlloc (.const false) (some [2, 2]) (.const true) true (fun b => if b then some 1 else none) [none, some 2]) =
    some ([2, 2], [some (1 : Int)]) := by decide +kernel

end Test97

open Test97

/-- Negative paddings, which crop in PyTorch, do nothing. -/
theorem C97_violated_negative : look [[0, 2]] (lowerReplicationPad1d (iota [1, 3]) [-1, 0] [none, none]) = some ([1, 3], [some [0, 2]]) := by decide +kernel

/-- Paddings of two dimensions may be missing, and are then read outside of their list, or too many, and are then left out. -/
theorem C97_violated_pads (x : Tensor E) (a b : Int) (resTy : List (Option Int)) (h : 2 ≤ x.sizes.length) :
    lowerReplicationPad2d x [a, b] resTy = .crash ∧
    look [[0, 0, 0]] (lowerReplicationPad2d (iota [1, 1, 1]) [0, 0, 0, 0, 7, 7] [none, none, none]) = some ([1, 1, 1], [some [0, 0, 0]]) := by
  refine ⟨?_, by decide +kernel⟩
  unfold lowerReplicationPad2d
  have q : ¬ x.sizes.length < [a, b].length / 2 := by
    have e : [a, b].length = 2 := rfl
    rw [e]
    omega
  rw [if_neg (by omega), if_neg (by simp), if_neg q]
  rfl

/-- A step away from the end, which PyTorch rejects, makes a tensor of negative size. -/
theorem C97_violated_direction : (match lowerArange 64 5#64 1#64 1#64 [none] with | .ok t => some t.sizes | _ => none) = some [-4] := by decide +kernel

/-- The distance is computed in the type of the result: from `-2 ^ 31` to `2 ^ 31 - 1` it wraps around. -/
theorem C97_violated_distance :
    (match lowerArange 32 (BitVec.ofInt 64 (-2147483648)) 2147483647#64 1073741824#64 [none] with | .ok t => some t.sizes | _ => none) = some [0] ∧
    Within 2147483647 1073741824 (-2147483648) := by
  refine ⟨by decide +kernel, ?_⟩
  unfold Within
  rw [if_pos (by omega)]
  omega

/-- Ranges of bytes stop the compiler. -/
theorem C97_violated_byte (start stop step : BitVec 64) (resTy : List (Option Int)) : lowerArange 8 start stop step resTy = .crash := rfl

end Verif
