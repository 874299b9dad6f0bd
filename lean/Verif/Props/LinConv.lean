import Verif.Lemmas.LinConvOne
import Mathlib.Data.BitVec

/-!
# C98: convolutions lowered to linalg

`aten.convolution` computes, for every place of the result, the sum of the products of the kernel and the inputs it covers, within each group of channels; a transposed
convolution puts every input times the kernel wherever the kernel at it reaches.
-/

namespace Verif

open Lin Conv

variable {A B C R : Type}

/-- A convolution in one to three dimensions, in groups, with any strides, paddings and dilations. Missing: the cases that are not `Supported`. -/
theorem C98_conv_partial [CommSemiring C] (ar : Arith A B C R) (kind : Mat.Kind) {g n c f : Int} (hg : 0 < g) {ns ks outs : List Int} {as : List Axis} {x : Operand A}
    {w : Operand B} {bias : Option (Tensor C)} {vx : List Int → A} {vw : List Int → B} {vb : Int → C} {resTy : List (Option Int)} (hx : x.tensor.sizes = n :: g * c :: ns)
    (hw : w.tensor.sizes = g * f :: c :: ks) (hvx : Pool.Holds x.tensor vx) (hvw : Pool.Holds w.tensor vw) (htx : x.Typed) (htw : w.Typed) (hb : HasBias bias (g * f) vb)
    (hd : 1 ≤ ns.length ∧ ns.length ≤ 3) (hgood : Conv.Good false ns ks as) (hp : Places ns ks as outs) (hpad : ar.liftX ar.pad = 0)
    (hs : Supported kind ns.length g false (Alone g false x.type w.type)) (hty : TypeOf resTy (n :: g * f :: outs)) :
    ∃ t, lower ar kind g false as x w bias resTy = .ok t ∧ IsConv ar t g n c f ns ks outs as vx vw vb :=
  lower_conv ar kind hg hx hw hvx hvw htx htw hb hd hgood hp hpad hs hty

/-- A transposed convolution in one to three dimensions, in groups. Missing: the cases that are not `Supported` or not `Cropped`. -/
theorem C98_transposed_partial [CommSemiring C] (ar : Arith A B C R) (kind : Mat.Kind) {g n c f : Int} (hg : 0 < g) {ns ks outs : List Int} {as : List Axis} {x : Operand A}
    {w : Operand B} {bias : Option (Tensor C)} {vx : List Int → A} {vw : List Int → B} {vb : Int → C} {resTy : List (Option Int)} (hx : x.tensor.sizes = n :: g * c :: ns)
    (hw : w.tensor.sizes = g * c :: f :: ks) (hvx : Pool.Holds x.tensor vx) (hvw : Pool.Holds w.tensor vw) (htx : x.Typed) (htw : w.Typed) (hb : HasBias bias (g * f) vb)
    (hd : 1 ≤ ns.length ∧ ns.length ≤ 3) (hgood : Conv.Good true ns ks as) (hcrop : Cropped ks as) (hp : TransposedPlaces ns ks as outs) (hpad : ar.liftX ar.pad = 0)
    (hs : Supported kind ns.length g true (Alone g true x.type w.type)) (hty : TypeOf resTy (n :: g * f :: outs)) :
    ∃ t, lower ar kind g true as x w bias resTy = .ok t ∧ IsTransposedConv ar t g n c f ns ks outs as vx vw vb :=
  lower_transposed ar kind hg hx hw hvx hvw htx htw hb hd hgood hcrop hp hpad hs hty

/-- What is left to others. -/
theorem C98_rejects [CommSemiring C] (ar : Arith A B C R) (kind : Mat.Kind) (g : Int) (transposed : Bool) (as : List Axis) (x : Operand A) (w : Operand B)
    (bias : Option (Tensor C)) (resTy : List (Option Int))
    (h : x.type.length < 3 ∨ 5 < x.type.length ∨ (∃ b, bias = some b ∧ b.sizes.length ≠ 1) ∨ (kind = .quantized ∧ g = 1 ∧ x.type.length = 3) ∨
      (g ≠ 1 ∧ x.type.length = 5 ∧ (Alone g transposed x.type w.type ∨ kind = .quantized))) :
    lower ar kind g transposed as x w bias resTy = .unmatched := by
  unfold lower
  by_cases hr : x.type.length < 3 ∨ 5 < x.type.length
  · rw [if_pos hr]
  · rw [if_neg hr]
    by_cases hb : (bias.map fun b => b.sizes.length).getD 1 ≠ 1
    · have e : ∀ (as : List Axis) (x : Operand A) (w : Operand B), convolve ar kind g transposed as x w bias = .unmatched := fun as x w => by
        unfold convolve
        rw [if_pos hb]
      rw [e, e]
      split <;> rfl
    · have hq : refused (C := C) kind (x.type.length - 2) g transposed (isDepthwise g transposed x.type w.type) = some .unmatched ∧ ¬ (x.type.length = 3 ∧ g ≠ 1) := by
        rcases h with h | h | h | h | h
        · exact absurd (Or.inl h) hr
        · exact absurd (Or.inr h) hr
        · obtain ⟨b, rfl, h⟩ := h
          exact absurd h hb
        · obtain ⟨rfl, rfl, h⟩ := h
          rw [h]
          exact ⟨rfl, by simp⟩
        · obtain ⟨h1, h2, h3⟩ := h
          rw [h2]
          refine ⟨?_, by omega⟩
          unfold refused
          rw [if_neg h1]
          by_cases hdw : isDepthwise g transposed x.type w.type = true
          · rw [if_pos hdw]
            rfl
          · rw [if_neg hdw]
            rcases h3 with h3 | h3
            · exact absurd (isDepthwise_iff.2 h3) hdw
            · rw [h3]
              rfl
      rw [if_neg hq.2]
      unfold convolve
      rw [if_neg hb, hq.1]
      rfl

/-- Channels that cannot be divided into the groups stop the program. -/
theorem C98_aborts [CommSemiring C] (ar : Arith A B C R) (kind : Mat.Kind) {g : Int} (hg : 0 < g) (transposed : Bool) (as : List Axis) {x : Operand A} {w : Operand B}
    (bias : Option (Tensor C)) (resTy : List (Option Int)) {n cx cw c : Int} {ns ks : List Int} (hx : x.tensor.sizes = n :: cx :: ns) (hw : w.tensor.sizes = cw :: c :: ks)
    (htx : x.Typed) (htw : w.Typed) (hd : 1 ≤ ns.length ∧ ns.length ≤ 3) (hb : ∀ b, bias = some b → b.sizes.length = 1)
    (hs : Supported kind ns.length g transposed (Alone g transposed x.type w.type)) (h : ¬ g ∣ cx ∨ ¬ g ∣ cw) :
    lower ar kind g transposed as x w bias resTy = .aborts := by
  have hl : x.type.length = ns.length + 2 := by rw [htx.1, hx]; rfl
  have hlw : 2 ≤ w.type.length := by rw [htw.1, hw]; simp
  have hb' : ¬ (bias.map fun b => b.sizes.length).getD 1 ≠ 1 := by
    cases bias with
    | none => simp
    | some b => simp [hb b rfl]
  have hm : cx.tmod g ≠ 0 ∨ cw.tmod g ≠ 0 := by
    rcases h with h | h
    · exact Or.inl fun q => h (Int.dvd_of_tmod_eq_zero q)
    · exact Or.inr fun q => h (Int.dvd_of_tmod_eq_zero q)
  unfold lower
  rw [if_neg (by omega)]
  by_cases h1 : x.type.length = 3 ∧ g ≠ 1
  · rw [if_pos h1]
    have hr : refused (C := C) kind ((unsqueeze x).type.length - 2) g transposed (isDepthwise g transposed (unsqueeze x).type (unsqueeze w).type) = none := by
      have e : (unsqueeze x).type.length - 2 = 2 := by simp [unsqueeze, h1.1]
      have e2 : ns.length = 1 := by omega
      rw [e]
      rw [e2] at hs
      exact refused_none (supported_unsqueeze h1.2 hs (alone_unsqueeze (by omega) hlw)) (by omega) (by omega)
    have e1 : size (unsqueeze x).tensor 1 = cx := by simp [size, unsqueeze, hx]
    have e2 : size (unsqueeze w).tensor 0 = cw := by simp [size, unsqueeze, hw]
    unfold convolve
    simp only [hr, e1, e2]
    rw [if_neg hb', if_pos hm]
    rfl
  · rw [if_neg h1]
    have hr : refused (C := C) kind (x.type.length - 2) g transposed (isDepthwise g transposed x.type w.type) = none := by
      rw [hl]
      exact refused_none hs hd (fun q => by by_contra hc; exact h1 ⟨by omega, hc⟩)
    have e1 : size x.tensor 1 = cx := by simp [size, hx]
    have e2 : size w.tensor 0 = cw := by simp [size, hw]
    unfold convolve
    simp only [hr, e1, e2]
    rw [if_neg hb', if_pos hm]
    rfl

theorem Conv.expand_means {dims : Nat} (hd : 1 ≤ dims) {l : List Int} (h : Complete dims l) : Means dims l ((expand l dims).take dims) := by
  unfold Means
  match l, h with
  | [p], _ =>
    have e : 1 + (dims - 1) = dims := by omega
    simp only [expand, e, List.take_replicate, Nat.min_self, List.length_replicate]
    refine ⟨trivial, fun d h => ?_⟩
    simp [List.getElem?_replicate, h]
  | [], h => rcases h with h | h <;> simp at h; omega
  | a :: b :: l, h =>
    have hl : (a :: b :: l).length = dims := by rcases h with h | h <;> simp at h ⊢; omega
    simp only [expand]
    rw [List.take_of_length_le (by omega)]
    exact ⟨hl, fun d _ => by rw [if_neg (by simp)]⟩

/-- A single number is written for each dimension. Missing: lists of a transposed convolution whose output padding is complete, and an output padding where the others are. -/
theorem C98_canonicalize_partial (transposed : Bool) (rank : Nat) (p : Params) (hr : rank = 4 ∨ rank = 5) (h1 : Complete (rank - 2) p.stride)
    (h2 : Complete (rank - 2) p.padding) (h3 : Complete (rank - 2) p.dilation) (h4 : transposed = true → p.outPad.length = 1)
    (hn : p.stride.length = 1 ∨ p.padding.length = 1 ∨ p.dilation.length = 1) :
    ∃ q, canonicalize transposed rank p = some q ∧ Means (rank - 2) p.stride q.stride ∧ Means (rank - 2) p.padding q.padding ∧ Means (rank - 2) p.dilation q.dilation ∧
      (if transposed then Means (rank - 2) p.outPad q.outPad else q.outPad = p.outPad) := by
  unfold canonicalize
  have hd : 1 ≤ rank - 2 := by omega
  rw [if_neg (by omega)]
  simp only
  rw [if_neg (by omega), if_neg (fun q => by have := h4 q.1; omega)]
  refine ⟨_, rfl, expand_means hd h1, expand_means hd h2, expand_means hd h3, ?_⟩
  cases transposed with
  | true => exact expand_means hd (Or.inl (h4 rfl))
  | false => rfl

/-- Whatever is rewritten means the same. -/
theorem C98_canonicalize_sound (transposed : Bool) (rank : Nat) (p q : Params) (h : canonicalize transposed rank p = some q) (h1 : Complete (rank - 2) p.stride)
    (h2 : Complete (rank - 2) p.padding) (h3 : Complete (rank - 2) p.dilation) (h4 : transposed = true → Complete (rank - 2) p.outPad) :
    Means (rank - 2) p.stride q.stride ∧ Means (rank - 2) p.padding q.padding ∧ Means (rank - 2) p.dilation q.dilation ∧
      (if transposed then Means (rank - 2) p.outPad q.outPad else q.outPad = p.outPad) := by
  unfold canonicalize at h
  by_cases hr : rank < 4 ∨ 5 < rank
  · rw [if_pos hr] at h; cases h
  · rw [if_neg hr] at h
    have hd : 1 ≤ rank - 2 := by omega
    simp only at h
    by_cases ha : p.stride.length = rank - 2 ∧ p.padding.length = rank - 2 ∧ p.dilation.length = rank - 2
    · rw [if_pos ha] at h; cases h
    · rw [if_neg ha] at h
      by_cases hb : transposed = true ∧ p.outPad.length = rank - 2
      · rw [if_pos hb] at h; cases h
      · rw [if_neg hb] at h
        cases h
        refine ⟨expand_means hd h1, expand_means hd h2, expand_means hd h3, ?_⟩
        cases transposed with
        | true => exact expand_means hd (h4 rfl)
        | false => rfl

/-! ## Violations and examples -/

namespace Test98

/-- Whole numbers. -/
abbrev whole : Arith Int Int Int Int := ⟨id, id, 0, id⟩

/-- A tensor that counts its elements along each dimension. -/
abbrev counted (sizes : List Int) : Tensor Int := ⟨sizes, fun idx => some (idx.foldl (fun a i => a * 10 + i) 0)⟩

abbrev known (sizes : List Int) : Operand Int := ⟨counted sizes, sizes.map some⟩

abbrev hidden (sizes : List Int) : Operand Int := ⟨counted sizes, sizes.map fun _ => none⟩

abbrev axis (stride padding dilation outPad : Int) : Axis := ⟨stride, padding, dilation, outPad, true⟩

/-- An element of a result. -/
def at' (o : Outcome (Tensor Int)) (idx : List Int) : Option (List Int × Option Int) :=
  match o with
  | .ok t => some (t.sizes, t.get idx)
  | _ => none

-- two groups in one dimension: input 1x4x4, weight 2x2x3, stride 2, padding 1
example : at' (lower whole .float 2 false [axis 2 1 1 0] (known [1, 4, 4]) (known [2, 2, 3]) (some ⟨[2], fun i => some (1000 + i.getD 0 0)⟩) [none, none, none]) [0, 1, 1] =
    some ([1, 2, 2], some (1001 + (21 * 100 + 22 * 101 + 23 * 102 + 31 * 110 + 32 * 111 + 33 * 112))) := by decide

-- each channel a group in two dimensions, with padding
example : at' (lower whole .int 2 false [axis 1 1 1 0, axis 1 0 1 0] (known [1, 2, 2, 2]) (known [2, 1, 2, 2]) none [none, none, none, none]) [0, 1, 0, 0] =
    some ([1, 2, 3, 1], some (100 * 1010 + 101 * 1011)) := by decide

-- a transposed convolution with stride 2 and output padding, in two groups
example : at' (lower whole .float 2 true [axis 2 1 1 1] (hidden [1, 4, 2]) (hidden [4, 1, 3]) none [none, none, none]) [0, 0, 1] =
    some ([1, 2, 4], some (0 * 2 + 1 * 0 + 10 * 102 + 11 * 100)) := by decide

-- a transposed convolution that crops
example : at' (lower whole .float 1 true [axis 2 1 1 0] (known [1, 1, 3]) (known [1, 1, 1]) none [none, none, none]) [0, 0, 1] = some ([1, 1, 3], some (1 * 0)) := by decide

-- quantized elements are padded with their zero point
example (z : Int) : (⟨fun a => a - z, id, z, id⟩ : Arith Int Int Int Int).liftX z = 0 := Int.sub_self z

example : CommSemiring (BitVec 32) := inferInstance

-- the hypotheses hold of the first example
example : Conv.Good false [4] [3] [axis 2 1 1 0] ∧ Places [4] [3] [axis 2 1 1 0] [2] ∧ Supported .float 1 2 false (Alone 2 false [some 1, some 4, some 4] [some 2, some 2, some 3]) := by
  refine ⟨by simp [Conv.Good], ⟨fun o ho => by simp only; omega, by omega, trivial⟩, fun h => by omega, fun _ => ⟨fun h => by omega, fun h => by simp at h⟩⟩

example : Conv.Good true [2] [3] [axis 2 1 1 1] ∧ Cropped [3] [axis 2 1 1 1] ∧ TransposedPlaces [2] [3] [axis 2 1 1 1] [4] := by
  refine ⟨by simp [Conv.Good], by simp [Cropped], by simp [TransposedPlaces]⟩

example : canonicalize false 4 ⟨[2], [1, 0], [1], []⟩ = some ⟨[2, 2], [1, 0], [1, 1], []⟩ := by decide

end Test98

open Test98

/-- Groups of integers in three dimensions are multiplied as if they were of floating point. -/
theorem C98_violated_integers : ∃ (x w : Operand Int) (as : List Axis), x.Typed ∧ w.Typed ∧ Conv.Good false (x.tensor.sizes.drop 2) (w.tensor.sizes.drop 2) as ∧
    x.tensor.sizes.getD 1 0 = 2 * w.tensor.sizes.getD 1 0 ∧ lower whole .int 2 false as x w none [none, none, none, none, none] = .bad :=
  ⟨hidden [1, 4, 1, 1, 1], hidden [2, 2, 1, 1, 1], [axis 1 0 1 0, axis 1 0 1 0, axis 1 0 1 0],
    ⟨rfl, fun d n h => by match d, h with | 0, h | 1, h | 2, h | 3, h | 4, h | _ + 5, h => simp at h⟩,
    ⟨rfl, fun d n h => by match d, h with | 0, h | 1, h | 2, h | 3, h | 4, h | _ + 5, h => simp at h⟩, by simp [Conv.Good], rfl, rfl⟩

/-- A transposed convolution whose channels are known to be groups does not verify. -/
theorem C98_violated_transposed_alone : ∃ (x w : Operand Int) (as : List Axis), TypeOf x.type x.tensor.sizes ∧ TypeOf w.type w.tensor.sizes ∧
    Conv.Good true (x.tensor.sizes.drop 2) (w.tensor.sizes.drop 2) as ∧ Cropped (w.tensor.sizes.drop 2) as ∧ x.tensor.sizes.getD 1 0 = w.tensor.sizes.getD 0 0 ∧
    lower whole .float 2 true as x w none [none, none, none, none] = .bad :=
  ⟨known [1, 2, 3, 3], known [2, 1, 2, 2], [axis 1 0 1 0, axis 1 0 1 0], castOk_iff.1 rfl, castOk_iff.1 rfl, by simp [Conv.Good], by simp [Cropped], rfl, rfl⟩

/-- Padding by more than the kernel reaches is not seen to crop if the size of the kernel is not known, and inserts at a negative place. -/
theorem C98_violated_crop_unknown : ∃ (x w : Operand Int) (as : List Axis), TypeOf x.type x.tensor.sizes ∧ TypeOf w.type w.tensor.sizes ∧
    Conv.Good true (x.tensor.sizes.drop 2) (w.tensor.sizes.drop 2) as ∧ Supported .float 2 1 true (Alone 1 true x.type w.type) ∧
    lower whole .float 1 true as x w none [none, none, none, none] = .bad :=
  ⟨hidden [1, 1, 3, 3], hidden [1, 1, 1, 1], [⟨1, 1, 1, 0, false⟩, ⟨1, 1, 1, 0, false⟩], castOk_iff.1 rfl, castOk_iff.1 rfl, by simp [Conv.Good],
    ⟨fun _ h => by simp at h, fun h => absurd rfl h⟩, rfl⟩

/-- Output padding larger than what is cropped is read from outside of the buffer. -/
theorem C98_violated_crop_output : ∃ (x w : Operand Int) (as : List Axis), TypeOf x.type x.tensor.sizes ∧ TypeOf w.type w.tensor.sizes ∧
    Conv.Good true (x.tensor.sizes.drop 2) (w.tensor.sizes.drop 2) as ∧ Supported .float 1 1 true (Alone 1 true x.type w.type) ∧ (∀ a ∈ as, a.known = true ∧ a.outPad < a.stride) ∧
    lower whole .float 1 true as x w none [none, none, none] = .bad :=
  ⟨known [1, 1, 3], known [1, 1, 1], [axis 3 1 1 2], castOk_iff.1 rfl, castOk_iff.1 rfl, by simp [Conv.Good],
    ⟨fun _ h => by simp at h, fun h => absurd rfl h⟩, by simp, rfl⟩

/-- A single stride is left as it is if the output padding is complete, and a single output padding if the others are. -/
theorem C98_violated_canonicalize : ∃ p q : Params, canonicalize true 4 p = none ∧ p.stride.length = 1 ∧ Complete 2 p.padding ∧ Complete 2 p.dilation ∧ Complete 2 p.outPad ∧
    canonicalize true 4 q = none ∧ Complete 2 q.stride ∧ Complete 2 q.padding ∧ Complete 2 q.dilation ∧ q.outPad.length = 1 :=
  ⟨⟨[2], [1, 1], [1, 1], [0, 0]⟩, ⟨[2, 2], [1, 1], [1, 1], [0]⟩, rfl, rfl, Or.inr rfl, Or.inr rfl, Or.inr rfl, rfl, Or.inr rfl, Or.inr rfl, Or.inr rfl, rfl⟩

end Verif
