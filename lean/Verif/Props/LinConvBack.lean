import Verif.Lemmas.LinConvAdjoint
import Verif.Lemmas.LinConvOne
import Mathlib.Algebra.Ring.Int.Defs

/-!
# C99: gradients of convolutions lowered to linalg

`aten.convolution_backward` computes the gradients of the input, of the weight and of the bias that are wanted; they are the adjoints of what `aten.convolution` computes.
-/

namespace Verif

open Lin Conv

variable {E C R : Type}

theorem Conv.none_used {mask used : List Bool} (h : ∀ (d : Nat), used[d]? = some true → mask[d]? = some true) :
    (List.zipWith (fun m u => !m && u) mask used).any id = false := by
  induction mask generalizing used with
  | nil => rfl
  | cons m mask ih =>
    cases used with
    | nil => rfl
    | cons u used =>
      have h0 := h 0
      simp only [List.getElem?_cons_zero, Option.some.injEq] at h0
      have e : (!m && u) = false := by cases m <;> cases u <;> simp_all
      simp only [List.zipWith_cons_cons, List.any_cons, id, e, Bool.false_or]
      exact ih fun d => h (d + 1)

/-- Each gradient that is wanted, in one to three dimensions, in groups, with any strides, paddings and dilations. Missing: gradients of the input where the padding is larger than
the kernel reaches, and types of results in groups that are not those of the operands. -/
theorem C99_backward_partial [CommSemiring C] (ar : GradArith E C R) (hz : ar.lift ar.zero = 0) {g n c f : Int} (hg : 0 < g) {ns ks outs : List Int} {as : List Axis}
    {m0 m1 m2 : Bool} {used : List Bool} {go x w : Operand E} {vg vx vw : List Int → E} {xTy wTy bTy : List (Option Int)} (hgo : go.tensor.sizes = n :: g * f :: outs)
    (hx : x.tensor.sizes = n :: g * c :: ns) (hw : w.tensor.sizes = g * f :: c :: ks) (hvg : Pool.Holds go.tensor vg) (hvx : Pool.Holds x.tensor vx)
    (hvw : Pool.Holds w.tensor vw) (htg : go.Typed) (htw : w.Typed) (hd : 1 ≤ ns.length ∧ ns.length ≤ 3) (hgood : Conv.Good false ns ks as) (hp : Places ns ks as outs)
    (ho : ∀ a ∈ as, a.outPad = 0) (hu : ∀ (d : Nat), used[d]? = some true → [m0, m1, m2][d]? = some true)
    (h0 : m0 = true → Within ks as ∧ GradType g x.type xTy (n :: g * c :: ns)) (h1 : m1 = true → GradType g w.type wTy (g * f :: c :: ks)) (h2 : m2 = true → TypeOf bTy [g * f]) :
    ∃ dx dw db, lowerBackward ar false g as [m0, m1, m2] used go x w xTy wTy bTy = .ok (dx, dw, db) ∧
      (if m0 then ∃ t, dx = some t ∧ IsInputGrad ar t g n c f ns ks outs as vg vw else dx = none) ∧
      (if m1 then ∃ t, dw = some t ∧ IsWeightGrad ar t g n c f ns ks outs as vg vx else dw = none) ∧
      (if m2 then ∃ t, db = some t ∧ IsBiasGrad ar t (g * f) n outs vg else db = none) := by
  have hl := lengths (goodAll hgood)
  have hlo := places_length hp
  have hrank : go.type.length = ns.length + 2 := by rw [htg.1, hgo, hl.1, ← hlo]; rfl
  have hop : (as.any fun a => decide (a.outPad ≠ 0)) = false := by
    rw [List.any_eq_false]
    intro a ha
    simp [ho a ha]
  have k0 : ∃ dx, wanted m0 (lowerInputGrad ar g as go x w xTy) = .ok dx ∧ (if m0 then ∃ t, dx = some t ∧ IsInputGrad ar t g n c f ns ks outs as vg vw else dx = none) := by
    cases m0 with
    | false => exact ⟨none, rfl, rfl⟩
    | true =>
      obtain ⟨t, e, ht⟩ := inputGrad_spec ar hz hg hgo hx hw hvg hvw htw hgood hp (h0 rfl).1 (by rw [hx]; exact (h0 rfl).2)
      refine ⟨some t, ?_, t, rfl, ht⟩
      unfold wanted
      rw [if_pos rfl, e]
      rfl
  have k1 : ∃ dw, wanted m1 (lowerWeightGrad ar g as go x w wTy) = .ok dw ∧ (if m1 then ∃ t, dw = some t ∧ IsWeightGrad ar t g n c f ns ks outs as vg vx else dw = none) := by
    cases m1 with
    | false => exact ⟨none, rfl, rfl⟩
    | true =>
      obtain ⟨t, e, ht⟩ := weightGrad_spec ar hz hg hgo hx hw hvg hvx hgood hp (by rw [hw]; exact h1 rfl)
      refine ⟨some t, ?_, t, rfl, ht⟩
      unfold wanted
      rw [if_pos rfl, e]
      rfl
  have k2 : ∃ db, wanted m2 (lowerBiasGrad ar go bTy) = .ok db ∧ (if m2 then ∃ t, db = some t ∧ IsBiasGrad ar t (g * f) n outs vg else db = none) := by
    cases m2 with
    | false => exact ⟨none, rfl, rfl⟩
    | true =>
      obtain ⟨t, e, ht⟩ := biasGrad_spec ar hgo hvg (h2 rfl)
      refine ⟨some t, ?_, t, rfl, ht⟩
      unfold wanted
      rw [if_pos rfl, e]
      rfl
  obtain ⟨dx, e0, q0⟩ := k0
  obtain ⟨dw, e1, q1⟩ := k1
  obtain ⟨db, e2, q2⟩ := k2
  refine ⟨dx, dw, db, ?_, q0, q1, q2⟩
  unfold lowerBackward
  rw [if_neg (by omega), if_neg (by simp)]
  simp only [none_used hu, hop, e0, e1, e2, Outcome.bind]
  rfl

/-- The gradients are the adjoints of the convolution: the result paired with its gradient is the input, and the weight, paired with theirs, and the bias with its.
Missing: as above, and the convolutions that are not `Supported`. -/
theorem C99_adjoint_partial [CommSemiring C] (lift : E → C) (zero : E) (hz : lift zero = 0) {g n c f : Int} (hg : 0 < g) {ns ks outs : List Int} {as : List Axis}
    {used : List Bool} {go x w : Operand E} {bias : Option (Tensor C)} {vg vx vw : List Int → E} {vb : Int → C} {yTy xTy wTy bTy : List (Option Int)}
    (hgo : go.tensor.sizes = n :: g * f :: outs) (hx : x.tensor.sizes = n :: g * c :: ns) (hw : w.tensor.sizes = g * f :: c :: ks) (hvg : Pool.Holds go.tensor vg)
    (hvx : Pool.Holds x.tensor vx) (hvw : Pool.Holds w.tensor vw) (hb : HasBias bias (g * f) vb) (htg : go.Typed) (htx : x.Typed) (htw : w.Typed)
    (hd : 1 ≤ ns.length ∧ ns.length ≤ 3) (hgood : Conv.Good false ns ks as) (hp : Places ns ks as outs) (hin : Within ks as) (ho : ∀ a ∈ as, a.outPad = 0)
    (hs : Supported .float ns.length g false (Alone g false x.type w.type)) (hu : used.length ≤ 3) (hyTy : TypeOf yTy (n :: g * f :: outs))
    (hxTy : GradType g x.type xTy (n :: g * c :: ns)) (hwTy : GradType g w.type wTy (g * f :: c :: ks)) (hbTy : TypeOf bTy [g * f]) :
    ∃ y dx dw db, lower ⟨lift, lift, zero, id⟩ .float g false as x w bias yTy = .ok y ∧
      lowerBackward ⟨lift, zero, id⟩ false g as [true, true, true] used go x w xTy wTy bTy = .ok (some dx, some dw, some db) ∧
      ∃ vy vdx vdw vdb, Pool.Holds y vy ∧ Pool.Holds dx vdx ∧ Pool.Holds dw vdw ∧ Pool.Holds db vdb ∧
        pairing (n :: g * f :: outs) (fun i => lift (vg i)) vy =
          pairing (n :: g * c :: ns) (fun i => lift (vx i)) vdx + pairing [g * f] (fun i => vb (i.getD 0 0)) vdb ∧
        pairing (n :: g * f :: outs) (fun i => lift (vg i)) vy =
          pairing (g * f :: c :: ks) (fun i => lift (vw i)) vdw + pairing [g * f] (fun i => vb (i.getD 0 0)) vdb := by
  obtain ⟨y, hy, iy⟩ := lower_conv (⟨lift, lift, zero, id⟩ : Arith E E C C) .float hg hx hw hvx hvw htx htw hb hd hgood hp hz hs hyTy
  obtain ⟨dx, dw, db, hback, q0, q1, q2⟩ := C99_backward_partial (⟨lift, zero, id⟩ : GradArith E C C) hz hg (m0 := true) (m1 := true) (m2 := true) (used := used)
    (xTy := xTy) (wTy := wTy) (bTy := bTy) hgo hx hw hvg hvx hvw htg htw hd hgood hp ho
    (fun d h => by
      have hlt : d < used.length := by
        by_contra hc
        rw [List.getElem?_eq_none (by omega)] at h
        cases h
      match d, hlt with
      | 0, _ => rfl
      | 1, _ => rfl
      | 2, _ => rfl
      | d + 3, hlt => omega) (fun _ => ⟨hin, hxTy⟩) (fun _ => hwTy) fun _ => hbTy
  obtain ⟨tx, rfl, ix⟩ := q0
  obtain ⟨tw, rfl, iw⟩ := q1
  obtain ⟨tb, rfl, ib⟩ := q2
  refine ⟨y, tx, tw, tb, hy, hback, ?_⟩
  have := adjoint lift zero hg iy ix iw ib
  rw [iy.1, ix.1, iw.1, ib.1] at this
  exact this

/-- What is left to others: too few or too many dimensions, transposed convolutions, results that are used but not wanted, output padding, and gradients of an input known to be
padded by more than the kernel reaches. -/
theorem C99_rejects [CommSemiring C] (ar : GradArith E C R) (transposed : Bool) (g : Int) (as : List Axis) (mask used : List Bool) (go x w : Operand E)
    (xTy wTy bTy : List (Option Int))
    (h : go.type.length < 3 ∨ 5 < go.type.length ∨ transposed = true ∨ mask.length ≠ 3 ∨ (∃ d : Nat, mask[d]? = some false ∧ used[d]? = some true) ∨ (∃ a ∈ as, a.outPad ≠ 0) ∨
      (mask[0]? = some true ∧ ∃ (d : Nat) (k : Int) (a : Axis), w.tensor.sizes[d + 2]? = some k ∧ as[d]? = some a ∧ a.known = true ∧ a.dilation * (k - 1) < a.padding)) :
    lowerBackward ar transposed g as mask used go x w xTy wTy bTy = .unmatched := by
  unfold lowerBackward
  by_cases hr : go.type.length < 3 ∨ 5 < go.type.length
  · rw [if_pos hr]
  · rw [if_neg hr]
    by_cases ht : transposed = true
    · rw [if_pos ht]
    · rw [if_neg ht]
      match mask, h with
      | [], _ => rfl
      | [_], _ => rfl
      | [_, _], _ => rfl
      | _ :: _ :: _ :: _ :: _, _ => rfl
      | [m0, m1, m2], h =>
        simp only
        by_cases hu : (List.zipWith (fun m u => !m && u) [m0, m1, m2] used).any id = true
        · rw [if_pos hu]
        · rw [if_neg hu]
          by_cases ho : (as.any fun a => decide (a.outPad ≠ 0)) = true
          · rw [if_pos ho]
          · rw [if_neg ho]
            rcases h with h | h | h | h | h | h | h
            · exact absurd (Or.inl h) hr
            · exact absurd (Or.inr h) hr
            · exact absurd h ht
            · exact absurd rfl h
            · obtain ⟨d, h1, h2⟩ := h
              refine absurd (List.any_eq_true.2 ⟨true, List.mem_iff_getElem?.2 ⟨d, ?_⟩, rfl⟩) hu
              rw [List.getElem?_zipWith, h1, h2]
              rfl
            · obtain ⟨a, h1, h2⟩ := h
              exact absurd (List.any_eq_true.2 ⟨a, h1, decide_eq_true h2⟩) ho
            · obtain ⟨h0, d, k, a, h1, h2, h3, h4⟩ := h
              simp only [List.getElem?_cons_zero, Option.some.injEq] at h0
              have hn : (List.zipWith negativePad (w.tensor.sizes.drop 2) as).any id = true := by
                refine List.any_eq_true.2 ⟨true, List.mem_iff_getElem?.2 ⟨d, ?_⟩, rfl⟩
                rw [List.getElem?_zipWith, List.getElem?_drop, Nat.add_comm, h1, h2]
                have e : (k - 1) * a.dilation = a.dilation * (k - 1) := Int.mul_comm _ _
                have q : decide (gradPad k a < 0) = true := decide_eq_true (by unfold gradPad; omega)
                simp only [negativePad, h3, q, Bool.and_self]
              have : lowerInputGrad ar g as go x w xTy = .unmatched := by
                unfold lowerInputGrad
                simp only
                rw [if_pos hn]
              rw [h0, this]
              rfl

/-! ## Violations and examples -/

namespace Test99

/-- Whole numbers. -/
abbrev whole : GradArith Int Int Int := ⟨id, 0, id⟩

/-- A tensor that counts its elements along each dimension. -/
abbrev counted (sizes : List Int) : Tensor Int := ⟨sizes, fun idx => some (idx.foldl (fun a i => a * 10 + i) 0)⟩

abbrev known (sizes : List Int) : Operand Int := ⟨counted sizes, sizes.map some⟩

abbrev hidden (sizes : List Int) : Operand Int := ⟨counted sizes, sizes.map fun _ => none⟩

abbrev axis (stride padding dilation : Int) : Axis := ⟨stride, padding, dilation, 0, true⟩

/-- An element of a gradient. -/
def at' (d : Nat) (o : Outcome (Option (Tensor Int) × Option (Tensor Int) × Option (Tensor Int))) (idx : List Int) : Option (List Int × Option Int) :=
  match o with
  | .ok (a, b, c) => ([a, b, c].getD d none).map fun t => (t.sizes, t.get idx)
  | _ => none

/-- Two groups in one dimension: gradient 1x2x2, input 1x4x4, weight 2x2x3, stride 2, padding 1. -/
abbrev strided (mask : List Bool) := lowerBackward whole false 2 [axis 2 1 1] mask [] (known [1, 2, 2]) (hidden [1, 4, 4]) (hidden [2, 2, 3])
  [none, none, none] [none, none, none] [none]

-- the second input has a part in the first result by the last weight and in the second by the first
example : at' 0 (strided [true, true, true]) [0, 3, 1] = some ([1, 4, 4], some (10 * 112 + 11 * 110)) := by decide

example : at' 1 (strided [true, true, true]) [1, 0, 0] = some ([2, 2, 3], some (10 * 0 + 11 * 21)) := by decide

example : at' 2 (strided [true, true, true]) [1] = some ([2], some (10 + 11)) := by decide

-- a gradient that is not wanted
example : at' 0 (strided [false, true, true]) [0, 3, 1] = none := by decide

-- no strides: the gradient is padded
example : at' 0 (lowerBackward whole false 1 [axis 1 0 1] [true, false, false] [] (known [1, 1, 2]) (known [1, 1, 3]) (known [1, 1, 2]) [none, none, none] [] []) [0, 0, 1] =
    some ([1, 1, 3], some (0 * 1 + 1 * 0)) := by decide

-- the hypotheses hold of the first example
example : Conv.Good false [4] [3] [axis 2 1 1] ∧ Places [4] [3] [axis 2 1 1] [2] ∧ Within [3] [axis 2 1 1] ∧
    GradType 2 [none, none, none] [none, none, none] [1, 4, 4] ∧ Supported .float 1 2 false (Alone 2 false [none, none, none] [none, none, none]) := by
  refine ⟨by simp [Conv.Good], ⟨fun o ho => by simp only; omega, by omega, trivial⟩, by simp [Within], ⟨castOk_iff.1 rfl, fun _ => rfl⟩, fun h => by omega,
    fun _ => ⟨fun h => by omega, fun h => by simp at h⟩⟩

-- what is paired
example : pairing [2, 2] (fun i => i.getD 0 0 + i.getD 1 0) (fun i => i.getD 1 0 + 1) = (0 * 1 + 1 * 2 + 1 * 1 + 2 * 2 : Int) := by decide

end Test99

open Test99

/-- Padding by more than the kernel reaches is not seen if the size of the kernel is not known, and the gradient is inserted at a negative place. -/
theorem C99_violated_padding : ∃ (go x w : Operand Int) (as : List Axis), TypeOf go.type go.tensor.sizes ∧ TypeOf x.type x.tensor.sizes ∧ TypeOf w.type w.tensor.sizes ∧
    Conv.Good false (x.tensor.sizes.drop 2) (w.tensor.sizes.drop 2) as ∧ Places (x.tensor.sizes.drop 2) (w.tensor.sizes.drop 2) as (go.tensor.sizes.drop 2) ∧
    lowerBackward whole false 1 as [true, true, true] [true, true, true] go x w [none, none, none] [none, none, none] [none] = .bad :=
  ⟨hidden [1, 1, 3], hidden [1, 1, 3], hidden [1, 1, 1], [⟨2, 1, 1, 0, false⟩], castOk_iff.1 rfl, castOk_iff.1 rfl, castOk_iff.1 rfl, by simp [Conv.Good],
    ⟨fun o ho => by simp only; omega, by omega, trivial⟩, rfl⟩

/-- With groups, a gradient whose type says less than that of the input does not verify. -/
theorem C99_violated_type : ∃ (go x w : Operand Int) (as : List Axis) (ty : List (Option Int)), TypeOf go.type go.tensor.sizes ∧ TypeOf x.type x.tensor.sizes ∧
    TypeOf w.type w.tensor.sizes ∧ Conv.Good false (x.tensor.sizes.drop 2) (w.tensor.sizes.drop 2) as ∧ Within (w.tensor.sizes.drop 2) as ∧
    Places (x.tensor.sizes.drop 2) (w.tensor.sizes.drop 2) as (go.tensor.sizes.drop 2) ∧ TypeOf ty x.tensor.sizes ∧
    lowerBackward whole false 2 as [true, false, false] [true, false, false] go x w ty [none, none, none] [none] = .bad :=
  ⟨known [1, 2, 2], known [1, 4, 4], known [2, 2, 3], [axis 1 0 1], [none, none, none], castOk_iff.1 rfl, castOk_iff.1 rfl, castOk_iff.1 rfl, by simp [Conv.Good],
    by simp [Within], ⟨fun o ho => by simp only; omega, by omega, trivial⟩, castOk_iff.1 rfl, rfl⟩

end Verif
