import Verif.Spec.LinConvBack
import Verif.Lemmas.LinConvSpace
import Verif.Lemmas.LinConvLower

/-! # Gradients of convolutions -/

namespace Verif.Conv

open Lin

variable {E C R : Type}

/-! ## Leading dimensions -/

theorem inRange_app : ∀ {L J ns j : List Int}, inRange L J = true → (inRange (L ++ ns) (J ++ j) = true ↔ inRange ns j = true)
  | [], J, ns, j, h => by rw [inRange_nil h]; rfl
  | n :: L, J, ns, j, h => by
    obtain ⟨i, J, rfl, h1, h2, h3⟩ := inRange_uncons h
    simp only [List.cons_append, inRange_cons, inRange_app h3, h1, h2, true_and]

theorem unplace_app : ∀ {L J : List Int} (os ns ss j : List Int), inRange L J = true →
    unplace (List.replicate L.length 0 ++ os) (L ++ ns) (List.replicate L.length 1 ++ ss) (J ++ j) = (unplace os ns ss j).map (J ++ ·)
  | [], J, os, ns, ss, j, h => by
    rw [inRange_nil h]
    simp
  | n :: L, J, os, ns, ss, j, h => by
    obtain ⟨i, J, rfl, h1, h2, h3⟩ := inRange_uncons h
    simp only [List.length_cons, List.replicate_succ, List.cons_append, unplace, Int.sub_zero, Int.emod_one, Int.ediv_one, true_and]
    rw [if_pos ⟨h1, h2⟩, unplace_app os ns ss j h3]
    cases unplace os ns ss j <;> rfl

theorem sub_lead : ∀ {L J : List Int} (j ps : List Int), inRange L J = true →
    List.zipWith (· - ·) (J ++ j) (List.replicate L.length 0 ++ ps) = J ++ List.zipWith (· - ·) j ps
  | [], J, j, ps, h => by rw [inRange_nil h]; rfl
  | n :: L, J, j, ps, h => by
    obtain ⟨i, J, rfl, h1, h2, h3⟩ := inRange_uncons h
    simp only [List.length_cons, List.replicate_succ, List.cons_append, List.zipWith_cons_cons, sub_lead j ps h3, Int.sub_zero]

theorem pad_lead : ∀ (L ns ps : List Int), List.zipWith (· + ·) (L ++ ns) (List.zipWith (· + ·) (List.replicate L.length 0 ++ ps) (List.replicate L.length 0 ++ ps)) =
    L ++ List.zipWith (· + ·) ns (List.zipWith (· + ·) ps ps)
  | [], ns, ps => rfl
  | n :: L, ns, ps => by
    simp only [List.length_cons, List.replicate_succ, List.cons_append, List.zipWith_cons_cons, pad_lead L ns ps, Int.add_zero]

/-- What is read from a padded tensor. -/
theorem pad_read {x : Tensor E} {v : List Int → E} (hx : Pool.Holds x v) {L ns ps J j : List Int} (hs : x.sizes = L ++ ns) {z : E} (hJ : inRange L J = true)
    (hj : inRange (List.zipWith (· + ·) ns (List.zipWith (· + ·) ps ps)) j = true) :
    (Pool.pad x (List.replicate L.length 0 ++ ps) (List.replicate L.length 0 ++ ps) z).get (J ++ j) =
      some (if inRange ns (List.zipWith (· - ·) j ps) then v (J ++ List.zipWith (· - ·) j ps) else z) := by
  rw [get_of_range]
  · simp only [Pool.pad, hs, sub_lead j ps hJ]
    by_cases q : inRange ns (List.zipWith (· - ·) j ps) = true
    · rw [if_pos ((inRange_app hJ).2 q), if_pos q, hx _ (by rw [hs]; exact (inRange_app hJ).2 q)]
    · rw [if_neg fun h => q ((inRange_app hJ).1 h), if_neg q]
  · simp only [Pool.pad, hs, pad_lead]
    exact (inRange_app hJ).2 hj

/-! ## Places -/

/-- What is known of a dimension. -/
structure BackAt (n k : Int) (a : Axis) (m : Int) : Prop where
  k0 : 0 < k
  s0 : 0 < a.stride
  d0 : 0 < a.dilation
  p0 : 0 ≤ a.padding
  n0 : 0 ≤ n
  room : a.dilation * (k - 1) < n + 2 * a.padding
  places : ∀ o, 0 ≤ o → (o < m ↔ o * a.stride + a.dilation * (k - 1) < n + 2 * a.padding)
  m0 : 0 ≤ m
  within : a.padding ≤ a.dilation * (k - 1)

inductive BackAll : List Int → List Int → List Axis → List Int → Prop where
  | nil : BackAll [] [] [] []
  | cons {n k m : Int} {a : Axis} {ns ks ms : List Int} {as : List Axis} (h : BackAt n k a m) (t : BackAll ns ks as ms) :
    BackAll (n :: ns) (k :: ks) (a :: as) (m :: ms)

theorem backAll {ns ks : List Int} {as : List Axis} (hg : GoodAll false ns ks as) : ∀ {outs : List Int}, Places ns ks as outs → Within ks as → BackAll ns ks as outs := by
  induction hg with
  | nil => intro outs h _; cases outs with
    | nil => exact .nil
    | cons _ _ => exact h.elim
  | cons h _ ih =>
    intro outs hp hw
    cases outs with
    | nil => exact hp.elim
    | cons m ms =>
      obtain ⟨p1, p2, p3⟩ := hp
      obtain ⟨h1, h2, h3, h4, h5⟩ := h
      simp only [Bool.false_eq_true, if_false] at h5
      exact .cons ⟨h1, h2, h3, h4, h5.1, h5.2, p1, p2, hw.1⟩ (ih p3 hw.2)

theorem not_negative {ns ks outs : List Int} {as : List Axis} (h : BackAll ns ks as outs) : (List.zipWith negativePad ks as).any id = false := by
  induction h with
  | nil => rfl
  | cons h _ ih =>
    rename_i n k m a _ _ _ _ _
    have e : negativePad k a = false := by
      have := h.within
      have e : (k - 1) * a.dilation = a.dilation * (k - 1) := Int.mul_comm _ _
      have q : decide (gradPad k a < 0) = false := decide_eq_false (by unfold gradPad; omega)
      simp only [negativePad, q, Bool.and_false]
    simp only [List.zipWith_cons_cons, List.any_cons, id, e, ih, Bool.or_self]

theorem gradPad_nonneg {ns ks outs : List Int} {as : List Axis} (h : BackAll ns ks as outs) : (List.zipWith gradPad ks as).all (fun p => decide (0 ≤ p)) = true := by
  induction h with
  | nil => rfl
  | cons h _ ih =>
    rename_i n k m a _ _ _ _ _
    have e : 0 ≤ gradPad k a := by
      have := h.within
      have e : (k - 1) * a.dilation = a.dilation * (k - 1) := Int.mul_comm _ _
      unfold gradPad
      omega
    simp only [List.zipWith_cons_cons, List.all_cons, ih, Bool.and_true, decide_eq_true_eq]
    exact e

theorem grad_fits {ns ks outs : List Int} {as : List Axis} (h : BackAll ns ks as outs) :
    (List.zipWith (fun (nm : Int × Int) (pa : Int × Axis) => fits nm.2 pa.1 nm.1 pa.2.stride) (outs.zip (forAxes gradSize ns ks as)) ((List.zipWith gradPad ks as).zip as)).all id =
      true := by
  induction h with
  | nil => rfl
  | cons h _ ih =>
    rename_i n k m a ns ks ms as _
    have e : fits (gradSize n k a) (gradPad k a) m a.stride = true := by
      have hw := h.within
      have hp := h.p0
      have hn := h.n0
      have hs := h.s0
      have e : (k - 1) * a.dilation = a.dilation * (k - 1) := Int.mul_comm _ _
      unfold fits gradSize gradPad
      refine decide_eq_true ⟨by omega, ?_⟩
      by_cases q : m = 0
      · have : (m - 1) * a.stride = -a.stride := by rw [q]; omega
        omega
      · have := (h.places (m - 1) (by have := h.m0; omega)).1 (by omega)
        omega
    simp only [forAxes, List.zip_cons_cons, List.zipWith_cons_cons, List.all_cons, id, e, Bool.true_and]
    exact ih

theorem back_lengths {ns ks outs : List Int} {as : List Axis} (h : BackAll ns ks as outs) : ns.length = as.length ∧ ks.length = as.length ∧ outs.length = as.length := by
  induction h with
  | nil => exact ⟨rfl, rfl, rfl⟩
  | cons _ _ ih => simp [ih.1, ih.2.1, ih.2.2]

theorem back_strides {ns ks outs : List Int} {as : List Axis} (h : BackAll ns ks as outs) : Strides outs as := by
  induction h with
  | nil => exact .nil
  | cons h _ ih => exact .cons h.s0 ih

/-- What is read from the scattered gradient. -/
theorem scatter_places {ns ks outs : List Int} {as : List Axis} (h : BackAll ns ks as outs) : ∀ {i k : List Int}, inRange ns i = true → inRange ks k = true →
    inRange (forAxes gradSize ns ks as) (tap (unitStrides as) i k) = true ∧
    unplace (List.zipWith gradPad ks as) outs (as.map (·.stride)) (tap (unitStrides as) i k) = orig outs as i (flipped ks k) ∧
    (∀ j, orig outs as i (flipped ks k) = some j → inRange outs j = true) := by
  induction h with
  | nil =>
    intro i k hi hk
    rw [inRange_nil hi, inRange_nil hk]
    refine ⟨rfl, rfl, fun j hj => ?_⟩
    simp only [orig, Option.some.injEq] at hj
    rw [← hj]; rfl
  | cons h _ ih =>
    rename_i n K m a ns ks ms as _
    intro i k hi hk
    obtain ⟨i, is, rfl, i0, i1, hi⟩ := inRange_uncons hi
    obtain ⟨k, js, rfl, k0, k1, hk⟩ := inRange_uncons hk
    obtain ⟨r1, r2, r3⟩ := ih hi hk
    have hd := h.d0
    have ekd : (K - 1 - k) * a.dilation = a.dilation * (K - 1) - k * a.dilation := by rw [Int.sub_mul, Int.mul_comm (K - 1)]
    have hkd : 0 ≤ k * a.dilation := Int.mul_nonneg k0 (by omega)
    have hkD := kernel_le hd k1
    have e : flipped (K :: ks) (k :: js) = (K - 1 - k) :: flipped ks js := rfl
    have e2 : unitStrides (a :: as) = { a with stride := 1 } :: unitStrides as := rfl
    have ep : i + k * a.dilation - gradPad K a = i + a.padding - (K - 1 - k) * a.dilation := by
      unfold gradPad
      rw [ekd, Int.mul_comm (K - 1)]
      omega
    rw [e, e2]
    simp only [forAxes, tap, List.zipWith_cons_cons, List.map_cons, Int.mul_one]
    refine ⟨inRange_cons.2 ⟨⟨by omega, by unfold gradSize; omega⟩, r1⟩, ?_, ?_⟩
    · simp only [unplace, orig, ep, r2]
      cases orig ms as is (flipped ks js) <;> rfl
    · intro j hj
      simp only [orig] at hj
      by_cases q : (i + a.padding - (K - 1 - k) * a.dilation) % a.stride = 0 ∧ 0 ≤ (i + a.padding - (K - 1 - k) * a.dilation) / a.stride ∧
          (i + a.padding - (K - 1 - k) * a.dilation) / a.stride < m
      · rw [if_pos q] at hj
        cases hr : orig ms as is (flipped ks js) with
        | none => rw [hr] at hj; simp at hj
        | some r =>
          rw [hr] at hj
          simp only [Option.some.injEq] at hj
          rw [← hj]
          exact inRange_cons.2 ⟨q.2, r3 r hr⟩
      · rw [if_neg q] at hj; simp at hj

/-- What is read from the padded gradient, if there are no strides. -/
theorem pad_places {ns ks outs : List Int} {as : List Axis} (h : BackAll ns ks as outs) : (as.any fun a => decide (1 < a.stride)) = false →
    ∀ {i k : List Int}, inRange ns i = true → inRange ks k = true →
    inRange (List.zipWith (· + ·) outs (List.zipWith (· + ·) (List.zipWith gradPad ks as) (List.zipWith gradPad ks as))) (tap (unitStrides as) i k) = true ∧
    orig outs as i (flipped ks k) = if inRange outs (List.zipWith (· - ·) (tap (unitStrides as) i k) (List.zipWith gradPad ks as)) then
      some (List.zipWith (· - ·) (tap (unitStrides as) i k) (List.zipWith gradPad ks as)) else none := by
  induction h with
  | nil =>
    intro _ i k hi hk
    rw [inRange_nil hi, inRange_nil hk]
    exact ⟨rfl, rfl⟩
  | cons h _ ih =>
    rename_i n K m a ns ks ms as _
    intro hany i k hi hk
    simp only [List.any_cons, Bool.or_eq_false_iff, decide_eq_false_iff_not] at hany
    obtain ⟨i, is, rfl, i0, i1, hi⟩ := inRange_uncons hi
    obtain ⟨k, js, rfl, k0, k1, hk⟩ := inRange_uncons hk
    obtain ⟨r1, r2⟩ := ih hany.2 hi hk
    have hs : a.stride = 1 := by have := h.s0; omega
    have hd := h.d0
    have ekd : (K - 1 - k) * a.dilation = a.dilation * (K - 1) - k * a.dilation := by rw [Int.sub_mul, Int.mul_comm (K - 1)]
    have hkd : 0 ≤ k * a.dilation := Int.mul_nonneg k0 (by omega)
    have hkD := kernel_le hd k1
    have hroom := h.room
    have hlast := (h.places (n + 2 * a.padding - a.dilation * (K - 1) - 1) (by omega)).2 (by rw [hs]; omega)
    have e : flipped (K :: ks) (k :: js) = (K - 1 - k) :: flipped ks js := rfl
    have e2 : unitStrides (a :: as) = { a with stride := 1 } :: unitStrides as := rfl
    have ep : i + k * a.dilation - gradPad K a = i + a.padding - (K - 1 - k) * a.dilation := by
      unfold gradPad
      rw [ekd, Int.mul_comm (K - 1)]
      omega
    have hg : gradPad K a = a.dilation * (K - 1) - a.padding := by unfold gradPad; rw [Int.mul_comm]
    rw [e, e2]
    simp only [tap, List.zipWith_cons_cons, Int.mul_one]
    refine ⟨inRange_cons.2 ⟨⟨by omega, by omega⟩, r1⟩, ?_⟩
    simp only [orig, ep, r2, hs, Int.emod_one, Int.ediv_one, true_and]
    generalize i + a.padding - (K - 1 - k) * a.dilation = T
    generalize List.zipWith (· - ·) (tap (unitStrides as) is js) (List.zipWith gradPad ks as) = j
    by_cases q : 0 ≤ T ∧ T < m
    · rw [if_pos q]
      by_cases p : inRange ms j = true
      · rw [if_pos p, if_pos (inRange_cons.2 ⟨q, p⟩)]
      · rw [if_neg p, if_neg fun h => p (inRange_cons.1 h).2]
    · rw [if_neg q, if_neg fun h => q (inRange_cons.1 h).1]

/-- The gradient made ready for the convolution. -/
theorem spread_read {go : Tensor E} {v : List Int → E} (hv : Pool.Holds go v) {L ns ks outs : List Int} {as : List Axis} (hs : go.sizes = L ++ outs) (h : BackAll ns ks as outs) (z : E) :
    ∃ P, spread L.length go ns ks as z = .ok P ∧ ∀ J i k, inRange L J = true → inRange ns i = true → inRange ks k = true →
      P.get (J ++ tap (unitStrides as) i k) = some ((orig outs as i (flipped ks k)).elim z fun q => v (J ++ q)) := by
  have d1 : go.sizes.drop L.length = outs := by rw [hs]; exact List.drop_left
  have d2 : go.sizes.take L.length = L := by rw [hs]; exact List.take_left
  unfold spread
  simp only [d1, d2]
  cases hany : as.any fun a => decide (1 < a.stride) with
  | true =>
    rw [if_pos rfl, if_pos (grad_fits h)]
    refine ⟨_, rfl, fun J i k hJ hi hk => ?_⟩
    obtain ⟨r1, r2, r3⟩ := scatter_places h hi hk
    have hin : inRange (L ++ forAxes gradSize ns ks as) (J ++ tap (unitStrides as) i k) = true := (inRange_app hJ).2 r1
    rw [get_of_range hin]
    simp only [insertSlice, hs]
    rw [unplace_app _ _ _ _ hJ, r2]
    cases ho : orig outs as i (flipped ks k) with
    | none => exact get_of_range hin
    | some q =>
      have hq : inRange go.sizes (J ++ q) = true := by rw [hs]; exact (inRange_app hJ).2 (r3 q ho)
      exact (get_of_range hq).trans (hv _ hq)
  | false =>
    rw [if_neg (by simp), if_pos (gradPad_nonneg h)]
    refine ⟨_, rfl, fun J i k hJ hi hk => ?_⟩
    obtain ⟨r1, r2⟩ := pad_places h hany hi hk
    rw [pad_read hv hs hJ r1, r2]
    by_cases q : inRange outs (List.zipWith (· - ·) (tap (unitStrides as) i k) (List.zipWith gradPad ks as)) = true
    · rw [if_pos q, if_pos q]; rfl
    · rw [if_neg q, if_neg q]; rfl

/-! ## Weights -/

theorem flipKept_eq : ∀ {tys : List (Option Int)} {ks k : List Int}, tys.length = ks.length → (∀ (d : Nat) (m : Int), tys[d]? = some (some m) → ks[d]? = some m) →
    inRange ks k = true → flipKept tys ks k = flipped ks k
  | [], [], k, _, _, h => by rw [inRange_nil h]; rfl
  | ty :: tys, K :: ks, k, hl, ht, h => by
    obtain ⟨i, js, rfl, h1, h2, h3⟩ := inRange_uncons h
    have ih := flipKept_eq (by simpa using hl) (fun d m => ht (d + 1) m) h3
    have e : flipped (K :: ks) (i :: js) = (K - 1 - i) :: flipped ks js := rfl
    simp only [flipKept, ih, e]
    congr 1
    by_cases q : ty = some 1
    · rw [if_pos q]
      have := ht 0 1 (by rw [q]; rfl)
      simp only [List.getElem?_cons_zero, Option.some.injEq] at this
      omega
    · rw [if_neg q]
  | [], _ :: _, _, h, _, _ => by simp at h
  | _ :: _, [], _, h, _, _ => by simp at h

theorem typeOf_drop {ty : List (Option Int)} {sizes : List Int} (h : TypeOf ty sizes) (n : Nat) :
    (ty.drop n).length = (sizes.drop n).length ∧ ∀ (d : Nat) (m : Int), (ty.drop n)[d]? = some (some m) → (sizes.drop n)[d]? = some m := by
  refine ⟨by simp [h.1], fun d m => ?_⟩
  rw [List.getElem?_drop, List.getElem?_drop]
  exact h.2 (n + d) m

theorem get_flipSpatial {w : Tensor E} {tys : List (Option Int)} {L ks J k : List Int} (hs : w.sizes = L ++ ks) (ht : tys.length = ks.length)
    (ht2 : ∀ (d : Nat) (m : Int), tys[d]? = some (some m) → ks[d]? = some m) (hJ : inRange L J = true) (hk : inRange ks k = true) :
    (flipSpatial L.length tys w).get (J ++ k) = w.get (J ++ flipped ks k) := by
  have hl : J.length = L.length := inRange_length hJ
  rw [get_of_range]
  · simp only [flipSpatial, hs]
    rw [← hl, List.take_left, List.drop_left, hl, List.drop_left, flipKept_eq ht ht2 hk]
  · simp only [flipSpatial, hs]
    exact (inRange_app hJ).2 hk

theorem holds_get {x : Tensor E} {v : List Int → E} (hv : Pool.Holds x v) {idx : List Int} (h : inRange x.sizes idx = true) : x.get idx = some (v idx) :=
  (get_of_range h).trans (hv _ h)

/-- The index in the tensor without groups. -/
def ungroup (c : Int) (idx : List Int) : List Int := idx.getD 0 0 :: (idx.getD 1 0 * c + idx.getD 2 0) :: idx.drop 3

theorem expandGroups_sizes {g n c : Int} (hg : 0 < g) {ns : List Int} {x : Tensor E} (hs : x.sizes = n :: g * c :: ns) : (expandGroups g x).sizes = [n, g, c] ++ ns := by
  have e : g * c / g = c := Int.mul_ediv_cancel_left _ (by omega)
  simp only [expandGroups, size, hs, List.getD_cons_succ, List.getD_cons_zero, List.drop_succ_cons, List.drop_zero, e, List.cons_append, List.nil_append]

theorem expandGroups_holds {g n c : Int} (hg : 0 < g) {ns : List Int} {x : Tensor E} (hs : x.sizes = n :: g * c :: ns) {v : List Int → E} (hv : Pool.Holds x v) :
    Pool.Holds (expandGroups g x) fun idx => v (ungroup c idx) := by
  intro idx hi
  have hi' := hi
  rw [expandGroups_sizes hg hs] at hi'
  obtain ⟨b, r, rfl, b0, b1, h⟩ := inRange_uncons hi'
  obtain ⟨q, r, rfl, q0, q1, h⟩ := inRange_uncons h
  obtain ⟨l, r, rfl, l0, l1, h⟩ := inRange_uncons h
  rw [← get_of_range hi, get_expandGroups g x hg hs ⟨b0, b1⟩ ⟨q0, q1⟩ ⟨l0, l1⟩ h]
  exact holds_get hv (by rw [hs]; exact inRange_cons.2 ⟨⟨b0, b1⟩, inRange_cons.2 ⟨channel ⟨q0, q1⟩ ⟨l0, l1⟩, h⟩⟩)

/-! ## Results -/

theorem closeGrad_ok (ar : GradArith E C R) {g : Int} {ty resTy : List (Option Int)} {t : Tensor C} (h : GradType g ty resTy t.sizes) :
    closeGrad ar g ty resTy t = .ok ⟨t.sizes, fun idx => (t.elem idx).map ar.finish⟩ := by
  unfold closeGrad
  rw [if_pos]
  by_cases q : 1 < g
  · rw [if_pos q, h.2 q]; simp
  · rw [if_neg q]; exact castOk_iff.2 h.1

theorem fdiv_groups {g c : Int} (hg : 0 < g) : (g * c).fdiv g = c := by
  rw [Int.fdiv_eq_ediv_of_nonneg _ (by omega), Int.mul_ediv_cancel_left _ (by omega)]

theorem split_channel {c q l : Int} (h0 : 0 ≤ l) (h1 : l < c) : (q * c + l) / c = q ∧ (q * c + l) % c = l := by
  constructor
  · rw [Int.add_comm, Int.add_mul_ediv_right _ _ (by omega), Int.ediv_eq_zero_of_lt h0 h1, Int.zero_add]
  · rw [Int.add_comm, Int.add_mul_emod_self_right, Int.emod_eq_of_lt h0 h1]

/-- The sum over what is read is the one over what has a part. -/
theorem input_sum [CommSemiring C] (ar : GradArith E C R) (hz : ar.lift ar.zero = 0) {ns ks outs : List Int} {as : List Axis} (h : BackAll ns ks as outs) {i : List Int}
    (hi : inRange ns i = true) (V : List Int → E) (W : List Int → E) :
    (sumOver ks fun k => ar.lift ((orig outs as i (flipped ks k)).elim ar.zero V) * ar.lift (W (flipped ks k))) =
      sumOver ks fun k => sumOver outs fun o => if reach as o k = i then ar.lift (V o) * ar.lift (W k) else 0 := by
  rw [sumOver_flip]
  refine sumOver_congr fun k hk => ?_
  have hl := back_lengths h
  rw [sum_orig (back_strides h) (fun o => ar.lift (V o) * ar.lift (W k)) (by rw [inRange_length hi, hl.1]) (by rw [inRange_length hk, hl.2.1]), (flip_range hk).2]
  cases orig outs as i k with
  | none => simp only [Option.elim, hz, zero_mul]
  | some r => rfl

theorem inputGrad_spec [CommSemiring C] (ar : GradArith E C R) (hz : ar.lift ar.zero = 0) {g n c f : Int} (hg : 0 < g) {ns ks outs : List Int} {as : List Axis}
    {go x w : Operand E} {vg vw : List Int → E} {resTy : List (Option Int)} (hgo : go.tensor.sizes = n :: g * f :: outs) (hx : x.tensor.sizes = n :: g * c :: ns)
    (hw : w.tensor.sizes = g * f :: c :: ks) (hvg : Pool.Holds go.tensor vg) (hvw : Pool.Holds w.tensor vw) (htw : TypeOf w.type w.tensor.sizes)
    (hgood : Good false ns ks as) (hp : Places ns ks as outs) (hin : Within ks as) (hty : GradType g x.type resTy x.tensor.sizes) :
    ∃ t, lowerInputGrad ar g as go x w resTy = .ok t ∧ IsInputGrad ar t g n c f ns ks outs as vg vw := by
  have hb := backAll (goodAll hgood) hp hin
  have d1 : x.tensor.sizes.drop 2 = ns := by rw [hx]; rfl
  have d2 : w.tensor.sizes.drop 2 = ks := by rw [hw]; rfl
  obtain ⟨t1, t2⟩ := typeOf_drop htw 2
  rw [d2] at t1 t2
  unfold lowerInputGrad
  simp only [d1, d2]
  rw [if_neg (by rw [not_negative hb]; simp)]
  by_cases h1 : 1 < g
  · rw [if_pos h1]
    have s0 : size x.tensor 0 = n := by unfold size; rw [hx]; rfl
    have s1 : size x.tensor 1 = g * c := by unfold size; rw [hx]; rfl
    have ew : (expandWeight g w.tensor).sizes = [g, f, c] ++ ks := by
      have e : g * f / g = f := Int.mul_ediv_cancel_left _ (by omega)
      simp only [expandWeight, size, hw, List.getD_cons_zero, List.drop_succ_cons, List.drop_zero, e, List.cons_append, List.nil_append]
    have sw : size (flipSpatial 3 (w.type.drop 2) (expandWeight g w.tensor)) 1 = f := by
      simp only [flipSpatial, size, ew]; rfl
    obtain ⟨P, hP, hread⟩ := spread_read (expandGroups_holds hg hgo hvg) (expandGroups_sizes hg hgo) hb ar.zero
    simp only [List.length_cons, List.length_nil, Nat.zero_add, Nat.reduceAdd] at hP
    simp only [hP, Outcome.bind, s0, s1, sw, fdiv_groups hg]
    rw [closeGrad_ok ar (by exact hty)]
    refine ⟨_, rfl, hx, fun b q l i b0 b1 q0 q1 l0 l1 hi => ?_⟩
    obtain ⟨e1, e2⟩ := split_channel (q := q) l0 l1
    simp only [collapseGroups, List.getD_cons_succ, List.getD_cons_zero, List.drop_succ_cons, List.drop_zero, e1, e2]
    have hr : inRange (n :: g :: c :: ns) (b :: q :: l :: i) = true := inRange_cons.2 ⟨⟨b0, b1⟩, inRange_cons.2 ⟨⟨q0, q1⟩, inRange_cons.2 ⟨⟨l0, l1⟩, hi⟩⟩⟩
    rw [get_of_range (by exact hr)]
    rw [convOp_elem ar.conv _ _ _ _ _ _ _ 0 (fun r => (orig outs as i (flipped ks (r.drop 1))).elim ar.zero fun o => vg (b :: (q * f + r.getD 0 0) :: o))
      (fun r => vw ((q * f + r.getD 0 0) :: l :: flipped ks (r.drop 1)))]
    · simp only [Option.map_some, zero_add, sumOver, List.getD_cons_zero, List.drop_succ_cons, List.drop_zero]
      congr 2
      refine sumTo_congr fun j _ _ => ?_
      exact input_sum ar hz hb hi (fun o => vg (b :: (q * f + j) :: o)) (fun k => vw ((q * f + j) :: l :: k))
    · exact get_of_range hr
    · intro r hr
      obtain ⟨j, k, rfl, j0, j1, hk⟩ := inRange_uncons hr
      have := hread [b, q, j] i k (inRange_cons.2 ⟨⟨b0, b1⟩, inRange_cons.2 ⟨⟨q0, q1⟩, inRange_cons.2 ⟨⟨j0, j1⟩, rfl⟩⟩⟩) hi hk
      exact this
    · intro r hr
      obtain ⟨j, k, rfl, j0, j1, hk⟩ := inRange_uncons hr
      have := get_flipSpatial (J := [q, j, l]) ew t1 t2 (inRange_cons.2 ⟨⟨q0, q1⟩, inRange_cons.2 ⟨⟨j0, j1⟩, inRange_cons.2 ⟨⟨l0, l1⟩, rfl⟩⟩⟩) hk
      refine this.trans ?_
      refine (get_expandWeight hg hw ⟨q0, q1⟩ ⟨j0, j1⟩ ⟨l0, l1⟩ (flip_range hk).1).trans ?_
      exact holds_get hvw (by rw [hw]; exact inRange_cons.2 ⟨channel ⟨q0, q1⟩ ⟨j0, j1⟩, inRange_cons.2 ⟨⟨l0, l1⟩, (flip_range hk).1⟩⟩)
  · have hg1 : g = 1 := by omega
    subst hg1
    rw [if_neg h1]
    rw [Int.one_mul] at hgo hx hw
    have sw : size (flipSpatial 2 (w.type.drop 2) w.tensor) 0 = f := by simp only [flipSpatial, size, hw]; rfl
    obtain ⟨P, hP, hread⟩ := spread_read (L := [n, f]) hvg hgo hb ar.zero
    simp only [List.length_cons, List.length_nil, Nat.zero_add, Nat.reduceAdd] at hP
    simp only [hP, Outcome.bind, sw]
    rw [closeGrad_ok ar (by exact hty)]
    refine ⟨_, rfl, by rw [Int.one_mul]; exact hx, fun b q l i b0 b1 q0 q1 l0 l1 hi => ?_⟩
    have hq : q = 0 := by omega
    subst hq
    simp only [Int.zero_mul, Int.zero_add]
    have hr : inRange x.tensor.sizes (b :: l :: i) = true := by rw [hx]; exact inRange_cons.2 ⟨⟨b0, b1⟩, inRange_cons.2 ⟨⟨l0, l1⟩, hi⟩⟩
    rw [convOp_elem ar.conv _ _ _ _ _ _ _ 0 (fun r => (orig outs as i (flipped ks (r.drop 1))).elim ar.zero fun o => vg (b :: r.getD 0 0 :: o))
      (fun r => vw (r.getD 0 0 :: l :: flipped ks (r.drop 1)))]
    · simp only [Option.map_some, zero_add, sumOver, List.getD_cons_zero, List.drop_succ_cons, List.drop_zero]
      congr 2
      refine sumTo_congr fun j _ _ => ?_
      exact input_sum ar hz hb hi (fun o => vg (b :: j :: o)) (fun k => vw (j :: l :: k))
    · exact get_of_range hr
    · intro r hr
      obtain ⟨j, k, rfl, j0, j1, hk⟩ := inRange_uncons hr
      exact hread [b, j] i k (inRange_cons.2 ⟨⟨b0, b1⟩, inRange_cons.2 ⟨⟨j0, j1⟩, rfl⟩⟩) hi hk
    · intro r hr
      obtain ⟨j, k, rfl, j0, j1, hk⟩ := inRange_uncons hr
      have := get_flipSpatial (L := [f, c]) (J := [j, l]) hw t1 t2 (inRange_cons.2 ⟨⟨j0, j1⟩, inRange_cons.2 ⟨⟨l0, l1⟩, rfl⟩⟩) hk
      refine this.trans ?_
      exact holds_get hvw (by rw [hw]; exact inRange_cons.2 ⟨⟨j0, j1⟩, inRange_cons.2 ⟨⟨l0, l1⟩, (flip_range hk).1⟩⟩)

theorem weight_sum [CommSemiring C] (ar : GradArith E C R) (hz : ar.lift ar.zero = 0) (ns : List Int) (j : List Int) (V : List Int → E) (y : C) :
    ar.lift (if inRange ns j then V j else ar.zero) * y = if inRange ns j then ar.lift (V j) * y else 0 := by
  by_cases h : inRange ns j = true
  · rw [if_pos h, if_pos h]
  · rw [if_neg h, if_neg h, hz, zero_mul]

theorem weightGrad_spec [CommSemiring C] (ar : GradArith E C R) (hz : ar.lift ar.zero = 0) {g n c f : Int} (hg : 0 < g) {ns ks outs : List Int} {as : List Axis}
    {go x w : Operand E} {vg vx : List Int → E} {resTy : List (Option Int)} (hgo : go.tensor.sizes = n :: g * f :: outs) (hx : x.tensor.sizes = n :: g * c :: ns)
    (hw : w.tensor.sizes = g * f :: c :: ks) (hvg : Pool.Holds go.tensor vg) (hvx : Pool.Holds x.tensor vx)
    (hgood : Good false ns ks as) (hp : Places ns ks as outs) (hty : GradType g w.type resTy w.tensor.sizes) :
    ∃ t, lowerWeightGrad ar g as go x w resTy = .ok t ∧ IsWeightGrad ar t g n c f ns ks outs as vg vx := by
  have hga := goodAll hgood
  have hl := lengths hga
  have d1 : go.tensor.sizes.drop 2 = outs := by rw [hgo]; rfl
  have d2 : w.tensor.sizes.drop 2 = ks := by rw [hw]; rfl
  have s0 : size go.tensor 0 = n := by unfold size; rw [hgo]; rfl
  have s1 : size w.tensor 0 = g * f := by unfold size; rw [hw]; rfl
  have s2 : size w.tensor 1 = c := by unfold size; rw [hw]; rfl
  have er : ∀ o k, inRange outs o = true → inRange ks k = true → List.zipWith (· - ·) (tap as o k) (as.map (·.padding)) = reach as o k := fun o k ho hk =>
    tap_reach as o k (by rw [inRange_length ho, places_length hp]) (by rw [inRange_length hk, hl.2])
  unfold lowerWeightGrad
  simp only [d1, d2, s0, s1, s2, fdiv_groups hg]
  by_cases h1 : 1 < g
  · rw [if_pos h1, closeGrad_ok ar (by exact hty)]
    refine ⟨_, rfl, hw, fun q j l k q0 q1 j0 j1 l0 l1 hk => ?_⟩
    obtain ⟨e1, e2⟩ := split_channel (q := q) j0 j1
    simp only [collapseFirst, List.getD_cons_zero, List.drop_succ_cons, List.drop_zero, e1, e2]
    have hr : inRange (g :: f :: c :: ks) (q :: j :: l :: k) = true := inRange_cons.2 ⟨⟨q0, q1⟩, inRange_cons.2 ⟨⟨j0, j1⟩, inRange_cons.2 ⟨⟨l0, l1⟩, hk⟩⟩⟩
    rw [get_of_range (by exact hr)]
    rw [convOp_elem ar.conv _ _ _ _ _ _ _ 0
      (fun r => if inRange ns (reach as (r.drop 1) k) then vx (r.getD 0 0 :: (q * c + l) :: reach as (r.drop 1) k) else ar.zero)
      (fun r => vg (r.getD 0 0 :: (q * f + j) :: r.drop 1))]
    · simp only [Option.map_some, zero_add, sumOver, List.getD_cons_zero, List.drop_succ_cons, List.drop_zero]
      congr 2
      refine sumTo_congr fun b _ _ => sumOver_congr fun o _ => ?_
      exact weight_sum ar hz ns (reach as o k) (fun i => vx (b :: (q * c + l) :: i)) _
    · exact get_of_range hr
    · intro r hr
      obtain ⟨b, o, rfl, b0, b1, ho⟩ := inRange_uncons hr
      have := pad_read (expandGroups_holds hg hx hvx) (J := [b, q, l]) (z := ar.zero) (expandGroups_sizes hg hx)
        (inRange_cons.2 ⟨⟨b0, b1⟩, inRange_cons.2 ⟨⟨q0, q1⟩, inRange_cons.2 ⟨⟨l0, l1⟩, rfl⟩⟩⟩) (tap_range hga hp ho hk)
      rw [er o k ho hk] at this
      exact this
    · intro r hr
      obtain ⟨b, o, rfl, b0, b1, ho⟩ := inRange_uncons hr
      refine (get_expandGroups g go.tensor hg hgo ⟨b0, b1⟩ ⟨q0, q1⟩ ⟨j0, j1⟩ ho).trans ?_
      exact holds_get hvg (by rw [hgo]; exact inRange_cons.2 ⟨⟨b0, b1⟩, inRange_cons.2 ⟨channel ⟨q0, q1⟩ ⟨j0, j1⟩, ho⟩⟩)
  · have hg1 : g = 1 := by omega
    subst hg1
    rw [if_neg h1, closeGrad_ok ar (by exact hty)]
    rw [Int.one_mul] at hgo hx hw
    refine ⟨_, rfl, by rw [Int.one_mul]; exact hw, fun q j l k q0 q1 j0 j1 l0 l1 hk => ?_⟩
    have hq : q = 0 := by omega
    subst hq
    simp only [Int.zero_mul, Int.zero_add]
    have hr : inRange w.tensor.sizes (j :: l :: k) = true := by rw [hw]; exact inRange_cons.2 ⟨⟨j0, j1⟩, inRange_cons.2 ⟨⟨l0, l1⟩, hk⟩⟩
    rw [convOp_elem ar.conv _ _ _ _ _ _ _ 0
      (fun r => if inRange ns (reach as (r.drop 1) k) then vx (r.getD 0 0 :: l :: reach as (r.drop 1) k) else ar.zero)
      (fun r => vg (r.getD 0 0 :: j :: r.drop 1))]
    · simp only [Option.map_some, zero_add, sumOver, List.getD_cons_zero, List.drop_succ_cons, List.drop_zero]
      congr 2
      refine sumTo_congr fun b _ _ => sumOver_congr fun o _ => ?_
      exact weight_sum ar hz ns (reach as o k) (fun i => vx (b :: l :: i)) _
    · exact get_of_range hr
    · intro r hr
      obtain ⟨b, o, rfl, b0, b1, ho⟩ := inRange_uncons hr
      have := pad_read (L := [n, c]) hvx (J := [b, l]) (z := ar.zero) hx (inRange_cons.2 ⟨⟨b0, b1⟩, inRange_cons.2 ⟨⟨l0, l1⟩, rfl⟩⟩) (tap_range hga hp ho hk)
      rw [er o k ho hk] at this
      exact this
    · intro r hr
      obtain ⟨b, o, rfl, b0, b1, ho⟩ := inRange_uncons hr
      exact holds_get hvg (by rw [hgo]; exact inRange_cons.2 ⟨⟨b0, b1⟩, inRange_cons.2 ⟨⟨j0, j1⟩, ho⟩⟩)

theorem bias_fold [CommSemiring C] {α : Type} (lx : E → C) (X : α → Option E) (fx : α → E) : ∀ (l : List α) (c : C), (∀ r ∈ l, X r = some (fx r)) →
    l.foldl (fun acc r => acc.bind fun c => (X r).map fun a => lx a + c) (some c) = some (c + (l.map fun r => lx (fx r)).sum)
  | [], c, _ => by simp
  | r :: l, c, h => by
    simp only [List.foldl_cons]
    rw [h r (List.mem_cons_self ..)]
    simp only [Option.bind_some, Option.map_some]
    rw [bias_fold lx X fx l _ fun r hr => h r (List.mem_cons_of_mem _ hr)]
    simp only [List.map_cons, List.sum_cons]
    congr 1
    ring

theorem biasGrad_spec [CommSemiring C] (ar : GradArith E C R) {n m : Int} {outs : List Int} {go : Operand E} {vg : List Int → E} {resTy : List (Option Int)}
    (hgo : go.tensor.sizes = n :: m :: outs) (hvg : Pool.Holds go.tensor vg) (hty : TypeOf resTy [m]) :
    ∃ t, lowerBiasGrad ar go resTy = .ok t ∧ IsBiasGrad ar t m n outs vg := by
  have d1 : go.tensor.sizes.drop 2 = outs := by rw [hgo]; rfl
  have s0 : size go.tensor 0 = n := by unfold size; rw [hgo]; rfl
  have s1 : size go.tensor 1 = m := by unfold size; rw [hgo]; rfl
  unfold lowerBiasGrad
  simp only [d1, s0, s1]
  rw [closeGrad_ok ar ⟨hty, fun h => absurd h (by omega)⟩]
  refine ⟨_, rfl, rfl, fun j j0 j1 => ?_⟩
  simp only [List.getD_cons_zero]
  rw [bias_fold ar.lift (fun r : List Int => go.tensor.get (r.getD 0 0 :: j :: r.drop 1)) (fun r => vg (r.getD 0 0 :: j :: r.drop 1))]
  · rw [← sumOver_loops (n :: outs) fun r => ar.lift (vg (r.getD 0 0 :: j :: r.drop 1))]
    simp only [Option.map_some, zero_add, sumOver, List.getD_cons_zero, List.drop_succ_cons, List.drop_zero]
  · intro r hr
    obtain ⟨b, o, rfl, b0, b1, ho⟩ := inRange_uncons (Pool.mem_loops hr)
    exact holds_get hvg (by rw [hgo]; exact inRange_cons.2 ⟨⟨b0, b1⟩, inRange_cons.2 ⟨⟨j0, j1⟩, ho⟩⟩)

end Verif.Conv
