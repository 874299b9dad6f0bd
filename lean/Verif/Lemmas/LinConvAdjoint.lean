import Verif.Lemmas.LinConvBack
import Mathlib.Algebra.BigOperators.Ring.Finset

/-! # Gradients of convolutions are adjoint to them -/

namespace Verif.Conv

open Lin

variable {E C R : Type}

theorem sumTo_comm [AddCommMonoid C] (n m : Int) (f : Int → Int → C) : (sumTo n fun i => sumTo m (f i)) = sumTo m fun j => sumTo n fun i => f i j := by
  simp only [sumTo_finset]
  exact Finset.sum_comm

theorem sumTo_over [AddCommMonoid C] (n : Int) : ∀ (ks : List Int) (f : Int → List Int → C), (sumTo n fun i => sumOver ks (f i)) = sumOver ks fun k => sumTo n fun i => f i k
  | [], _ => rfl
  | k :: ks, f => by
    simp only [sumOver]
    rw [sumTo_comm]
    exact sumTo_congr fun j _ _ => sumTo_over n ks fun i r => f i (j :: r)

theorem sumOver_comm [AddCommMonoid C] (ms : List Int) : ∀ (ks : List Int) (f : List Int → List Int → C),
    (sumOver ks fun k => sumOver ms (f k)) = sumOver ms fun m => sumOver ks fun k => f k m
  | [], _ => rfl
  | k :: ks, f => by
    simp only [sumOver]
    rw [sumTo_congr fun i _ _ => sumOver_comm ms ks fun r => f (i :: r)]
    exact sumTo_over k ms fun i m => sumOver ks fun r => f (i :: r) m

theorem mul_sumTo [CommSemiring C] (c : C) (n : Int) (f : Int → C) : c * sumTo n f = sumTo n fun i => c * f i := by
  simp only [sumTo_finset]
  exact Finset.mul_sum ..

theorem mul_sumOver [CommSemiring C] (c : C) : ∀ (ks : List Int) (f : List Int → C), c * sumOver ks f = sumOver ks fun k => c * f k
  | [], _ => rfl
  | k :: ks, f => by
    simp only [sumOver]
    rw [mul_sumTo]
    exact sumTo_congr fun i _ _ => mul_sumOver c ks fun r => f (i :: r)

theorem sumTo_add [AddCommMonoid C] (n : Int) (f g : Int → C) : (sumTo n fun i => f i + g i) = sumTo n f + sumTo n g := by
  simp only [sumTo_finset]
  exact Finset.sum_add_distrib

theorem sumOver_add [AddCommMonoid C] : ∀ (ks : List Int) (f g : List Int → C), (sumOver ks fun i => f i + g i) = sumOver ks f + sumOver ks g
  | [], _, _ => rfl
  | k :: ks, f, g => by
    simp only [sumOver]
    rw [← sumTo_add]
    exact sumTo_congr fun i _ _ => sumOver_add ks (fun r => f (i :: r)) fun r => g (i :: r)

/-- A sum with one term. -/
theorem sumOver_single [AddCommMonoid C] : ∀ (ns j : List Int) (F : List Int → C), (sumOver ns fun i => if j = i then F i else 0) = if inRange ns j then F j else 0
  | [], [], F => by simp [sumOver, inRange]
  | [], a :: j, F => by simp [sumOver, inRange]
  | n :: ns, [], F => by
    simp only [sumOver]
    rw [if_neg (by simp [inRange])]
    refine (sumTo_congr fun i _ _ => (sumOver_congr (g := fun _ => 0) fun r _ => if_neg (by simp)).trans (sumOver_zero ns)).trans (sumTo_zero n)
  | n :: ns, a :: j, F => by
    simp only [sumOver, List.cons.injEq]
    rw [sumTo_single (q := a) fun i _ _ hne => (sumOver_congr (g := fun _ => 0) fun r _ => if_neg fun h => hne h.1.symm).trans (sumOver_zero ns)]
    by_cases q : 0 ≤ a ∧ a < n
    · rw [if_pos q]
      simp only [true_and]
      rw [sumOver_single ns j fun r => F (a :: r)]
      by_cases p : inRange ns j = true
      · rw [if_pos p, if_pos (inRange_cons.2 ⟨q, p⟩)]
      · rw [if_neg p, if_neg fun h => p (inRange_cons.1 h).2]
    · rw [if_neg q, if_neg fun h => q (inRange_cons.1 h).1]

theorem sum_range_mul [AddCommMonoid C] (f : Nat) (F : Nat → C) : ∀ g : Nat, ∑ i ∈ Finset.range (g * f), F i = ∑ q ∈ Finset.range g, ∑ j ∈ Finset.range f, F (q * f + j)
  | 0 => by simp
  | g + 1 => by
    rw [Nat.add_mul, Nat.one_mul, Finset.sum_range_add, Finset.sum_range_succ, sum_range_mul f F g]

theorem sumTo_groups [AddCommMonoid C] {g : Int} (hg : 0 < g) (f : Int) (F : Int → C) : sumTo (g * f) F = sumTo g fun q => sumTo f fun j => F (q * f + j) := by
  simp only [sumTo_finset]
  by_cases h : 0 ≤ f
  · obtain ⟨f, rfl⟩ := Int.eq_ofNat_of_zero_le h
    obtain ⟨g, rfl⟩ := Int.eq_ofNat_of_zero_le (Int.le_of_lt hg)
    have e : ((g : Int) * (f : Int)).toNat = g * f := by rw [← Int.natCast_mul, Int.toNat_natCast]
    rw [e, Int.toNat_natCast, Int.toNat_natCast, sum_range_mul f (fun i => F i) g]
    simp
  · have e : f.toNat = 0 := by omega
    have e2 : (g * f).toNat = 0 := by
      have := Int.mul_neg_of_pos_of_neg hg (show f < 0 by omega)
      omega
    simp [e, e2]

/-- Within a group: results paired with gradients are inputs paired with theirs. -/
theorem adjoint_input [CommSemiring C] (f c : Int) (ns ks outs : List Int) (rch : List Int → List Int → List Int) (G : Int → List Int → C) (X : Int → List Int → C)
    (W : Int → Int → List Int → C) :
    (sumTo f fun j => sumOver outs fun o => G j o * sumTo c fun l => sumOver ks fun k => if inRange ns (rch o k) then X l (rch o k) * W j l k else 0) =
      sumTo c fun l => sumOver ns fun i => X l i * sumTo f fun j => sumOver ks fun k => sumOver outs fun o => if rch o k = i then G j o * W j l k else 0 := by
  have hr : ∀ l, (sumOver ns fun i => X l i * sumTo f fun j => sumOver ks fun k => sumOver outs fun o => if rch o k = i then G j o * W j l k else 0) =
      sumTo f fun j => sumOver outs fun o => sumOver ks fun k => if inRange ns (rch o k) then X l (rch o k) * (G j o * W j l k) else 0 := by
    intro l
    have e1 : ∀ i, (X l i * sumTo f fun j => sumOver ks fun k => sumOver outs fun o => if rch o k = i then G j o * W j l k else 0) =
        sumTo f fun j => sumOver outs fun o => sumOver ks fun k => if rch o k = i then X l i * (G j o * W j l k) else 0 := by
      intro i
      rw [mul_sumTo]
      refine sumTo_congr fun j _ _ => ?_
      rw [sumOver_comm, mul_sumOver]
      refine sumOver_congr fun o _ => ?_
      rw [mul_sumOver]
      refine sumOver_congr fun k _ => ?_
      by_cases h : rch o k = i
      · rw [if_pos h, if_pos h]
      · rw [if_neg h, if_neg h, mul_zero]
    rw [sumOver_congr fun i _ => e1 i, ← sumTo_over]
    refine sumTo_congr fun j _ _ => ?_
    rw [sumOver_comm]
    refine sumOver_congr fun o _ => ?_
    rw [sumOver_comm]
    refine sumOver_congr fun k _ => ?_
    exact sumOver_single ns (rch o k) fun i => X l i * (G j o * W j l k)
  rw [sumTo_congr fun l _ _ => hr l, sumTo_comm]
  refine sumTo_congr fun j _ _ => ?_
  rw [sumTo_over]
  refine sumOver_congr fun o _ => ?_
  rw [mul_sumTo]
  refine sumTo_congr fun l _ _ => ?_
  rw [mul_sumOver]
  refine sumOver_congr fun k _ => ?_
  by_cases h : inRange ns (rch o k) = true
  · rw [if_pos h, if_pos h]; ring
  · rw [if_neg h, if_neg h, mul_zero]

/-- Within a channel of a group: results paired with gradients are weights paired with theirs. -/
theorem adjoint_weight [CommSemiring C] (n c : Int) (ns ks outs : List Int) (rch : List Int → List Int → List Int) (G : Int → List Int → C) (X : Int → Int → List Int → C)
    (W : Int → List Int → C) :
    (sumTo n fun b => sumOver outs fun o => G b o * sumTo c fun l => sumOver ks fun k => if inRange ns (rch o k) then X b l (rch o k) * W l k else 0) =
      sumTo c fun l => sumOver ks fun k => W l k * sumTo n fun b => sumOver outs fun o => if inRange ns (rch o k) then X b l (rch o k) * G b o else 0 := by
  have hl : ∀ b, (sumOver outs fun o => G b o * sumTo c fun l => sumOver ks fun k => if inRange ns (rch o k) then X b l (rch o k) * W l k else 0) =
      sumTo c fun l => sumOver ks fun k => W l k * sumOver outs fun o => if inRange ns (rch o k) then X b l (rch o k) * G b o else 0 := by
    intro b
    rw [sumOver_congr fun o _ => mul_sumTo (G b o) c _, ← sumTo_over]
    refine sumTo_congr fun l _ _ => ?_
    rw [sumOver_congr fun o _ => mul_sumOver (G b o) ks _, sumOver_comm]
    refine sumOver_congr fun k _ => ?_
    rw [mul_sumOver]
    refine sumOver_congr fun o _ => ?_
    by_cases h : inRange ns (rch o k) = true
    · rw [if_pos h, if_pos h]; ring
    · rw [if_neg h, if_neg h, mul_zero, mul_zero]
  rw [sumTo_congr fun b _ _ => hl b, sumTo_comm]
  refine sumTo_congr fun l _ _ => ?_
  rw [sumTo_over]
  refine sumOver_congr fun k _ => ?_
  rw [mul_sumTo]

/-- The values of a tensor. -/
def values [Zero C] (t : Tensor C) (idx : List Int) : C := (t.elem idx).getD 0

theorem into_groups {g f i : Int} (h0 : 0 ≤ i) (h1 : i < g * f) (hg : 0 < g) : ∃ q j, i = q * f + j ∧ 0 ≤ q ∧ q < g ∧ 0 ≤ j ∧ j < f := by
  have hf : 0 < f := by
    by_contra h
    have := Int.mul_nonpos_of_nonneg_of_nonpos (Int.le_of_lt hg) (show f ≤ 0 by omega)
    omega
  refine ⟨i / f, i % f, ?_, Int.ediv_nonneg h0 (by omega), Int.ediv_lt_of_lt_mul hf h1, Int.emod_nonneg _ (by omega), Int.emod_lt_of_pos _ hf⟩
  rw [Int.mul_comm, Int.mul_ediv_add_emod]

theorem holds_values [Zero C] {t : Tensor C} (h : ∀ idx, inRange t.sizes idx = true → ∃ v, t.elem idx = some v) : Pool.Holds t (values t) := by
  intro idx hi
  obtain ⟨v, hv⟩ := h idx hi
  rw [values, hv]; rfl

theorem adjoint [CommSemiring C] (lift : E → C) (zero : E) {g n c f : Int} (hg : 0 < g) {ns ks outs : List Int} {as : List Axis} {y dx dw db : Tensor C}
    {vg vx vw : List Int → E} {vb : Int → C} (hy : IsConv (⟨lift, lift, zero, id⟩ : Arith E E C C) y g n c f ns ks outs as vx vw vb)
    (hx : IsInputGrad ⟨lift, zero, id⟩ dx g n c f ns ks outs as vg vw) (hw : IsWeightGrad ⟨lift, zero, id⟩ dw g n c f ns ks outs as vg vx)
    (hb : IsBiasGrad ⟨lift, zero, id⟩ db (g * f) n outs vg) :
    ∃ vy vdx vdw vdb, Pool.Holds y vy ∧ Pool.Holds dx vdx ∧ Pool.Holds dw vdw ∧ Pool.Holds db vdb ∧
      pairing y.sizes (fun i => lift (vg i)) vy = pairing dx.sizes (fun i => lift (vx i)) vdx + pairing db.sizes (fun i => vb (i.getD 0 0)) vdb ∧
      pairing y.sizes (fun i => lift (vg i)) vy = pairing dw.sizes (fun i => lift (vw i)) vdw + pairing db.sizes (fun i => vb (i.getD 0 0)) vdb := by
  refine ⟨values y, values dx, values dw, values db, holds_values ?_, holds_values ?_, holds_values ?_, holds_values ?_, ?_⟩
  · intro idx hi
    rw [hy.1] at hi
    obtain ⟨b, r, rfl, b0, b1, hi⟩ := inRange_uncons hi
    obtain ⟨i, r, rfl, i0, i1, ho⟩ := inRange_uncons hi
    obtain ⟨q, j, rfl, q0, q1, j0, j1⟩ := into_groups i0 i1 hg
    exact ⟨_, hy.2 b q j r b0 b1 q0 q1 j0 j1 ho⟩
  · intro idx hi
    rw [hx.1] at hi
    obtain ⟨b, r, rfl, b0, b1, hi⟩ := inRange_uncons hi
    obtain ⟨i, r, rfl, i0, i1, ho⟩ := inRange_uncons hi
    obtain ⟨q, j, rfl, q0, q1, j0, j1⟩ := into_groups i0 i1 hg
    exact ⟨_, hx.2 b q j r b0 b1 q0 q1 j0 j1 ho⟩
  · intro idx hi
    rw [hw.1] at hi
    obtain ⟨i, r, rfl, i0, i1, hi⟩ := inRange_uncons hi
    obtain ⟨l, r, rfl, l0, l1, ho⟩ := inRange_uncons hi
    obtain ⟨q, j, rfl, q0, q1, j0, j1⟩ := into_groups i0 i1 hg
    exact ⟨_, hw.2 q j l r q0 q1 j0 j1 l0 l1 ho⟩
  · intro idx hi
    rw [hb.1] at hi
    obtain ⟨i, r, rfl, i0, i1, hi⟩ := inRange_uncons hi
    rw [inRange_nil hi]
    exact ⟨_, hb.2 i i0 i1⟩
  · have eb : pairing db.sizes (fun i => vb (i.getD 0 0)) (values db) =
        sumTo n fun b => sumTo g fun q => sumTo f fun j => sumOver outs fun o => lift (vg (b :: (q * f + j) :: o)) * vb (q * f + j) := by
      unfold pairing
      rw [hb.1]
      simp only [sumOver, List.getD_cons_zero]
      rw [sumTo_congr (g := fun i => sumTo n fun b => sumOver outs fun o => lift (vg (b :: i :: o)) * vb i), sumTo_comm]
      · exact sumTo_congr fun b _ _ => sumTo_groups hg f _
      · intro i i0 i1
        rw [values, hb.2 i i0 i1, Option.getD_some]
        simp only [id]
        rw [mul_sumTo]
        refine sumTo_congr fun b _ _ => ?_
        rw [mul_sumOver]
        exact sumOver_congr fun o _ => mul_comm _ _
    have ey : pairing y.sizes (fun i => lift (vg i)) (values y) =
        (sumTo n fun b => sumTo g fun q => sumTo f fun j => sumOver outs fun o => lift (vg (b :: (q * f + j) :: o)) * sumTo c fun l => sumOver ks fun k =>
          if inRange ns (reach as o k) then lift (vx (b :: (q * c + l) :: reach as o k)) * lift (vw ((q * f + j) :: l :: k)) else 0) +
        sumTo n fun b => sumTo g fun q => sumTo f fun j => sumOver outs fun o => lift (vg (b :: (q * f + j) :: o)) * vb (q * f + j) := by
      unfold pairing
      rw [hy.1]
      simp only [sumOver]
      rw [← sumTo_add]
      refine sumTo_congr fun b b0 b1 => ?_
      rw [sumTo_groups hg, ← sumTo_add]
      refine sumTo_congr fun q q0 q1 => ?_
      rw [← sumTo_add]
      refine sumTo_congr fun j j0 j1 => ?_
      rw [← sumOver_add]
      refine sumOver_congr fun o ho => ?_
      rw [values, hy.2 b q j o b0 b1 q0 q1 j0 j1 ho, Option.getD_some]
      simp only [id]
      rw [mul_add, add_comm]
    rw [ey, eb]
    constructor
    · congr 1
      unfold pairing
      rw [hx.1]
      simp only [sumOver]
      refine sumTo_congr fun b b0 b1 => ?_
      rw [sumTo_groups hg]
      refine sumTo_congr fun q q0 q1 => ?_
      rw [adjoint_input f c ns ks outs (reach as) (fun j o => lift (vg (b :: (q * f + j) :: o))) (fun l i => lift (vx (b :: (q * c + l) :: i)))
        fun j l k => lift (vw ((q * f + j) :: l :: k))]
      refine sumTo_congr fun l l0 l1 => sumOver_congr fun i hi => ?_
      rw [values, hx.2 b q l i b0 b1 q0 q1 l0 l1 hi]
      rfl
    · congr 1
      unfold pairing
      rw [hw.1]
      simp only [sumOver]
      rw [sumTo_comm, sumTo_groups hg]
      refine sumTo_congr fun q q0 q1 => ?_
      rw [sumTo_comm]
      refine sumTo_congr fun j j0 j1 => ?_
      rw [adjoint_weight n c ns ks outs (reach as) (fun b o => lift (vg (b :: (q * f + j) :: o))) (fun b l i => lift (vx (b :: (q * c + l) :: i)))
        fun l k => lift (vw ((q * f + j) :: l :: k))]
      refine sumTo_congr fun l l0 l1 => sumOver_congr fun k hk => ?_
      rw [values, hw.2 q j l k q0 q1 j0 j1 l0 l1 hk]
      rfl

end Verif.Conv
