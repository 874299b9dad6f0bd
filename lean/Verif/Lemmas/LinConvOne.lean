import Verif.Lemmas.LinConvLower
import Verif.Spec.LinPerm
import Verif.Lemmas.LinDiag

/-! # Convolutions: one dimension, and the type of the result -/

namespace Verif.Conv

open Lin

variable {A B C R : Type}

/-- The dimension added to those of a convolution in one. -/
def unit : Axis := ⟨1, 0, 1, 0, true⟩

theorem sumOver_unit [AddCommMonoid C] (k : Int) (F : List Int → C) : sumOver [k, 1] F = sumOver [k] fun r => F (r ++ [0]) := by
  simp only [sumOver, sumTo_one, List.cons_append, List.nil_append]

theorem reach_unit (a : Axis) (o k : Int) : reach [a, unit] [o, 0] [k, 0] = reach [a] [o] [k] ++ [0] := by
  simp [reach, unit]

theorem squeeze_conv [CommSemiring C] (ar : Arith A B C R) {t : Tensor C} {g n c f n0 k0 m : Int} {a : Axis} {vx : List Int → A} {vw : List Int → B} {vb : Int → C}
    (h : IsConv (plainArith ar) t g n c f [n0, 1] [k0, 1] [m, 1] [a, unit] (fun idx => vx idx.dropLast) (fun idx => vw idx.dropLast) vb) :
    ∃ t', squeeze t = .ok t' ∧ IsConv (plainArith ar) t' g n c f [n0] [k0] [m] [a] vx vw vb := by
  obtain ⟨h1, h2⟩ := h
  unfold squeeze
  rw [h1, if_pos (show [n, g * f, m, 1].getLast? = some 1 from rfl)]
  refine ⟨_, rfl, rfl, fun b q j o q1 q2 q3 q4 q5 q6 ho => ?_⟩
  obtain ⟨o, js, rfl, o0, o1, ho⟩ := inRange_uncons ho
  rw [inRange_nil ho]
  refine (h2 b q j [o, 0] q1 q2 q3 q4 q5 q6 (inRange_cons.2 ⟨⟨o0, o1⟩, rfl⟩)).trans ?_
  congr 3
  refine sumTo_congr fun l _ _ => ?_
  rw [sumOver_unit]
  refine sumOver_congr fun k hk => ?_
  obtain ⟨k, js, rfl, k0, k1, hk⟩ := inRange_uncons hk
  rw [inRange_nil hk]
  simp only [List.cons_append, List.nil_append, reach_unit]
  have e : inRange [n0, 1] (reach [a] [o] [k] ++ [0]) = inRange [n0] (reach [a] [o] [k]) := by
    simp [reach, inRange]
  rw [e]
  rfl

theorem squeeze_transposed [CommSemiring C] (ar : Arith A B C R) {t : Tensor C} {g n c f n0 k0 m : Int} {a : Axis} {vx : List Int → A} {vw : List Int → B} {vb : Int → C}
    (h : IsTransposedConv (plainArith ar) t g n c f [n0, 1] [k0, 1] [m, 1] [a, unit] (fun idx => vx idx.dropLast) (fun idx => vw idx.dropLast) vb) :
    ∃ t', squeeze t = .ok t' ∧ IsTransposedConv (plainArith ar) t' g n c f [n0] [k0] [m] [a] vx vw vb := by
  obtain ⟨h1, h2⟩ := h
  unfold squeeze
  rw [h1, if_pos (show [n, g * f, m, 1].getLast? = some 1 from rfl)]
  refine ⟨_, rfl, rfl, fun b q j o q1 q2 q3 q4 q5 q6 ho => ?_⟩
  obtain ⟨o, js, rfl, o0, o1, ho⟩ := inRange_uncons ho
  rw [inRange_nil ho]
  refine (h2 b q j [o, 0] q1 q2 q3 q4 q5 q6 (inRange_cons.2 ⟨⟨o0, o1⟩, rfl⟩)).trans ?_
  congr 3
  refine sumTo_congr fun l _ _ => ?_
  rw [sumOver_unit]
  refine sumOver_congr fun k hk => ?_
  obtain ⟨k, js, rfl, k0, k1, hk⟩ := inRange_uncons hk
  rw [inRange_nil hk, sumOver_unit]
  refine sumOver_congr fun i hi => ?_
  obtain ⟨i, js, rfl, i0, i1, hi⟩ := inRange_uncons hi
  rw [inRange_nil hi]
  simp only [List.cons_append, List.nil_append, reach_unit]
  simp [reach, List.dropLast]

theorem unsqueeze_holds {E : Type} {x : Operand E} {vx : List Int → E} (h : Pool.Holds x.tensor vx) : Pool.Holds (unsqueeze x).tensor fun idx => vx idx.dropLast := by
  intro idx hi
  refine h _ ?_
  have hl := inRange_length hi
  have hne : idx ≠ [] := by
    intro he
    rw [he] at hl
    simp [unsqueeze] at hl
  rw [← List.dropLast_append_getLast hne] at hi
  have hl' : idx.dropLast.length = x.tensor.sizes.length := by
    rw [List.length_dropLast, hl]
    simp [unsqueeze]
  have := inRange_append (ns := x.tensor.sizes) (ms := [1]) (is := idx.dropLast) (js := [idx.getLast hne]) hl'
  simp only [unsqueeze] at hi
  rw [this, Bool.and_eq_true] at hi
  exact hi.1

theorem unsqueeze_type {E : Type} {x : Operand E} (h : TypeOf x.type x.tensor.sizes) : TypeOf (unsqueeze x).type (unsqueeze x).tensor.sizes := by
  refine ⟨by simp [unsqueeze, h.1], fun d m hd => ?_⟩
  simp only [unsqueeze] at hd ⊢
  by_cases hlt : d < x.type.length
  · rw [List.getElem?_append_left hlt] at hd
    rw [List.getElem?_append_left (by rw [← h.1]; exact hlt)]
    exact h.2 d m hd
  · rw [List.getElem?_append_right (by omega)] at hd
    rw [List.getElem?_append_right (by rw [← h.1]; omega), ← h.1]
    cases hk : d - x.type.length with
    | zero => rw [hk] at hd; simp at hd ⊢; exact hd
    | succ i => rw [hk] at hd; simp at hd

theorem alone_unsqueeze {g : Int} {transposed : Bool} {x : Operand A} {w : Operand B} (hx : 2 ≤ x.type.length) (hw : 2 ≤ w.type.length) :
    Alone g transposed (unsqueeze x).type (unsqueeze w).type ↔ Alone g transposed x.type w.type := by
  unfold Alone unsqueeze
  rw [List.getElem?_append_left (by omega), List.getElem?_append_left (by omega), List.getElem?_append_left (by omega)]

theorem refused_none {kind : Mat.Kind} {dims : Nat} {g : Int} {transposed : Bool} {xTy wTy : List (Option Int)} (h : Supported kind dims g transposed (Alone g transposed xTy wTy))
    (hd : 1 ≤ dims ∧ dims ≤ 3) (h1 : dims = 1 → g = 1) : refused (C := C) kind dims g transposed (isDepthwise g transposed xTy wTy) = none := by
  obtain ⟨a, b⟩ := h
  rw [← isDepthwise_iff] at b
  unfold refused
  by_cases hg : g = 1
  · rw [if_pos hg, if_neg fun q => a hg q.1 q.2]
  · rw [if_neg hg]
    obtain ⟨b1, b2⟩ := b hg
    by_cases hdw : isDepthwise g transposed xTy wTy = true
    · rw [if_pos hdw]
      have h3 : dims ≠ 3 := fun q => (b1 q).2 hdw
      have hne : ¬ dims = 1 := fun q => hg (h1 q)
      rw [if_neg (by omega), if_neg fun q => b2 q hdw]
    · rw [if_neg hdw]
      by_cases h3 : dims = 3
      · rw [if_pos h3, (b1 h3).1]
        rfl
      · rw [if_neg h3]

theorem supported_unsqueeze {kind : Mat.Kind} {g : Int} (hg : g ≠ 1) {transposed : Bool} {p q : Prop} (h : Supported kind 1 g transposed p) (hpq : q ↔ p) :
    Supported kind 2 g transposed q :=
  ⟨fun e => absurd e hg, fun e => ⟨fun e => by omega, fun ht => hpq.not.2 ((h.2 e).2 ht)⟩⟩

theorem conv_finish [CommSemiring C] (ar : Arith A B C R) {t : Tensor C} {g n c f : Int} {ns ks outs : List Int} {as : List Axis} {vx : List Int → A} {vw : List Int → B} {vb : Int → C}
    (h : IsConv (plainArith ar) t g n c f ns ks outs as vx vw vb) : IsConv ar ⟨t.sizes, fun idx => (t.elem idx).map ar.finish⟩ g n c f ns ks outs as vx vw vb :=
  ⟨h.1, fun b q j o q1 q2 q3 q4 q5 q6 ho => by
    simp only [h.2 b q j o q1 q2 q3 q4 q5 q6 ho, Option.map_some]
    rfl⟩

theorem transposed_finish [CommSemiring C] (ar : Arith A B C R) {t : Tensor C} {g n c f : Int} {ns ks outs : List Int} {as : List Axis} {vx : List Int → A} {vw : List Int → B}
    {vb : Int → C} (h : IsTransposedConv (plainArith ar) t g n c f ns ks outs as vx vw vb) :
    IsTransposedConv ar ⟨t.sizes, fun idx => (t.elem idx).map ar.finish⟩ g n c f ns ks outs as vx vw vb :=
  ⟨h.1, fun b q j o q1 q2 q3 q4 q5 q6 ho => by
    simp only [h.2 b q j o q1 q2 q3 q4 q5 q6 ho, Option.map_some]
    rfl⟩

theorem lower_conv [CommSemiring C] (ar : Arith A B C R) (kind : Mat.Kind) {g n c f : Int} (hg : 0 < g) {ns ks outs : List Int} {as : List Axis} {x : Operand A} {w : Operand B}
    {bias : Option (Tensor C)} {vx : List Int → A} {vw : List Int → B} {vb : Int → C} {resTy : List (Option Int)} (hx : x.tensor.sizes = n :: g * c :: ns)
    (hw : w.tensor.sizes = g * f :: c :: ks) (hvx : Pool.Holds x.tensor vx) (hvw : Pool.Holds w.tensor vw) (htx : TypeOf x.type x.tensor.sizes)
    (htw : TypeOf w.type w.tensor.sizes) (hb : HasBias bias (g * f) vb) (hd : 1 ≤ ns.length ∧ ns.length ≤ 3) (hgood : Good false ns ks as) (hp : Places ns ks as outs)
    (hpad : ar.liftX ar.pad = 0) (hs : Supported kind ns.length g false (Alone g false x.type w.type)) (hty : TypeOf resTy (n :: g * f :: outs)) :
    ∃ t, lower ar kind g false as x w bias resTy = .ok t ∧ IsConv ar t g n c f ns ks outs as vx vw vb := by
  have hl : x.type.length = ns.length + 2 := by rw [htx.1, hx]; rfl
  have hlw : 2 ≤ w.type.length := by rw [htw.1, hw]; simp
  have key : ∃ t, (if x.type.length = 3 ∧ g ≠ 1 then (convolve ar kind g false (as ++ [⟨1, 0, 1, 0, true⟩]) (unsqueeze x) (unsqueeze w) bias).bind squeeze
      else convolve ar kind g false as x w bias) = .ok t ∧ IsConv (plainArith ar) t g n c f ns ks outs as vx vw vb := by
    by_cases h1 : x.type.length = 3 ∧ g ≠ 1
    · rw [if_pos h1]
      have hn : ns.length = 1 := by omega
      have hlen := lengths (goodAll hgood)
      have hpl := places_length hp
      have ha : as.length = 1 := by omega
      obtain ⟨n0, rfl⟩ := List.length_eq_one_iff.1 hn
      obtain ⟨k0, rfl⟩ := List.length_eq_one_iff.1 (hlen.2.trans ha)
      obtain ⟨m, rfl⟩ := List.length_eq_one_iff.1 (hpl.trans ha)
      obtain ⟨a, rfl⟩ := List.length_eq_one_iff.1 ha
      obtain ⟨t, e1, e2⟩ := convolve_conv ar kind hg (ns := [n0, 1]) (ks := [k0, 1]) (outs := [m, 1]) (as := [a, unit]) (x := unsqueeze x) (w := unsqueeze w)
        (n := n) (c := c) (f := f) (by simp [unsqueeze, hx]) (by simp [unsqueeze, hw]) (unsqueeze_holds hvx) (unsqueeze_holds hvw) (unsqueeze_type htx) (unsqueeze_type htw) hb
        ⟨hgood.1, by simp [Good, unit]⟩ ⟨hp.1, hp.2.1, by simp only [Places, unit]; exact ⟨fun o ho => by omega, by omega, trivial⟩⟩ hpad
        (by
          have e : (unsqueeze x).type.length - 2 = 2 := by simp [unsqueeze, h1.1]
          rw [e]
          exact refused_none (supported_unsqueeze h1.2 hs (alone_unsqueeze (by omega) hlw)) (by omega) (by omega))
      have e3 : [a] ++ [(⟨1, 0, 1, 0, true⟩ : Axis)] = [a, unit] := rfl
      rw [e3, e1]
      exact squeeze_conv ar e2
    · rw [if_neg h1]
      refine convolve_conv ar kind hg hx hw hvx hvw htx htw hb hgood hp hpad ?_
      rw [hl]
      exact refused_none hs hd (fun q => by by_contra hc; exact h1 ⟨by omega, hc⟩)
  obtain ⟨t, e1, e2⟩ := key
  unfold lower
  rw [if_neg (by omega), e1]
  simp only [Outcome.bind]
  rw [if_pos (castOk_iff.2 (by rw [e2.1]; exact hty))]
  exact ⟨_, rfl, conv_finish ar e2⟩

theorem lower_transposed [CommSemiring C] (ar : Arith A B C R) (kind : Mat.Kind) {g n c f : Int} (hg : 0 < g) {ns ks outs : List Int} {as : List Axis} {x : Operand A}
    {w : Operand B} {bias : Option (Tensor C)} {vx : List Int → A} {vw : List Int → B} {vb : Int → C} {resTy : List (Option Int)} (hx : x.tensor.sizes = n :: g * c :: ns)
    (hw : w.tensor.sizes = g * c :: f :: ks) (hvx : Pool.Holds x.tensor vx) (hvw : Pool.Holds w.tensor vw) (htx : TypeOf x.type x.tensor.sizes)
    (htw : TypeOf w.type w.tensor.sizes) (hb : HasBias bias (g * f) vb) (hd : 1 ≤ ns.length ∧ ns.length ≤ 3) (hgood : Good true ns ks as) (hcrop : Cropped ks as)
    (hp : TransposedPlaces ns ks as outs) (hpad : ar.liftX ar.pad = 0) (hs : Supported kind ns.length g true (Alone g true x.type w.type))
    (hty : TypeOf resTy (n :: g * f :: outs)) :
    ∃ t, lower ar kind g true as x w bias resTy = .ok t ∧ IsTransposedConv ar t g n c f ns ks outs as vx vw vb := by
  have hl : x.type.length = ns.length + 2 := by rw [htx.1, hx]; rfl
  have hlw : 2 ≤ w.type.length := by rw [htw.1, hw]; simp
  have key : ∃ t, (if x.type.length = 3 ∧ g ≠ 1 then (convolve ar kind g true (as ++ [⟨1, 0, 1, 0, true⟩]) (unsqueeze x) (unsqueeze w) bias).bind squeeze
      else convolve ar kind g true as x w bias) = .ok t ∧ IsTransposedConv (plainArith ar) t g n c f ns ks outs as vx vw vb := by
    by_cases h1 : x.type.length = 3 ∧ g ≠ 1
    · rw [if_pos h1]
      have hn : ns.length = 1 := by omega
      have hlen := lengths (goodAll hgood)
      have hpl : outs.length = as.length := by rw [← transposed_outs hp, (forAxes_length transposedDim (fitsAll (goodAll hgood) hcrop)).1]
      have ha : as.length = 1 := by omega
      obtain ⟨n0, rfl⟩ := List.length_eq_one_iff.1 hn
      obtain ⟨k0, rfl⟩ := List.length_eq_one_iff.1 (hlen.2.trans ha)
      obtain ⟨m, rfl⟩ := List.length_eq_one_iff.1 (hpl.trans ha)
      obtain ⟨a, rfl⟩ := List.length_eq_one_iff.1 ha
      obtain ⟨t, e1, e2⟩ := convolve_transposed ar kind hg (ns := [n0, 1]) (ks := [k0, 1]) (outs := [m, 1]) (as := [a, unit]) (x := unsqueeze x) (w := unsqueeze w)
        (n := n) (c := c) (f := f) (by simp [unsqueeze, hx]) (by simp [unsqueeze, hw]) (unsqueeze_holds hvx) (unsqueeze_holds hvw) hb
        ⟨hgood.1, by simp [Good, unit]⟩ ⟨hcrop.1, by simp [Cropped, unit]⟩ ⟨hp.1, by simp [TransposedPlaces, unit]⟩ hpad
        (by
          have e : (unsqueeze x).type.length - 2 = 2 := by simp [unsqueeze, h1.1]
          rw [e]
          exact refused_none (supported_unsqueeze h1.2 hs (alone_unsqueeze (by omega) hlw)) (by omega) (by omega))
      have e3 : [a] ++ [(⟨1, 0, 1, 0, true⟩ : Axis)] = [a, unit] := rfl
      rw [e3, e1]
      exact squeeze_transposed ar e2
    · rw [if_neg h1]
      refine convolve_transposed ar kind hg hx hw hvx hvw hb hgood hcrop hp hpad ?_
      rw [hl]
      exact refused_none hs hd (fun q => by by_contra hc; exact h1 ⟨by omega, hc⟩)
  obtain ⟨t, e1, e2⟩ := key
  unfold lower
  rw [if_neg (by omega), e1]
  simp only [Outcome.bind]
  rw [if_pos (castOk_iff.2 (by rw [e2.1]; exact hty))]
  exact ⟨_, rfl, transposed_finish ar e2⟩

end Verif.Conv
