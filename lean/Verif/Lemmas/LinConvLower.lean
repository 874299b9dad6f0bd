import Verif.Lemmas.LinConvSpace
import Verif.Lemmas.LinViewFinish

/-! # Convolutions: the pattern -/

namespace Verif.Conv

open Lin

variable {A B C R : Type}

/-! ## Weights of transposed convolutions -/

theorem get_flip {w : Tensor B} {vw : List Int → B} (hw : Pool.Holds w vw) {c f : Int} {ks : List Int} (hs : w.sizes = c :: f :: ks) {j l : Int} {k : List Int}
    (hj : 0 ≤ j ∧ j < f) (hl : 0 ≤ l ∧ l < c) (hk : inRange ks k = true) : (flipWeight 0 w).get (j :: l :: k) = some (vw (l :: j :: flipped ks k)) := by
  have hr : inRange w.sizes (l :: j :: flipped ks k) = true := by
    rw [hs]; exact inRange_cons.2 ⟨hl, inRange_cons.2 ⟨hj, (flip_range hk).1⟩⟩
  rw [get_of_range]
  · simp only [flipWeight, hs, List.take_zero, List.nil_append, Nat.zero_add, List.getD_cons_succ, List.getD_cons_zero, List.drop_succ_cons, List.drop_zero]
    rw [get_of_range hr]
    exact hw _ hr
  · simp only [flipWeight, size, hs, List.take_zero, List.nil_append, Nat.zero_add, List.getD_cons_succ, List.getD_cons_zero, List.drop_succ_cons, List.drop_zero]
    exact inRange_cons.2 ⟨hj, inRange_cons.2 ⟨hl, hk⟩⟩

theorem get_flip_groups {g : Int} (hg : 0 < g) {w : Tensor B} {vw : List Int → B} (hw : Pool.Holds w vw) {c f : Int} {ks : List Int} (hs : w.sizes = g * c :: f :: ks)
    {q j l : Int} {k : List Int} (hq : 0 ≤ q ∧ q < g) (hj : 0 ≤ j ∧ j < f) (hl : 0 ≤ l ∧ l < c) (hk : inRange ks k = true) :
    (flipWeight 1 (expandWeight g w)).get (q :: j :: l :: k) = some (vw ((q * c + l) :: j :: flipped ks k)) := by
  have e : g * c / g = c := Int.mul_ediv_cancel_left _ (by omega)
  have es : (expandWeight g w).sizes = g :: c :: f :: ks := by
    simp only [expandWeight, size, hs, List.getD_cons_zero, List.drop_succ_cons, List.drop_zero, e]
  have hr : inRange w.sizes ((q * c + l) :: j :: flipped ks k) = true := by
    rw [hs]; exact inRange_cons.2 ⟨channel hq hl, inRange_cons.2 ⟨hj, (flip_range hk).1⟩⟩
  rw [get_of_range]
  · simp only [flipWeight, es, List.take_succ_cons, List.take_zero, List.cons_append, List.nil_append, Nat.reduceAdd, List.getD_cons_succ, List.getD_cons_zero, List.drop_succ_cons,
      List.drop_zero]
    rw [get_expandWeight hg hs hq hl hj (flip_range hk).1, get_of_range hr]
    exact hw _ hr
  · simp only [flipWeight, size, es, List.take_succ_cons, List.take_zero, List.cons_append, List.nil_append, Nat.reduceAdd, List.getD_cons_succ, List.getD_cons_zero,
      List.drop_succ_cons, List.drop_zero]
    exact inRange_cons.2 ⟨hq, inRange_cons.2 ⟨hj, inRange_cons.2 ⟨hl, hk⟩⟩⟩

theorem flip_sizes {w : Tensor B} {c f : Int} {ks : List Int} (hs : w.sizes = c :: f :: ks) : (flipWeight 0 w).sizes = f :: c :: ks := by
  simp only [flipWeight, size, hs, List.take_zero, List.nil_append, Nat.zero_add, List.getD_cons_succ, List.getD_cons_zero, List.drop_succ_cons, List.drop_zero]

theorem flip_groups_sizes {g : Int} (hg : 0 < g) {w : Tensor B} {c f : Int} {ks : List Int} (hs : w.sizes = g * c :: f :: ks) :
    (flipWeight 1 (expandWeight g w)).sizes = g :: f :: c :: ks := by
  have e : g * c / g = c := Int.mul_ediv_cancel_left _ (by omega)
  simp only [flipWeight, expandWeight, size, hs, List.take_succ_cons, List.take_zero, List.cons_append, List.nil_append, Nat.reduceAdd, List.getD_cons_succ, List.getD_cons_zero,
    List.drop_succ_cons, List.drop_zero, e]

/-! ## The convolution -/

theorem isDepthwise_iff {g : Int} {transposed : Bool} {xTy wTy : List (Option Int)} : isDepthwise g transposed xTy wTy = true ↔ Alone g transposed xTy wTy := by
  have e : ∀ (l : List (Option Int)) (d : Nat) (m : Int), l.getD d none = some m ↔ l[d]? = some (some m) := by
    intro l d m
    rw [List.getD_eq_getElem?_getD]
    cases l[d]? <;> simp
  unfold isDepthwise Alone
  simp only [Bool.and_eq_true, Bool.or_eq_true, decide_eq_true_eq, e]
  cases transposed <;> simp [and_assoc]

theorem bias_rank {bias : Option (Tensor C)} [Zero C] {f : Int} {vb : Int → C} (h : HasBias bias f vb) : ¬ (bias.map fun b => b.sizes.length).getD 1 ≠ 1 := by
  cases bias with
  | none => simp
  | some b => simp [h.1]

theorem tmod_groups (g c : Int) : (g * c).tmod g = 0 := Int.mul_tmod_right g c

/-- The convolution before the conversion of its elements. -/
def plainArith (ar : Arith A B C R) : Arith A B C C := ⟨ar.liftX, ar.liftW, ar.pad, id⟩

theorem typeOf_some {ty : List (Option Int)} {sizes : List Int} (h : TypeOf ty sizes) {d : Nat} {m v : Int} (ht : ty[d]? = some (some m)) (hs : sizes[d]? = some v) : v = m := by
  have := h.2 d m ht
  rw [hs] at this
  exact Option.some.inj this

theorem alone_one {g c f : Int} (hg : 0 < g) (h : g * c = g) : c = 1 := by
  have := Int.eq_of_mul_eq_mul_left (a := g) (b := c) (c := 1) (by omega) (by omega)
  exact this

theorem convolve_conv [CommSemiring C] (ar : Arith A B C R) (kind : Mat.Kind) {g n c f : Int} (hg : 0 < g) {ns ks outs : List Int} {as : List Axis} {x : Operand A} {w : Operand B}
    {bias : Option (Tensor C)} {vx : List Int → A} {vw : List Int → B} {vb : Int → C} (hx : x.tensor.sizes = n :: g * c :: ns) (hw : w.tensor.sizes = g * f :: c :: ks)
    (hvx : Pool.Holds x.tensor vx) (hvw : Pool.Holds w.tensor vw) (htx : TypeOf x.type x.tensor.sizes) (htw : TypeOf w.type w.tensor.sizes) (hb : HasBias bias (g * f) vb)
    (hgood : Good false ns ks as) (hp : Places ns ks as outs) (hpad : ar.liftX ar.pad = 0)
    (hr : refused (C := C) kind (x.type.length - 2) g false (isDepthwise g false x.type w.type) = none) :
    ∃ t, convolve ar kind g false as x w bias = .ok t ∧ IsConv (plainArith ar) t g n c f ns ks outs as vx vw vb := by
  have hga := goodAll hgood
  have eo := outs_eq hga hp
  have d1 : x.tensor.sizes.drop 2 = ns := by rw [hx]; rfl
  have d2 : w.tensor.sizes.drop 2 = ks := by rw [hw]; rfl
  have s1 : size x.tensor 0 = n := by unfold size; rw [hx]; rfl
  have s2 : size x.tensor 1 = g * c := by unfold size; rw [hx]; rfl
  have s3 : size w.tensor 0 = g * f := by unfold size; rw [hw]; rfl
  have ef : g * f / g = f := Int.mul_ediv_cancel_left _ (by omega)
  have ec : g * c / g = c := Int.mul_ediv_cancel_left _ (by omega)
  have hps : (padInput x.tensor as ar.pad).sizes = n :: g * c :: (padInput x.tensor as ar.pad).sizes.drop 2 := by
    simp [padInput, Pool.pad, hx]
  have hX : ∀ b i o k, 0 ≤ b ∧ b < n → 0 ≤ i ∧ i < g * c → inRange outs o = true → inRange ks k = true →
      inRange ((padInput x.tensor as ar.pad).sizes.drop 2) (tap as o k) = true ∧ (padInput x.tensor as ar.pad).get (b :: i :: tap as o k) =
        some (if inRange ns (reach as o k) then vx (b :: i :: reach as o k) else ar.pad) :=
    fun b i o k h1 h2 h3 h4 => padInput_read hvx hx hga hp h1 h2 h3 h4
  have hW : ∀ q j l k, 0 ≤ q ∧ q < g → 0 ≤ j ∧ j < f → 0 ≤ l ∧ l < c → inRange ks k = true → w.tensor.get ((q * f + j) :: l :: k) = some (vw ((q * f + j) :: l :: k)) := by
    intro q j l k h1 h2 h3 h4
    have hin : inRange w.tensor.sizes ((q * f + j) :: l :: k) = true := by
      rw [hw]; exact inRange_cons.2 ⟨channel h1 h2, inRange_cons.2 ⟨h3, h4⟩⟩
    rw [get_of_range hin]
    exact hvw _ hin
  have key : ∃ t, convolve ar kind g false as x w bias = .ok t ∧
      HasElems ar t g n c f ks outs (fun b i o k => if inRange ns (reach as o k) then vx (b :: i :: reach as o k) else ar.pad) (fun q j l k => vw ((q * f + j) :: l :: k)) vb := by
    unfold convolve
    simp only [hr, d1, d2, s1, s2, s3, eo]
    rw [if_neg (bias_rank hb), if_neg (by rw [tmod_groups, tmod_groups]; simp), if_neg (by simp)]
    by_cases h1 : g = 1
    · rw [if_pos h1]
      refine ⟨_, rfl, ?_⟩
      subst h1
      rw [Int.one_mul] at hb hps hX ⊢
      refine plain_elems ar as _ _ bias hps (by rw [hw, Int.one_mul]) (fun b i o k q1 q2 q3 q4 => (hX b i o k q1 q2 q3 q4).2) ?_ hb
      intro j l k q1 q2 q3
      have := hW 0 j l k (by omega) q1 q2 q3
      rw [Int.zero_mul, Int.zero_add] at this ⊢
      exact this
    · rw [if_neg h1]
      by_cases h2 : isDepthwise g false x.type w.type = true
      · rw [if_pos h2]
        refine ⟨_, rfl, ?_⟩
        obtain ⟨a1, a2, a3⟩ := isDepthwise_iff.1 h2
        have hc : c = 1 := typeOf_some htw a3 (by rw [hw]; rfl)
        have hf : f = 1 := by
          have : g * f = g := typeOf_some htw (a2 rfl) (by rw [hw]; rfl)
          exact alone_one (f := f) hg this
        subst hc hf
        rw [Int.mul_one] at hb hps ⊢
        simp only [Int.mul_one] at hW hX
        have := depthwise_elems ar as _ w.tensor bias hps (by rw [hw, Int.mul_one]) (fun b i o k q1 q2 q3 q4 => (hX b i o k q1 q2 q3 q4).2)
          (W := fun q j l k => vw ((q * 1 + j) :: l :: k)) (fun q k q1 q3 => by
            have := hW q 0 0 k q1 (by omega) (by omega) q3
            simpa using this) hb
        exact this
      · rw [if_neg h2, ef]
        refine ⟨_, rfl, ?_⟩
        refine grouped_elems ar as _ _ bias hg hps ?_ hX ?_ hb
        · simp only [expandWeight, size, hw, List.getD_cons_zero, List.drop_succ_cons, List.drop_zero, ef]
        · intro q j l k q1 q2 q3 q4
          rw [get_expandWeight hg hw q1 q2 q3 q4]
          exact hW q j l k q1 q2 q3 q4
  obtain ⟨t, ht, h1, h2⟩ := key
  refine ⟨t, ht, h1, fun b q j o q1 q2 q3 q4 q5 q6 ho => ?_⟩
  rw [h2 b q j o q1 q2 q3 q4 q5 q6 ho]
  simp only [plainArith, id]
  congr 2
  refine sumTo_congr fun l _ _ => sumOver_congr fun k _ => ?_
  by_cases h : inRange ns (reach as o k) = true
  · rw [if_pos h, if_pos h]
  · rw [if_neg h, if_neg h, hpad, zero_mul]

theorem convolve_transposed [CommSemiring C] (ar : Arith A B C R) (kind : Mat.Kind) {g n c f : Int} (hg : 0 < g) {ns ks outs : List Int} {as : List Axis} {x : Operand A}
    {w : Operand B} {bias : Option (Tensor C)} {vx : List Int → A} {vw : List Int → B} {vb : Int → C} (hx : x.tensor.sizes = n :: g * c :: ns)
    (hw : w.tensor.sizes = g * c :: f :: ks) (hvx : Pool.Holds x.tensor vx) (hvw : Pool.Holds w.tensor vw) (hb : HasBias bias (g * f) vb)
    (hgood : Good true ns ks as) (hcrop : Cropped ks as) (hp : TransposedPlaces ns ks as outs) (hpad : ar.liftX ar.pad = 0)
    (hr : refused (C := C) kind (x.type.length - 2) g true (isDepthwise g true x.type w.type) = none) :
    ∃ t, convolve ar kind g true as x w bias = .ok t ∧ IsTransposedConv (plainArith ar) t g n c f ns ks outs as vx vw vb := by
  have hga := goodAll hgood
  have hf := fitsAll hga hcrop
  have eo := transposed_outs hp
  have hl := lengths hga
  have d1 : x.tensor.sizes.drop 2 = ns := by rw [hx]; rfl
  have d2 : w.tensor.sizes.drop 2 = ks := by rw [hw]; rfl
  have s1 : size x.tensor 0 = n := by unfold size; rw [hx]; rfl
  have s2 : size x.tensor 1 = g * c := by unfold size; rw [hx]; rfl
  have s3 : size w.tensor 0 = g * c := by unfold size; rw [hw]; rfl
  have s4 : size w.tensor 1 = f := by unfold size; rw [hw]; rfl
  have ef : g * f / g = f := Int.mul_ediv_cancel_left _ (by omega)
  obtain ⟨P, hP, hps, hread⟩ := transposedInput_spec hvx hx hf ar.pad
  rw [eo] at hread
  have hX : ∀ b i o k, 0 ≤ b ∧ b < n → 0 ≤ i ∧ i < g * c → inRange outs o = true → inRange ks k = true →
      inRange (forAxes outer ns ks as) (tap (one as) o k) = true ∧ P.get (b :: i :: tap (one as) o k) =
        some ((orig ns as o (flipped ks k)).elim ar.pad fun q => vx (b :: i :: q)) := by
    intro b i o k h1 h2 h3 h4
    obtain ⟨f1, f2⟩ := flip_range h4
    have := hread b i o (flipped ks k) h1 h2 h3 f1
    rwa [f2] at this
  have key : ∃ t, convolve ar kind g true as x w bias = .ok t ∧
      HasElems ar t g n c f ks outs (fun b i o k => (orig ns as o (flipped ks k)).elim ar.pad fun q => vx (b :: i :: q)) (fun q j l k => vw ((q * c + l) :: j :: flipped ks k)) vb := by
    unfold convolve
    simp only [hr, d1, d2, s1, s2, s3, s4, eo, hP, Outcome.bind, if_true]
    rw [if_neg (bias_rank hb), if_neg (by rw [tmod_groups]; simp)]
    by_cases h1 : g = 1
    · subst h1
      simp only [Int.lt_irrefl, if_false, if_true]
      refine ⟨_, rfl, ?_⟩
      rw [Int.one_mul] at hb hps hX hw
      refine plain_elems ar (one as) _ _ bias hps (flip_sizes hw) (fun b i o k q1 q2 q3 q4 => (hX b i o k q1 q2 q3 q4).2) ?_ hb
      intro j l k q1 q2 q3
      rw [get_flip hvw hw q1 q2 q3, Int.zero_mul, Int.zero_add]
    · have h1' : 1 < g := by omega
      rw [if_neg h1]
      simp only [if_pos h1']
      rw [Int.mul_comm f g, ef]
      refine ⟨_, rfl, ?_⟩
      exact grouped_elems ar (one as) _ _ bias hg hps (flip_groups_sizes hg hw) hX (fun q j l k q1 q2 q3 q4 => get_flip_groups hg hvw hw q1 q2 q3 q4) hb
  obtain ⟨t, ht, h1, h2⟩ := key
  refine ⟨t, ht, h1, fun b q j o q1 q2 q3 q4 q5 q6 ho => ?_⟩
  rw [h2 b q j o q1 q2 q3 q4 q5 q6 ho]
  simp only [plainArith, id]
  congr 2
  refine sumTo_congr fun l _ _ => ?_
  rw [sumOver_flip]
  refine sumOver_congr fun k hk => ?_
  have hol : o.length = as.length := by rw [inRange_length ho, ← eo, (forAxes_length transposedDim hf).1]
  rw [sum_orig hga.strides (fun i => ar.liftX (vx (b :: (q * c + l) :: i)) * ar.liftW (vw ((q * c + l) :: j :: k))) hol (by rw [inRange_length hk, hl.2]), (flip_range hk).2]
  cases orig ns as o k with
  | none => simp only [Option.elim, hpad, zero_mul]
  | some r => rfl

end Verif.Conv
