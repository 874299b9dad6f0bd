import Verif.Spec.LinConv
import Verif.Lemmas.LinPad
import Verif.Lemmas.LinPool
import Verif.Lemmas.LinPoolCount
import Mathlib.Algebra.BigOperators.Intervals
import Mathlib.Tactic.Ring

/-! # Convolutions -/

namespace Verif.Conv

open Lin

variable {A B C R : Type}

/-! ## Sums -/

theorem sumTo_congr [AddCommMonoid C] {n : Int} {f g : Int → C} (h : ∀ i, 0 ≤ i → i < n → f i = g i) : sumTo n f = sumTo n g := by
  unfold sumTo
  congr 1
  apply List.map_congr_left
  intro i hi
  rw [List.mem_range] at hi
  exact h i (by omega) (by omega)

theorem sumOver_congr [AddCommMonoid C] : ∀ {ks : List Int} {f g : List Int → C}, (∀ k, inRange ks k = true → f k = g k) → sumOver ks f = sumOver ks g
  | [], _, _, h => h [] rfl
  | n :: ks, f, g, h => sumTo_congr fun i h0 h1 => sumOver_congr fun k hk => h (i :: k) (by
      simp only [inRange, Bool.and_eq_true, decide_eq_true_eq]
      exact ⟨⟨h0, h1⟩, hk⟩)

theorem sum_flatMap [AddCommMonoid C] {α β : Type} (f : α → List β) (g : β → C) : ∀ l : List α, ((l.flatMap f).map g).sum = (l.map fun a => ((f a).map g).sum).sum
  | [] => rfl
  | a :: l => by simp [List.flatMap_cons, sum_flatMap f g l]

theorem sumOver_loops [AddCommMonoid C] : ∀ (ks : List Int) (f : List Int → C), sumOver ks f = ((Pool.loops ks).map f).sum
  | [], f => by simp [sumOver, Pool.loops]
  | k :: ks, f => by
    simp only [sumOver, Pool.loops, sumTo]
    rw [sum_flatMap]
    congr 1
    apply List.map_congr_left
    intro i _
    rw [sumOver_loops ks, List.map_map]
    rfl

theorem sumTo_finset [AddCommMonoid C] (n : Int) (f : Int → C) : sumTo n f = ∑ i ∈ Finset.range n.toNat, f i := rfl

theorem sumTo_flip [AddCommMonoid C] (n : Int) (f : Int → C) : sumTo n f = sumTo n fun i => f (n - 1 - i) := by
  rw [sumTo_finset, sumTo_finset, ← Finset.sum_range_reflect]
  apply Finset.sum_congr rfl
  intro i hi
  rw [Finset.mem_range] at hi
  congr 1
  omega

theorem sumOver_flip [AddCommMonoid C] : ∀ (ks : List Int) (f : List Int → C), sumOver ks f = sumOver ks fun k => f (flipped ks k)
  | [], f => rfl
  | n :: ks, f => by
    simp only [sumOver]
    rw [sumTo_flip]
    apply sumTo_congr
    intro i _ _
    rw [sumOver_flip ks]
    rfl

theorem sumTo_one [AddCommMonoid C] (f : Int → C) : sumTo 1 f = f 0 := by simp [sumTo]

theorem sumTo_zero [AddCommMonoid C] (n : Int) : sumTo n (fun _ => (0 : C)) = 0 := by
  rw [sumTo_finset]
  exact Finset.sum_const_zero

theorem sumOver_zero [AddCommMonoid C] : ∀ ks : List Int, sumOver ks (fun _ => (0 : C)) = 0
  | [] => rfl
  | k :: ks => by simp only [sumOver, sumOver_zero ks, sumTo_zero]

/-- A sum with one term. -/
theorem sumTo_single [AddCommMonoid C] {n q : Int} {f : Int → C} (h : ∀ i, 0 ≤ i → i < n → i ≠ q → f i = 0) :
    sumTo n f = if 0 ≤ q ∧ q < n then f q else 0 := by
  rw [sumTo_finset]
  by_cases hq : 0 ≤ q ∧ q < n
  · rw [if_pos hq, Finset.sum_eq_single q.toNat]
    · rw [Int.toNat_of_nonneg hq.1]
    · intro i hi hne
      rw [Finset.mem_range] at hi
      exact h i (by omega) (by omega) (by omega)
    · intro hn
      rw [Finset.mem_range] at hn
      omega
  · rw [if_neg hq]
    apply Finset.sum_eq_zero
    intro i hi
    rw [Finset.mem_range] at hi
    exact h i (by omega) (by omega) (by omega)

/-! ## Operations of linalg -/

theorem conv_fold [CommSemiring C] {α : Type} (lx : A → C) (lw : B → C) (X : α → Option A) (W : α → Option B) (fx : α → A) (fw : α → B) : ∀ (l : List α) (c : C),
    (∀ r ∈ l, X r = some (fx r)) → (∀ r ∈ l, W r = some (fw r)) →
    l.foldl (fun acc r => acc.bind fun c => (X r).bind fun a => (W r).map fun b => c + lx a * lw b) (some c) = some (c + (l.map fun r => lx (fx r) * lw (fw r)).sum)
  | [], c, _, _ => by simp
  | r :: l, c, h1, h2 => by
    simp only [List.foldl_cons]
    rw [h1 r (List.mem_cons_self ..), h2 r (List.mem_cons_self ..)]
    simp only [Option.bind_some, Option.map_some]
    rw [conv_fold lx lw X W fx fw l _ (fun r hr => h1 r (List.mem_cons_of_mem _ hr)) fun r hr => h2 r (List.mem_cons_of_mem _ hr)]
    simp [add_assoc]

theorem convOp_elem [CommSemiring C] (ar : Arith A B C R) (x : Tensor A) (w : Tensor B) (init : Tensor C) (red : List Int) (xi wi : List Int → List Int → List Int)
    (idx : List Int) (c : C) (fx : List Int → A) (fw : List Int → B) (h0 : init.get idx = some c) (hx : ∀ r, inRange red r = true → x.get (xi idx r) = some (fx r))
    (hw : ∀ r, inRange red r = true → w.get (wi idx r) = some (fw r)) :
    (convOp ar x w init red xi wi).elem idx = some (c + sumOver red fun r => ar.liftX (fx r) * ar.liftW (fw r)) := by
  simp only [convOp]
  rw [h0, conv_fold ar.liftX ar.liftW (fun r => x.get (xi idx r)) (fun r => w.get (wi idx r)) fx fw _ _ (fun r hr => hx r (Pool.mem_loops hr))
    (fun r hr => hw r (Pool.mem_loops hr)), sumOver_loops]

theorem inRange_cons {n i : Int} {ns is : List Int} : inRange (n :: ns) (i :: is) = true ↔ (0 ≤ i ∧ i < n) ∧ inRange ns is = true := by
  simp only [inRange, Bool.and_eq_true, decide_eq_true_eq]

theorem inRange_nil {is : List Int} (h : inRange [] is = true) : is = [] := List.length_eq_zero_iff.1 (inRange_length h)

theorem inRange_uncons {n : Int} {ns is : List Int} (h : inRange (n :: ns) is = true) : ∃ i js, is = i :: js ∧ 0 ≤ i ∧ i < n ∧ inRange ns js = true := by
  cases is with
  | nil => simp [inRange] at h
  | cons i js =>
    obtain ⟨h1, h2⟩ := inRange_cons.1 h
    exact ⟨i, js, rfl, h1.1, h1.2, h2⟩

theorem initial_get [Zero C] {bias : Option (Tensor C)} {n m : Int} {outs : List Int} {vb : Int → C} (hb : HasBias bias m vb) {b i : Int} {o : List Int}
    (h1 : 0 ≤ b ∧ b < n) (h2 : 0 ≤ i ∧ i < m) (ho : inRange outs o = true) : (initial bias (n :: m :: outs)).get (b :: i :: o) = some (vb i) := by
  have hr : inRange (n :: m :: outs) (b :: i :: o) = true := inRange_cons.2 ⟨h1, inRange_cons.2 ⟨h2, ho⟩⟩
  cases bias with
  | none =>
    rw [show (initial (none : Option (Tensor C)) (n :: m :: outs)).get (b :: i :: o) = some 0 from get_of_range hr, hb i]
  | some t =>
    have e : (initial (some t) (n :: m :: outs)).get (b :: i :: o) = t.get [i] := get_of_range hr
    rw [e, get_of_range (by rw [hb.1]; exact inRange_cons.2 ⟨h2, rfl⟩), hb.2 i h2.1 h2.2]

/-- The elements of a convolution, given what is read from its operands. -/
def HasElems [CommSemiring C] (ar : Arith A B C R) (t : Tensor C) (g n c f : Int) (ks outs : List Int) (X : Int → Int → List Int → List Int → A) (W : Int → Int → Int → List Int → B)
    (vb : Int → C) : Prop :=
  t.sizes = n :: g * f :: outs ∧ ∀ b q j o, 0 ≤ b → b < n → 0 ≤ q → q < g → 0 ≤ j → j < f → inRange outs o = true →
    t.elem (b :: (q * f + j) :: o) = some (vb (q * f + j) + sumTo c fun l => sumOver ks fun k => ar.liftX (X b (q * c + l) o k) * ar.liftW (W q j l k))

theorem channel {g c q l : Int} (hq : 0 ≤ q ∧ q < g) (hl : 0 ≤ l ∧ l < c) : 0 ≤ q * c + l ∧ q * c + l < g * c := by
  have h1 := Int.mul_nonneg hq.1 (show 0 ≤ c by omega)
  have h2 : (q + 1) * c ≤ g * c := Int.mul_le_mul_of_nonneg_right (by omega) (by omega)
  rw [Int.add_mul] at h2
  omega

theorem plain_elems [CommSemiring C] (ar : Arith A B C R) (as : List Axis) (P : Tensor A) (wt : Tensor B) (bias : Option (Tensor C)) {n c f : Int} {ks outs ps : List Int}
    {X : Int → Int → List Int → List Int → A} {W : Int → Int → Int → List Int → B} {vb : Int → C} (hP : P.sizes = n :: c :: ps) (hwt : wt.sizes = f :: c :: ks)
    (hX : ∀ b i o k, 0 ≤ b ∧ b < n → 0 ≤ i ∧ i < c → inRange outs o = true → inRange ks k = true → P.get (b :: i :: tap as o k) = some (X b i o k))
    (hW : ∀ j l k, 0 ≤ j ∧ j < f → 0 ≤ l ∧ l < c → inRange ks k = true → wt.get (j :: l :: k) = some (W 0 j l k)) (hb : HasBias bias f vb) :
    HasElems ar (plainConv ar as P wt (initial bias (n :: f :: outs))) 1 n c f ks outs X W vb := by
  refine ⟨?_, fun b q j o h1 h2 h3 h4 h5 h6 ho => ?_⟩
  · cases bias <;> simp [plainConv, convOp, initial, fill]
  · have hq : q = 0 := by omega
    subst hq
    unfold plainConv
    rw [convOp_elem ar _ _ _ _ _ _ _ (vb (0 * f + j)) (fun r => X b (r.getD 0 0) o (r.drop 1)) (fun r => W 0 j (r.getD 0 0) (r.drop 1))]
    · simp only [size, hP, hwt, List.getD_cons_succ, List.getD_cons_zero, List.drop_succ_cons, List.drop_zero, sumOver]
      simp only [Int.zero_mul, Int.zero_add]
    · exact initial_get hb ⟨h1, h2⟩ (by omega) ho
    · intro r hr
      simp only [size, hP, hwt, List.getD_cons_succ, List.getD_cons_zero, List.drop_succ_cons, List.drop_zero] at hr
      obtain ⟨l, k, rfl, hl0, hl1, hk⟩ := inRange_uncons hr
      exact hX b l o k ⟨h1, h2⟩ ⟨hl0, hl1⟩ ho hk
    · intro r hr
      simp only [size, hP, hwt, List.getD_cons_succ, List.getD_cons_zero, List.drop_succ_cons, List.drop_zero] at hr
      obtain ⟨l, k, rfl, hl0, hl1, hk⟩ := inRange_uncons hr
      have := hW j l k ⟨h5, h6⟩ ⟨hl0, hl1⟩ hk
      simpa using this

theorem get_expandGroups {E : Type} (g : Int) (P : Tensor E) {n c : Int} {ps : List Int} (hg : 0 < g) (hP : P.sizes = n :: g * c :: ps) {b q l : Int} {j : List Int}
    (hb : 0 ≤ b ∧ b < n) (hq : 0 ≤ q ∧ q < g) (hl : 0 ≤ l ∧ l < c) (hj : inRange ps j = true) :
    (expandGroups g P).get (b :: q :: l :: j) = P.get (b :: (q * c + l) :: j) := by
  have e : g * c / g = c := Int.mul_ediv_cancel_left _ (by omega)
  rw [get_of_range, get_of_range]
  · simp only [expandGroups, size, hP, List.getD_cons_succ, List.getD_cons_zero, List.drop_succ_cons, List.drop_zero, e]
  · rw [hP]; exact inRange_cons.2 ⟨hb, inRange_cons.2 ⟨channel hq hl, hj⟩⟩
  · simp only [expandGroups, size, hP, List.getD_cons_succ, List.getD_cons_zero, List.drop_succ_cons, List.drop_zero, e]
    exact inRange_cons.2 ⟨hb, inRange_cons.2 ⟨hq, inRange_cons.2 ⟨hl, hj⟩⟩⟩

theorem grouped_elems [CommSemiring C] (ar : Arith A B C R) (as : List Axis) (P : Tensor A) (wt : Tensor B) (bias : Option (Tensor C)) {g n c f : Int} (hg : 0 < g)
    {ks outs ps : List Int}
    {X : Int → Int → List Int → List Int → A} {W : Int → Int → Int → List Int → B} {vb : Int → C} (hP : P.sizes = n :: g * c :: ps) (hwt : wt.sizes = g :: f :: c :: ks)
    (hX : ∀ b i o k, 0 ≤ b ∧ b < n → 0 ≤ i ∧ i < g * c → inRange outs o = true → inRange ks k = true → inRange ps (tap as o k) = true ∧ P.get (b :: i :: tap as o k) = some (X b i o k))
    (hW : ∀ q j l k, 0 ≤ q ∧ q < g → 0 ≤ j ∧ j < f → 0 ≤ l ∧ l < c → inRange ks k = true → wt.get (q :: j :: l :: k) = some (W q j l k)) (hb : HasBias bias (g * f) vb) :
    HasElems ar (collapseGroups f (initial bias (n :: g * f :: outs)).sizes
      (groupedConv ar as (expandGroups g P) wt (expandGroups g (initial bias (n :: g * f :: outs))))) g n c f ks outs X W vb := by
  have hs : (initial bias (n :: g * f :: outs)).sizes = n :: g * f :: outs := by cases bias <;> rfl
  have ec : g * c / g = c := Int.mul_ediv_cancel_left _ (by omega)
  have ef : g * f / g = f := Int.mul_ediv_cancel_left _ (by omega)
  refine ⟨hs, fun b q j o h1 h2 h3 h4 h5 h6 ho => ?_⟩
  have e1 : (q * f + j) / f = q := by
    rw [Int.add_comm, Int.add_mul_ediv_right _ _ (by omega), Int.ediv_eq_zero_of_lt h5 h6, Int.zero_add]
  have e2 : (q * f + j) % f = j := by
    rw [Int.add_comm, Int.add_mul_emod_self_right, Int.emod_eq_of_lt h5 h6]
  have hr : inRange (groupedConv ar as (expandGroups g P) wt (expandGroups g (initial bias (n :: g * f :: outs)))).sizes (b :: q :: j :: o) = true := by
    simp only [groupedConv, convOp, expandGroups, size, hs, List.getD_cons_succ, List.getD_cons_zero, List.drop_succ_cons, List.drop_zero, ef]
    exact inRange_cons.2 ⟨⟨h1, h2⟩, inRange_cons.2 ⟨⟨h3, h4⟩, inRange_cons.2 ⟨⟨h5, h6⟩, ho⟩⟩⟩
  simp only [collapseGroups, List.getD_cons_succ, List.getD_cons_zero, List.drop_succ_cons, List.drop_zero, e1, e2]
  rw [get_of_range hr]
  unfold groupedConv
  have es : (expandGroups g P).sizes = n :: g :: c :: ps := by
    simp only [expandGroups, size, hP, List.getD_cons_succ, List.getD_cons_zero, List.drop_succ_cons, List.drop_zero, ec]
  rw [convOp_elem ar _ _ _ _ _ _ _ (vb (q * f + j)) (fun r => X b (q * c + r.getD 0 0) o (r.drop 1)) (fun r => W q j (r.getD 0 0) (r.drop 1))]
  · simp only [size, es, hwt, List.getD_cons_succ, List.getD_cons_zero, List.drop_succ_cons, List.drop_zero, sumOver]
  · rw [get_expandGroups g _ hg hs ⟨h1, h2⟩ ⟨h3, h4⟩ ⟨h5, h6⟩ ho]
    exact initial_get hb ⟨h1, h2⟩ (channel ⟨h3, h4⟩ ⟨h5, h6⟩) ho
  · intro r hr
    simp only [size, es, hwt, List.getD_cons_succ, List.getD_cons_zero, List.drop_succ_cons, List.drop_zero] at hr
    obtain ⟨l, k, rfl, hl0, hl1, hk⟩ := inRange_uncons hr
    have := hX b (q * c + l) o k ⟨h1, h2⟩ (channel ⟨h3, h4⟩ ⟨hl0, hl1⟩) ho hk
    simp only [List.getD_cons_succ, List.getD_cons_zero, List.drop_succ_cons, List.drop_zero]
    rw [get_expandGroups g P hg hP ⟨h1, h2⟩ ⟨h3, h4⟩ ⟨hl0, hl1⟩ this.1, this.2]
  · intro r hr
    simp only [size, es, hwt, List.getD_cons_succ, List.getD_cons_zero, List.drop_succ_cons, List.drop_zero] at hr
    obtain ⟨l, k, rfl, hl0, hl1, hk⟩ := inRange_uncons hr
    exact hW q j l k ⟨h3, h4⟩ ⟨h5, h6⟩ ⟨hl0, hl1⟩ hk

theorem depthwise_elems [CommSemiring C] (ar : Arith A B C R) (as : List Axis) (P : Tensor A) (wt : Tensor B) (bias : Option (Tensor C)) {g n : Int}
    {ks outs ps : List Int}
    {X : Int → Int → List Int → List Int → A} {W : Int → Int → Int → List Int → B} {vb : Int → C} (hP : P.sizes = n :: g :: ps) (hwt : wt.sizes = g :: 1 :: ks)
    (hX : ∀ b i o k, 0 ≤ b ∧ b < n → 0 ≤ i ∧ i < g → inRange outs o = true → inRange ks k = true → P.get (b :: i :: tap as o k) = some (X b i o k))
    (hW : ∀ q k, 0 ≤ q ∧ q < g → inRange ks k = true → wt.get (q :: 0 :: k) = some (W q 0 0 k)) (hb : HasBias bias g vb) :
    HasElems ar (depthwiseConv ar as P wt (initial bias (n :: g :: outs))) g n 1 1 ks outs X W vb := by
  refine ⟨?_, fun b q j o h1 h2 h3 h4 h5 h6 ho => ?_⟩
  · cases bias <;> simp [depthwiseConv, convOp, initial, fill]
  · have hj : j = 0 := by omega
    subst hj
    rw [Int.mul_one, Int.add_zero]
    unfold depthwiseConv
    rw [convOp_elem ar _ _ _ _ _ _ _ (vb q) (fun k => X b q o k) (fun k => W q 0 0 k)]
    · simp only [size, hP, hwt, List.getD_cons_succ, List.getD_cons_zero, List.drop_succ_cons, List.drop_zero, sumTo_one, Int.add_zero]
    · exact initial_get hb ⟨h1, h2⟩ ⟨h3, h4⟩ ho
    · intro k hk
      simp only [hwt, List.drop_succ_cons, List.drop_zero] at hk
      exact hX b q o k ⟨h1, h2⟩ ⟨h3, h4⟩ ho hk
    · intro k hk
      simp only [hwt, List.drop_succ_cons, List.drop_zero] at hk
      have := hW q k ⟨h3, h4⟩ hk
      rw [get_of_range (by rw [hwt]; exact inRange_cons.2 ⟨⟨h3, h4⟩, inRange_cons.2 ⟨by omega, hk⟩⟩)] at this
      rw [get_of_range (by
        simp only [size, hwt, List.getD_cons_succ, List.getD_cons_zero, List.drop_succ_cons, List.drop_zero, Int.mul_one]
        exact inRange_cons.2 ⟨⟨h3, h4⟩, hk⟩)]
      simp only [size, hwt, List.getD_cons_succ, List.getD_cons_zero, List.drop_succ_cons, List.drop_zero, Int.ediv_one, Int.emod_one]
      exact this

end Verif.Conv
