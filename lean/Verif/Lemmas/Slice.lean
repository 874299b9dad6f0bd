import Verif.Model.ShapeSlice
import Verif.Spec.Slice
import Verif.Lemmas.Cat

/-! # Lemmas about slices -/

namespace Verif.Shape

theorem countBelow_succ (n : Nat) (p : Nat → Bool) :
    countBelow (n + 1) p = countBelow n p + if p n then 1 else 0 := by
  unfold countBelow
  rw [List.range_succ, List.filter_append, List.length_append]
  congr 1
  by_cases h : p n = true <;> simp [h]

theorem countBelow_congr {n : Nat} {p q : Nat → Bool} (h : ∀ i, i < n → p i = q i) :
    countBelow n p = countBelow n q := by
  unfold countBelow
  rw [List.filter_congr (fun i hi => h i (List.mem_range.mp hi))]

theorem countBelow_reverse (n : Nat) (p : Nat → Bool) :
    countBelow n p = countBelow n (fun i => p (n - 1 - i)) := by
  unfold countBelow
  have h1 : (List.range n).reverse = (List.range n).map (fun i => n - 1 - i) := by
    apply List.ext_getElem (by simp)
    intro i h1 h2
    simp only [List.length_reverse, List.length_range] at h1
    simp [List.getElem_reverse]
  have h2 : ((List.range n).filter p).length = ((List.range n).reverse.filter p).length := by
    rw [List.filter_reverse, List.length_reverse]
  rw [h2, h1, List.filter_map, List.length_map]
  rfl

theorem ceil_step (k st : Nat) (hst : 0 < st) :
    (k + 1 + st - 1) / st = (k + st - 1) / st + if st ∣ k then 1 else 0 := by
  rcases Nat.eq_zero_or_pos k with rfl | hk
  · rw [if_pos (Nat.dvd_zero st)]
    have h1 : (0 + st - 1) / st = 0 := Nat.div_eq_of_lt (by omega)
    have h2 : (0 + 1 + st - 1) = st := by omega
    rw [h1, h2, Nat.div_self hst]
  · have h1 : k + 1 + st - 1 = k + st := by omega
    have h2 : k + st - 1 = (k - 1) + st := by omega
    rw [h1, h2, Nat.add_div_right _ hst, Nat.add_div_right _ hst]
    have h3 := Nat.succ_div (a := k - 1) (b := st)
    rw [show k - 1 + 1 = k by omega] at h3
    rw [h3]
    omega

/-- Counting an ascending slice of `[0, m)`. -/
theorem count_up (s e st m : Nat) (hst : 0 < st) :
    countBelow m (fun i => decide (s ≤ i ∧ i < e ∧ st ∣ (i - s))) = (min m e - s + st - 1) / st := by
  induction m with
  | zero =>
    have h : (min 0 e - s + st - 1) / st = 0 := Nat.div_eq_of_lt (by omega)
    rw [h]
    rfl
  | succ m ih =>
    rw [countBelow_succ, ih]
    by_cases h : s ≤ m ∧ m < e
    · have h1 : min (m + 1) e - s = (m - s) + 1 := by omega
      have h2 : min m e - s = m - s := by omega
      rw [h1, h2, ceil_step _ _ hst]
      simp [h.1, h.2]
    · have h1 : min (m + 1) e - s = min m e - s := by omega
      rw [h1, if_neg]
      · rfl
      · simp only [decide_eq_true_eq]
        rintro ⟨h3, h4, _⟩
        exact h ⟨h3, h4⟩

theorem fdiv_ceil (k st : Nat) (hst : 0 < st) :
    Int.fdiv ((k : Int) + st - 1) st = ((k + st - 1) / st : Nat) := by
  have h1 : ((k : Int) + st - 1) = ((k + st - 1 : Nat) : Int) := by omega
  rw [h1, Int.fdiv_eq_ediv_of_nonneg _ (by omega)]
  exact (Int.natCast_ediv _ _).symm

theorem int_dvd_sub {st s i : Nat} (h : s ≤ i) : (st : Int) ∣ ((i : Int) - (s : Int)) ↔ st ∣ (i - s) := by
  have : ((i : Int) - (s : Int)) = ((i - s : Nat) : Int) := by omega
  rw [this, Int.natCast_dvd_natCast]

/-- The size computed for a positive step counts the selected indices. -/
theorem sliceSize_eq (n : Nat) (start end_ : Option Int) (step : Int) (hst : 0 < step)
    (hn : (n : Int) ≤ maxInt) (hs : start ≠ some maxInt) :
    sliceSize n start end_ step = countBelow n (selected n start end_ step) := by
  obtain ⟨st, rfl⟩ : ∃ st : Nat, step = st := ⟨step.toNat, by omega⟩
  have hst' : 0 < st := by omega
  obtain ⟨s, hsp, hsn⟩ : ∃ s : Nat, start.elim 0 (position n) = (s : Int) ∧ s ≤ n := by
    refine ⟨(start.elim 0 (position n)).toNat, ?_, ?_⟩
    · cases start with
      | none => rfl
      | some x => simp only [Option.elim_some, position]; omega
    · cases start with
      | none => simp
      | some x => simp only [Option.elim_some, position]; omega
  obtain ⟨e, hep, hen⟩ : ∃ e : Nat, end_.elim (n : Int) (position n) = (e : Int) ∧ e ≤ n := by
    refine ⟨(end_.elim (n : Int) (position n)).toNat, ?_, ?_⟩
    · cases end_ with
      | none => simp
      | some x => simp only [Option.elim_some, position]; omega
    · cases end_ with
      | none => simp
      | some x => simp only [Option.elim_some, position]; omega
  have hcount : countBelow n (selected n start end_ st) = (e - s + st - 1) / st := by
    have h1 : countBelow n (selected n start end_ st) =
        countBelow n (fun i => decide (s ≤ i ∧ i < e ∧ st ∣ (i - s))) := by
      apply countBelow_congr
      intro i _
      unfold selected
      rw [hsp, hep]
      apply decide_eq_decide.mpr
      constructor
      · rintro ⟨h1, h2, h3⟩
        have h1' : s ≤ i := by omega
        exact ⟨h1', by omega, (int_dvd_sub h1').mp h3⟩
      · rintro ⟨h1, h2, h3⟩
        exact ⟨by omega, by omega, (int_dvd_sub h1).mpr h3⟩
    rw [h1, count_up s e st n hst']
    congr 3
    omega
  rw [hcount]
  have hsz : sliceSize n start end_ st = Int.fdiv (((e - s : Nat) : Int) + st - 1) st := by
    unfold sliceSize
    simp only []
    have hs3 : (let s0 := start.getD 0
        let s1 := if s0 = maxInt then 0 else s0
        let s2 := if s1 < 0 then s1 + (n : Int) else s1
        if s2 < 0 then 0 else if s2 > n then (n : Int) else s2) = (s : Int) := by
      simp only []
      rw [← hsp]
      cases start with
      | none =>
        have h0 : (0 : Int) ≠ maxInt := by decide
        simp only [Option.getD_none, if_neg h0, Option.elim_none]
        split <;> (try split) <;> omega
      | some x =>
        have hx : x ≠ maxInt := by simpa using hs
        simp only [Option.getD_some, if_neg hx, Option.elim_some, position]
        split <;> split <;> (try split) <;> omega
    simp only [] at hs3
    rw [hs3]
    have he2 : (let e0 := end_.getD maxInt
        let e1 := if e0 < 0 then e0 + (n : Int) else e0
        if e1 < s then (s : Int) else if e1 ≥ n then (n : Int) else e1) = max (e : Int) s := by
      simp only []
      rw [← hep]
      cases end_ with
      | none =>
        simp only [Option.getD_none, Option.elim_none]
        have : ¬ (maxInt < 0) := by decide
        rw [if_neg this]
        split
        · omega
        · omega
      | some x =>
        simp only [Option.getD_some, Option.elim_some, position]
        split <;> split <;> (try split) <;> omega
    simp only [] at he2
    rw [he2]
    congr 1
    omega
  rw [hsz, fdiv_ceil _ _ hst']

/-- Counting a descending slice. -/
theorem count_down (n a b st : Nat) (hb : b ≤ n) (hst : 0 < st) :
    countBelow n (fun i => decide (a ≤ i ∧ i < b ∧ st ∣ (b - 1 - i))) = (b - a + st - 1) / st := by
  rw [countBelow_reverse]
  have h1 : countBelow n (fun i => decide (a ≤ n - 1 - i ∧ n - 1 - i < b ∧ st ∣ (b - 1 - (n - 1 - i)))) =
      countBelow n (fun i => decide (n - b ≤ i ∧ i < n - a ∧ st ∣ (i - (n - b)))) := by
    apply countBelow_congr
    intro i hi
    apply decide_eq_decide.mpr
    have h2 : a ≤ n - 1 - i ↔ i < n - a := by omega
    by_cases h3 : n - b ≤ i
    · have h4 : n - 1 - i < b ↔ True := by constructor <;> (intro _; first | trivial | omega)
      have h5 : b - 1 - (n - 1 - i) = i - (n - b) := by omega
      rw [h2, h4, h5]
      simp [h3]
    · have h4 : ¬ (n - 1 - i < b) := by omega
      simp [h3, h4]
  rw [h1, count_up _ _ _ _ hst]
  congr 3
  omega

/-- The size computed after the conversion of a negative step. -/
theorem sliceSize_down (n : Nat) (start end_ step : Int) (hst : step < 0)
    (hmax : (n : Int) < maxInt) (he : end_ + 1 ≠ maxInt) :
    sliceSize n (some ((if end_ < 0 then (if end_ + n < 0 then -1 else end_ + n) else end_) + 1))
      (some ((if start < 0 then (if start + n < 0 then 0 else start + n) else start) + 1)) (-step) =
      countBelow n (selectedDown n start end_ step) := by
  obtain ⟨st, rfl⟩ : ∃ st : Nat, step = -(st : Int) := ⟨(-step).toNat, by omega⟩
  have hst' : 0 < st := by omega
  obtain ⟨a, ha, han⟩ : ∃ a : Nat, downEnd n end_ + 1 = (a : Int) ∧ a ≤ n := by
    refine ⟨(downEnd n end_ + 1).toNat, ?_, ?_⟩ <;> (unfold downEnd; omega)
  by_cases hn0 : n = 0
  · subst hn0
    have : countBelow 0 (selectedDown 0 start end_ (-(st : Int))) = 0 := rfl
    rw [this]
    unfold sliceSize
    simp only [Option.getD_some, Int.neg_neg, Int.natCast_zero, Int.add_zero]
    generalize hA : (if end_ < 0 then (if end_ < 0 then (-1 : Int) else end_) else end_) + 1 = A
    generalize hB : (if start < 0 then (if start < 0 then (0 : Int) else start) else start) + 1 = B
    have hA0 : 0 ≤ A := by rw [← hA]; split <;> (try split) <;> omega
    have hAm : A ≠ maxInt := by
      rw [← hA]; split
      · decide
      · exact he
    have hB0 : 0 ≤ B := by rw [← hB]; split <;> (try split) <;> omega
    rw [if_neg hAm]
    have h1 : ¬ A < 0 := by omega
    have h2 : ¬ B < 0 := by omega
    simp only [h1, h2, if_false]
    have h3 : (if A > 0 then (0 : Int) else A) = 0 := by split <;> omega
    rw [h3, if_neg h2, if_pos (by omega)]
    have := fdiv_ceil 0 st hst'
    simp only [Int.natCast_zero, Int.zero_add, Nat.zero_add] at this
    simp only [Int.sub_self, Int.zero_add]
    rw [this, Nat.div_eq_of_lt (by omega)]
    rfl
  · obtain ⟨b, hb, hbn⟩ : ∃ b : Nat, downStart n start + 1 = (b : Int) ∧ b ≤ n := by
      refine ⟨(downStart n start + 1).toNat, ?_, ?_⟩ <;> (unfold downStart; omega)
    have hcount : countBelow n (selectedDown n start end_ (-(st : Int))) = (b - a + st - 1) / st := by
      rw [← count_down n a b st hbn hst']
      apply countBelow_congr
      intro i _
      unfold selectedDown
      apply decide_eq_decide.mpr
      have h1 : downEnd n end_ = (a : Int) - 1 := by omega
      have h2 : downStart n start = (b : Int) - 1 := by omega
      rw [h1, h2, Int.neg_dvd]
      constructor
      · rintro ⟨h3, h4, h5⟩
        have : ((b : Int) - 1 - i) = ((b - 1 - i : Nat) : Int) := by omega
        rw [this, Int.natCast_dvd_natCast] at h5
        exact ⟨by omega, by omega, h5⟩
      · rintro ⟨h3, h4, h5⟩
        refine ⟨by omega, by omega, ?_⟩
        have : ((b : Int) - 1 - i) = ((b - 1 - i : Nat) : Int) := by omega
        rw [this, Int.natCast_dvd_natCast]
        exact h5
    rw [hcount, ← fdiv_ceil _ _ hst']
    generalize hA : (if end_ < 0 then (if end_ + n < 0 then (-1 : Int) else end_ + n) else end_) + 1 = A
    generalize hB : (if start < 0 then (if start + n < 0 then (0 : Int) else start + n) else start) + 1 = B
    have hA0 : 0 ≤ A := by rw [← hA]; split <;> (try split) <;> omega
    have hAm : A ≠ maxInt := by
      rw [← hA]
      split
      · split
        · decide
        · omega
      · exact he
    have hB1 : 1 ≤ B := by rw [← hB]; split <;> (try split) <;> omega
    have hAa : min A n = a := by
      rw [← ha, ← hA]; unfold downEnd; split <;> (try split) <;> omega
    have hBb : min B n = b := by
      rw [← hb, ← hB]; unfold downStart; split <;> (try split) <;> omega
    unfold sliceSize
    simp only [Option.getD_some, Int.neg_neg]
    rw [if_neg hAm]
    have h1 : ¬ A < 0 := by omega
    have h2 : ¬ B < 0 := by omega
    simp only [h1, h2, if_false]
    have h3 : (if A > (n : Int) then (n : Int) else A) = a := by split <;> omega
    rw [h3]
    have h4 : (if B < (a : Int) then (a : Int) else if B ≥ n then (n : Int) else B) = max (b : Int) a := by
      split
      · omega
      · split <;> omega
    rw [h4]
    congr 1
    omega

theorem slice_iff (self : List Int) (dim : Int) (start end_ : Option Int) (step : Int) (c : List Int) :
    slice self dim start end_ step = .ok c ↔
      ∃ (d : Nat) (x : Int), IsDim self.length dim d ∧ self[d]? = some x ∧ 0 < step ∧
        c = self.set d (sliceSize x start end_ step) := by
  unfold slice
  by_cases h0 : self.length = 0
  · rw [if_pos h0]
    constructor
    · intro h; cases h
    · rintro ⟨d, x, _, h, _⟩
      rw [List.length_eq_zero_iff.mp h0] at h
      simp at h
  rw [if_neg h0]
  cases hw : maybeWrapDim dim self.length with
  | error e =>
    constructor
    · intro h; cases h
    · rintro ⟨d, x, h1, _⟩
      rw [maybeWrapDim_iff.mpr ⟨d, rfl, h1⟩] at hw
      cases hw
  | ok w =>
    obtain ⟨d, rfl, hd⟩ := maybeWrapDim_iff.mp hw
    have hdl : d < self.length := hd.lt_of_pos (by omega)
    simp only []
    by_cases hs : step ≤ 0
    · rw [if_pos hs]
      constructor
      · intro h; cases h
      · rintro ⟨_, _, _, _, h, _⟩; omega
    rw [if_neg hs, pyGet_nonneg _ _ hdl]
    simp only []
    rw [pySet_nat _ hdl]
    constructor
    · intro h
      cases h
      exact ⟨d, self[d], hd, List.getElem?_eq_getElem hdl, by omega, rfl⟩
    · rintro ⟨d', x, h1, h2, _, h3⟩
      have := hd.unique h1
      subst this
      rw [List.getElem?_eq_getElem hdl] at h2
      cases h2
      rw [h3]

theorem nat_of_mem {self : List Int} (h : ∀ x ∈ self, 0 ≤ x ∧ x < maxInt) {d : Nat} {x : Int}
    (hx : self[d]? = some x) : ∃ n : Nat, x = n ∧ (n : Int) < maxInt := by
  have := h x (List.mem_of_getElem? hx)
  exact ⟨x.toNat, by omega, by omega⟩

theorem isDim_pyGet {self : List Int} {dim : Int} {d : Nat} {x : Int} (h : IsDim self.length dim d)
    (hx : self[d]? = some x) : pyGet self dim = .ok x := by
  obtain ⟨hd, hx⟩ := List.getElem?_eq_some_iff.mp hx
  rcases h.2 with rfl | h2
  · rw [pyGet_nonneg _ _ hd, hx]
  · have h3 : dim = -((self.length - d : Nat) : Int) := by omega
    rw [h3, pyGet_neg _ _ (by omega) (by omega)]
    congr 1
    rw [← hx]
    congr 1
    omega

end Verif.Shape
