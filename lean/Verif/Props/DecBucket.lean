import Verif.Lemmas.DecBucket

/-!
# C102: buckets, classes and evenly spaced numbers

`aten.bucketize`, `aten.one_hot` and `aten.linspace` are replaced by comparisons, searches and ranges that give the same.
-/

namespace Verif

open Lin Bucket

/-- Every element is put into its bucket. Missing: no boundaries at all. -/
theorem C102_bucketize_partial (outInt32 right : Bool) (input : Tensor Num) {bs : List ℚ} (hs : bs.Pairwise (· ≤ ·)) (hne : bs ≠ []) :
    ∃ r : Tensor Int, bucketize true (some 1) (some outInt32) (some right) input (vector bs) = .ok (if outInt32 then .int else .long, r) ∧
      r.sizes = input.sizes ∧
      ∀ idx x, input.get idx = some x → ∃ k, r.get idx = some k ∧ IsBucket right bs x k := by
  have hpos : 0 < bs.length := List.length_pos_iff.2 hne
  have hc : (if (!right) = true then across Num.leq (unsqueezeLast input) (vector bs) else across Num.less (unsqueezeLast input) (vector bs)) =
      across (cmp right) (unsqueezeLast input) (vector bs) := by
    cases right <;> rfl
  have hsz : (across (cmp right) (unsqueezeLast input) (vector bs)).sizes = input.sizes ++ [(bs.length : Int)] := across_sizes _ _ _
  have h1 : ¬ (bs.length = 0) := by omega
  have h2 : (0 : Int) ≤ -1 + bs.length ∧ (-1 + bs.length : Int) < bs.length := by omega
  simp only [bucketize, Bool.not_true, Bool.false_eq_true, if_false, ne_eq, not_true_eq_false, hc, argmaxLast, selectLast, convert, hsz,
    List.getLastD_concat, Int.toNat_natCast, h1, Outcome.bind, List.dropLast_concat, show ((-1 : Int) < 0) from by omega, if_true, h2, and_self, whereScalar]
  refine ⟨_, rfl, rfl, fun idx x hx => ?_⟩
  have hin : inRange input.sizes idx = true := by
    unfold Tensor.get at hx
    by_contra c
    rw [if_neg c] at hx
    cases hx
  rw [get_of_range hin] at hx
  have hel : ∀ i : Nat, ∀ h : i < bs.length, (across (cmp right) (unsqueezeLast input) (vector bs)).elem (idx ++ [(i : Int)]) = some (cmp right x (some bs[i])) :=
    fun i h => across_elem hx (vector_elem h)
  have hlast : (-1 + bs.length : Int) = ((bs.length - 1 : Nat) : Int) := by omega
  have hrow := rowOf_eq (t := ⟨input.sizes ++ [(bs.length : Int)], fun idx => Option.map (fun b => if b = true then (1 : ℚ) else 0) ((across (cmp right) (unsqueezeLast input) (vector bs)).elem idx)⟩)
    (idx := idx) (n := bs.length) (f := fun i => if cmp right x (bs[i]?) = true then (1 : ℚ) else 0) (fun i hi => by
      simp only [hel i hi, Option.map_some, List.getElem?_eq_getElem hi])
  rw [get_of_range (by exact hin)]
  simp only [hlast, hel (bs.length - 1) (by omega), hrow, Option.map_some]
  refine ⟨_, rfl, ?_⟩
  cases x with
  | none =>
    rw [cmp_none, if_neg (by simp)]
    exact ⟨Int.natCast_nonneg _, le_refl _, rfl⟩
  | some x =>
    by_cases q : cmp right (some x) (some bs[bs.length - 1]) = true
    · rw [if_pos q]
      have := firstMax_bool (fun i => cmp right (some x) (bs[i]?))
        (fun i => (List.map (fun i => if cmp right (some x) (bs[i]?) = true then (1 : ℚ) else 0) (List.range bs.length)).getD i 0) (n := bs.length - 1)
        (fun i hi => by
          rw [List.getD_eq_getElem?_getD, List.getElem?_map, List.getElem?_range (by omega)]
          rfl)
        (by rw [List.getElem?_eq_getElem (by omega)]; exact q)
      obtain ⟨g1, g2, g3⟩ := this
      refine isBucket_of hs (by omega) (fun h => ?_) fun i hi h => ?_
      · have := g2
        rwa [List.getElem?_eq_getElem h] at this
      · have := g3 i hi
        rwa [List.getElem?_eq_getElem h] at this
    · rw [if_neg q]
      refine isBucket_of hs (le_refl _) (fun h => absurd h (lt_irrefl _)) fun i _ h => ?_
      by_contra c
      have c : cmp right (some x) (some bs[i]) = true := by simpa using c
      refine q ?_
      by_cases e : i = bs.length - 1
      · subst e; exact c
      · exact cmp_mono (List.pairwise_iff_getElem.1 hs i (bs.length - 1) h (by omega) (by omega)) c

/-- What the bucket is, is determined. -/
theorem C102_bucket_unique {right : Bool} {bs : List ℚ} {x : Num} {k l : Int} (hk : IsBucket right bs x k) (hl : IsBucket right bs x l) : k = l := by
  have key : ∀ {k l : Int}, IsBucket right bs x k → IsBucket right bs x l → ¬ k < l := by
    intro k l hk hl h
    obtain ⟨k0, k1, k2⟩ := hk
    obtain ⟨_, l1, l2⟩ := hl
    cases x with
    | none =>
      simp only at k2 l2
      omega
    | some x =>
      have hi : k.toNat < bs.length := by omega
      have a := (k2 k.toNat _ (List.getElem?_eq_getElem hi)).2 (by omega)
      have b := (l2 k.toNat _ (List.getElem?_eq_getElem hi)).1 (by omega)
      cases right
      · exact absurd (lt_of_lt_of_le b a) (lt_irrefl _)
      · exact absurd (lt_of_lt_of_le a b) (lt_irrefl _)
  have := key hk hl
  have := key hl hk
  omega

/-- Nothing else is replaced. -/
theorem C102_rejects (inputSizes : Bool) (boundRank : Option Nat) (outInt32 right : Option Bool) (input boundaries : Tensor Num)
    (h : inputSizes = false ∨ boundRank ≠ some 1 ∨ outInt32 = none ∨ right = none) :
    bucketize inputSizes boundRank outInt32 right input boundaries = .unmatched := by
  unfold bucketize
  by_cases h1 : inputSizes = false
  · rw [h1]; rfl
  have h1 : inputSizes = true := by simpa using h1
  subst h1
  rw [if_neg (by simp)]
  by_cases h2 : boundRank ≠ some 1
  · rw [if_pos h2]
  rw [if_neg h2]
  cases outInt32 <;> cases right <;> simp_all

/-- Without boundaries everything is in the first bucket, but a largest element of nothing is asked for. -/
theorem C102_violated_empty (outInt32 right : Bool) (input : Tensor Num) :
    bucketize true (some 1) (some outInt32) (some right) input (vector []) = .bad ∧ ∀ x, IsBucket right [] x 0 := by
  constructor
  · cases right <;> simp [bucketize, argmaxLast, convert, across, vector, Outcome.bind]
  · intro x
    refine ⟨le_refl _, le_refl _, ?_⟩
    cases x with
    | none => rfl
    | some x =>
      intro i b hb
      simp at hb

/-- A one at the place of the class, and zeros elsewhere. Missing: classes that are out of range, for which torch gives an error; the number of classes found from the largest. -/
theorem C102_oneHot_partial (input : Tensor Int) (n : Nat) :
    ∃ r : Tensor Int, oneHot true n input = .ok r ∧ r.sizes = input.sizes ++ [(n : Int)] ∧
      ∀ idx c, input.get idx = some c → 0 ≤ c → c < n → ∀ j : Int, 0 ≤ j → j < n → r.get (idx ++ [j]) = some (if j = c then 1 else 0) := by
  have hn : ¬ ((n : Int) < 0) := by omega
  simp only [oneHot, Bool.not_true, Bool.false_eq_true, if_false, arange, hn, Outcome.bind]
  refine ⟨_, rfl, by rw [convert, across_sizes], fun idx c hc _ _ j h0 h1 => ?_⟩
  have hin : inRange input.sizes idx = true := by
    unfold Tensor.get at hc
    by_contra c
    rw [if_neg c] at hc
    cases hc
  rw [get_of_range hin] at hc
  rw [get_of_range]
  · simp only [convert]
    rw [across_elem hc (b := j) rfl]
    simp only [Option.map_some, Option.some.injEq, decide_eq_true_eq, eq_comm (a := c)]
  · simp only [convert, across_sizes]
    rw [inRange_append (inRange_length hin), hin]
    simp [inRange, h0, h1]

/-- A class that is out of range is not found out. -/
theorem C102_violated_class (n : Nat) (c : Int) (h : c < 0 ∨ (n : Int) ≤ c) (input : Tensor Int) (idx : List Int) (hc : input.get idx = some c) :
    ∃ r : Tensor Int, oneHot true n input = .ok r ∧ ∀ j : Int, 0 ≤ j → j < n → r.get (idx ++ [j]) = some 0 := by
  have hn : ¬ ((n : Int) < 0) := by omega
  simp only [oneHot, Bool.not_true, Bool.false_eq_true, if_false, arange, hn, Outcome.bind]
  refine ⟨_, rfl, fun j h0 h1 => ?_⟩
  have hin : inRange input.sizes idx = true := by
    unfold Tensor.get at hc
    by_contra c
    rw [if_neg c] at hc
    cases hc
  rw [get_of_range hin] at hc
  rw [get_of_range]
  · simp only [convert]
    rw [across_elem hc (b := j) rfl]
    have : ¬ c = j := by omega
    simp [this]
  · simp only [convert, across_sizes]
    rw [inRange_append (inRange_length hin), hin]
    simp [inRange, h0, h1]

/-- Evenly spaced numbers. Missing: one number, if how many is only known when the program runs; integers between limits that are not. -/
theorem C102_linspace_partial (start stop : ℚ) (static : Bool) (n : Nat) (dtype : Option Kind) (h : static = true ∨ n ≠ 1)
    (hk : dtype = some .integer → (∃ z : Int, start = z) ∧ ∃ z : Int, stop = z) :
    ∃ ys, linspace start stop static n dtype = .ok ys ∧ Linspace start stop (dtype.getD .float) n ys := by
  have hst : Stored (dtype.getD .float) start start ∧ Stored (dtype.getD .float) stop stop := by
    cases dtype with
    | none => exact ⟨rfl, rfl⟩
    | some k =>
      cases k with
      | float => exact ⟨rfl, rfl⟩
      | integer =>
        obtain ⟨⟨a, ha⟩, b, hb⟩ := hk rfl
        subst ha hb
        exact ⟨stored_int _ a, stored_int _ b⟩
  simp only [linspace]
  by_cases q : n = 1
  · subst q
    rw [if_pos ⟨by rcases h with h | h; exact h; exact absurd rfl h, rfl⟩]
    refine ⟨_, rfl, start, stop, [start], hst.1, hst.2, rfl, ⟨fun x hx => ?_, fun h2 => ?_, 0, fun i x y _ hy => ?_⟩, rfl, fun i x y hx hy => ?_⟩
    · simpa using hx.symm
    · simp at h2
    · simp at hy
    · cases i with
      | zero =>
        simp at hx hy
        subst hx hy
        exact toKind_stored _ _
      | succ i => simp at hx
  · rw [if_neg fun c => q (by omega), if_neg (by omega), if_neg (by omega)]
    refine ⟨_, rfl, start, stop, _, hst.1, hst.2, ?_, even_of start stop q, by simp, fun i x y hx hy => ?_⟩
    · simp
    · rw [List.getElem?_map] at hx hy
      obtain ⟨a, ha, rfl⟩ := Option.map_eq_some_iff.1 hx
      rw [Int.toNat_natCast, ha] at hy
      simp only [Option.map_some, Option.some.injEq] at hy
      subst hy
      exact toKind_stored _ _

/-- What the numbers are, is determined. -/
theorem Bucket.even_start {s e : ℚ} {x y z : ℚ} (h : Even s e [x, y, z]) : x = s ∧ z = e ∧ y - x = z - y := by
  obtain ⟨h1, h2, d, h3⟩ := h
  refine ⟨h1 x rfl, ?_, ?_⟩
  · have := h2 (by simp)
    simpa using this
  · rw [h3 0 x y rfl rfl, h3 1 y z rfl rfl]

/-- One number, if their number is not a constant: the program stops, although there is a result. -/
theorem C102_violated_dynamic (start stop : ℚ) (dtype : Option Kind) :
    linspace start stop false 1 dtype = .aborts ∧ Linspace start stop .float 1 [start] := by
  constructor
  · simp [linspace]
  · refine ⟨start, stop, [start], rfl, rfl, rfl, ⟨fun x hx => ?_, fun h2 => ?_, 0, fun i x y _ hy => ?_⟩, rfl, fun i x y hx hy => ?_⟩
    · simpa using hx.symm
    · simp at h2
    · simp at hy
    · rw [hx] at hy
      exact (Option.some.inj hy).symm

/-- Integers from 1/2 to 7/2: the limits are not made integers first, so that the second of three is 2 and not 1. -/
theorem C102_violated_limits :
    linspace (1 / 2) (7 / 2) true 3 (some .integer) = .ok [0, 2, 3] ∧ ¬ Linspace (1 / 2) (7 / 2) .integer 3 [0, 2, 3] ∧
      Linspace (1 / 2) (7 / 2) .integer 3 [0, 1, 3] := by
  refine ⟨?_, ?_, ?_⟩
  · have e1 : ⌊(1 / 2 : ℚ)⌋ = 0 := by rw [Int.floor_eq_iff]; norm_num
    have e3 : ⌊(7 / 2 : ℚ)⌋ = 3 := by rw [Int.floor_eq_iff]; norm_num
    have er : List.range (Int.toNat 3) = [0, 1, 2] := rfl
    norm_num [linspace, er, toKind, e1, e3]
  · rintro ⟨s, e, xs, hs, he, hl, hev, _, hy⟩
    obtain ⟨⟨a, rfl⟩, a1, a2, _⟩ := hs
    obtain ⟨⟨b, rfl⟩, b1, b2, b3⟩ := he
    match xs, hl with
    | [x, y, z], _ =>
      obtain ⟨rfl, rfl, h3⟩ := even_start hev
      obtain ⟨_, _, c, _⟩ := hy 1 y 2 rfl rfl
      rw [abs_of_nonneg (by norm_num : (0 : ℚ) ≤ 1 / 2), abs_le] at a2
      rw [abs_of_nonneg (by norm_num : (0 : ℚ) ≤ 7 / 2), abs_le] at b2
      rw [abs_of_nonneg (by norm_num : (0 : ℚ) ≤ 2)] at c
      have ha : a = 0 := by
        have h1 : (-1 : ℚ) < a := by linarith
        have h2 : (a : ℚ) < 1 := by linarith
        have h1 : (-1 : Int) < a := by exact_mod_cast h1
        have h2 : a < 1 := by exact_mod_cast h2
        omega
      have hb : b ≤ 3 := by
        have h2 : (b : ℚ) < 4 := by linarith
        have h2 : b < 4 := by exact_mod_cast h2
        omega
      have hb : (b : ℚ) ≤ 3 := by exact_mod_cast hb
      have hb0 : (0 : ℚ) ≤ b := by nlinarith
      subst ha
      rw [abs_of_nonneg (by push_cast at h3; linarith)] at c
      push_cast at h3
      linarith
  · refine ⟨0, 3, [0, 3 / 2, 3], ?_, ?_, rfl, ⟨fun x hx => by simpa using hx.symm, fun _ => rfl, 3 / 2, fun i x y hx hy => ?_⟩, rfl, fun i x y hx hy => ?_⟩
    · exact ⟨⟨0, by norm_num⟩, by norm_num [abs_lt], by norm_num, by norm_num⟩
    · exact ⟨⟨3, by norm_num⟩, by norm_num [abs_lt], by norm_num [abs_of_nonneg], by norm_num⟩
    · match i with
      | 0 => simp at hx hy; subst hx hy; norm_num
      | 1 => simp at hx hy; subst hx hy; norm_num
      | i + 2 => simp at hy
    · match i with
      | 0 => simp at hx hy; subst hx hy; exact ⟨⟨0, by norm_num⟩, by norm_num, by norm_num, by norm_num⟩
      | 1 => simp at hx hy; subst hx hy; exact ⟨⟨1, by norm_num⟩, by norm_num [abs_lt], by norm_num [abs_of_nonneg], by norm_num⟩
      | 2 => simp at hx hy; subst hx hy; exact ⟨⟨3, by norm_num⟩, by norm_num, by norm_num, by norm_num⟩
      | i + 3 => simp at hx

namespace Test102

/-- Three elements, the last of which is not a number. -/
def input : Tensor Num := ⟨[3], fun idx => idx.head?.map fun i => if i = 0 then some 2 else if i = 1 then some (5 / 2) else none⟩

def show2 (o : Outcome (Width × Tensor Int)) : List (Option Int) :=
  match o with
  | .ok r => [r.2.get [0], r.2.get [1], r.2.get [2], r.2.get [3]]
  | _ => []

example : show2 (bucketize true (some 1) (some false) (some false) input (vector [1, 2, 2, 3])) = [some 1, some 3, some 4, none] := by decide +kernel

example : show2 (bucketize true (some 1) (some false) (some true) input (vector [1, 2, 2, 3])) = [some 3, some 3, some 4, none] := by decide +kernel

example : IsBucket false [1, 2, 2, 3] (some 2) 1 := by
  obtain ⟨r, h1, _, h3⟩ := C102_bucketize_partial false false input (bs := [1, 2, 2, 3]) (by norm_num) (by simp)
  obtain ⟨k, g1, g2⟩ := h3 [0] (some 2) rfl
  have : show2 (bucketize true (some 1) (some false) (some false) input (vector [1, 2, 2, 3])) = [some 1, some 3, some 4, none] := by decide +kernel
  rw [h1] at this
  simp only [show2, List.cons.injEq, g1, Option.some.injEq] at this
  rw [← this.1]
  exact g2

def classes : Tensor Int := ⟨[2], fun idx => idx.head?.map fun i => if i = 0 then 2 else 0⟩

example : (match oneHot true 3 classes with
    | .ok r => [r.get [0, 0], r.get [0, 1], r.get [0, 2], r.get [1, 0], r.get [1, 1], r.get [1, 2]]
    | _ => []) = [some 0, some 0, some 1, some 1, some 0, some 0] := by decide

example : linspace 0 1 false 3 none = .ok [0, 1 / 2, 1] := by
  have er : List.range (Int.toNat 3) = [0, 1, 2] := rfl
  norm_num [linspace, er, toKind]

end Test102

end Verif
