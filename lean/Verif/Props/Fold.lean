import Verif.Lemmas.Fold

/-!
# C71, C72, C73: folding scalar integers

C71: when the folder of an integer operator answers, the answer is what the operator computes in every execution without
overflow, and it answers when all operands are constants.  C72: the same for comparisons.  C73: the patterns that merge
constants of nested products keep the value.
-/

namespace Verif

open Fold

/-! ## C71: arithmetic -/

/-- **C71 (sums).** -/
theorem C71_add {g : Ctx} {ρ : V → Int} (h : Holds g ρ) (a b : V) (hf : Fits (ρ a + ρ b)) :
    Correct ρ (ρ a + ρ b) (foldAddInt g a b) ∧ (IsConst g a → IsConst g b → Answers (foldAddInt g a b)) := by
  rw [isConst_iff, isConst_iff]
  unfold foldAddInt
  split
  · rename_i e
    have := h.const? e
    exact ⟨by simp [Correct, this], fun _ _ => by simp [Answers]⟩
  split
  · rename_i e
    have := h.const? e
    exact ⟨by simp [Correct, this], fun _ _ => by simp [Answers]⟩
  unfold binaryIntHelper
  cases ea : g.const? a with
  | none => exact ⟨trivial, by simp⟩
  | some x =>
    cases eb : g.const? b with
    | none => exact ⟨trivial, by simp⟩
    | some y =>
      rw [h.const? ea, h.const? eb] at hf ⊢
      simp [i64_eq hf, Res.ofExpr, Correct, Answers]

/-- **C71 (differences).** -/
theorem C71_sub {g : Ctx} {ρ : V → Int} (h : Holds g ρ) (a b : V) (hf : Fits (ρ a - ρ b)) :
    Correct ρ (ρ a - ρ b) (foldSubInt g a b) ∧ (IsConst g a → IsConst g b → Answers (foldSubInt g a b)) := by
  rw [isConst_iff, isConst_iff]
  unfold foldSubInt
  split
  · rename_i e
    subst e
    exact ⟨by simp [Correct], fun _ _ => by simp [Answers]⟩
  unfold binaryIntHelper
  cases ea : g.const? a with
  | none => exact ⟨trivial, by simp⟩
  | some x =>
    cases eb : g.const? b with
    | none => exact ⟨trivial, by simp⟩
    | some y =>
      rw [h.const? ea, h.const? eb] at hf ⊢
      simp [i64_eq hf, Res.ofExpr, Correct, Answers]

/-- **C71 (products).** -/
theorem C71_mul {g : Ctx} {ρ : V → Int} (h : Holds g ρ) (a b : V) (hf : Fits (ρ a * ρ b)) :
    Correct ρ (ρ a * ρ b) (foldMulInt g a b) ∧ (IsConst g a → IsConst g b → Answers (foldMulInt g a b)) := by
  rw [isConst_iff, isConst_iff]
  unfold foldMulInt
  split
  · rename_i e
    have := h.const? e
    exact ⟨by simp [Correct, this], fun _ _ => by simp [Answers]⟩
  split
  · rename_i e
    have := h.const? e
    exact ⟨by simp [Correct, this], fun _ _ => by simp [Answers]⟩
  split
  · rename_i e
    refine ⟨?_, fun _ _ => by simp [Answers]⟩
    rcases e with e | e <;> simp [Correct, h.const? e]
  cases ea : g.const? a with
  | none => exact ⟨trivial, by simp⟩
  | some x =>
    cases eb : g.const? b with
    | none => exact ⟨trivial, by simp⟩
    | some y =>
      rw [h.const? ea, h.const? eb] at hf ⊢
      simp [i64_eq hf, Res.ofExpr, Correct, Answers]

/-- **C71 (negation).** -/
theorem C71_neg {g : Ctx} {ρ : V → Int} (h : Holds g ρ) (a : V) (hf : Fits (-ρ a)) :
    Correct ρ (-ρ a) (foldNegInt g a) ∧ (IsConst g a → Answers (foldNegInt g a)) := by
  rw [isConst_iff]
  unfold foldNegInt
  cases ea : g.const? a with
  | none => exact ⟨trivial, by simp⟩
  | some x =>
    rw [h.const? ea] at hf ⊢
    simp [i64_eq hf, Res.ofExpr, Correct, Answers]

/-- **C71 (minimum and maximum).**  Without a condition on the numbers. -/
theorem C71_min_max {g : Ctx} {ρ : V → Int} (h : Holds g ρ) (a b : V) :
    Correct ρ (min (ρ a) (ρ b)) (foldMinInt g a b) ∧ Correct ρ (max (ρ a) (ρ b)) (foldMaxInt g a b)
      ∧ (IsConst g a → IsConst g b → Answers (foldMinInt g a b) ∧ Answers (foldMaxInt g a b)) := by
  rw [isConst_iff, isConst_iff]
  unfold foldMinInt foldMaxInt
  by_cases e : a = b
  · subst e
    simp [Correct, Answers]
  · simp only [if_neg e]
    cases ea : g.const? a with
    | none => exact ⟨trivial, trivial, by simp⟩
    | some x =>
      cases eb : g.const? b with
      | none => exact ⟨trivial, trivial, by simp⟩
      | some y => simp [Correct, Answers, h.const? ea, h.const? eb]

/-- **C71 (`__derive_index`).**  The `i`-th element of a range; the product may overflow if the sum does not. -/
theorem C71_derive_index {g : Ctx} {ρ : V → Int} (h : Holds g ρ) (index start step : V)
    (hf : Fits (ρ start + ρ step * ρ index)) :
    Correct ρ (ρ start + ρ step * ρ index) (foldDeriveIndex g index start step)
      ∧ (IsConst g index → IsConst g start → IsConst g step → Answers (foldDeriveIndex g index start step)) := by
  rw [isConst_iff, isConst_iff, isConst_iff]
  unfold foldDeriveIndex
  cases ea : g.const? index with
  | none => exact ⟨trivial, by simp⟩
  | some x =>
    cases eb : g.const? start with
    | none => exact ⟨trivial, by simp⟩
    | some y =>
      cases ec : g.const? step with
      | none => exact ⟨trivial, by simp⟩
      | some z =>
        rw [h.const? ea, h.const? eb, h.const? ec] at hf ⊢
        simp [Correct, Answers, wrap_add_wrap, wrap_eq hf]

/-- The context of the examples: value 0 is the constant `x`, 1 is `y`, 2 is `z`, others are unknown. -/
def Fold.demo (x y z : Int) : Ctx where
  defn v := if v = 0 then .const x else if v = 1 then .const y else if v = 2 then .const z else .other
  uses _ := 1

/-- Values in the context of the examples. -/
def Fold.demoEnv (x y z : Int) : V → Int := fun v => if v = 0 then x else if v = 1 then y else if v = 2 then z else 0

theorem Fold.demo_holds {x y z : Int} (hx : Fits x) (hy : Fits y) (hz : Fits z) :
    Holds (demo x y z) (demoEnv x y z) := by
  refine ⟨fun v => ?_, fun v c e => ?_, fun v e => ?_, fun v p q e => ?_⟩
  · unfold demoEnv
    split
    · exact hx
    split
    · exact hy
    split
    · exact hz
    exact ⟨by decide, by decide⟩
  all_goals
    unfold demo at e
    simp only at e
    unfold demoEnv
    split at e
    · simp_all
    split at e
    · simp_all
    split at e
    · simp_all
    cases e

example : Holds (demo (-7) 3 5) (demoEnv (-7) 3 5) :=
  demo_holds ⟨by decide, by decide⟩ ⟨by decide, by decide⟩ ⟨by decide, by decide⟩
example : foldAddInt (demo (-7) 3 5) 0 1 = .attr (-4) := by decide
example : foldAddInt (demo (-7) 0 5) 9 1 = .value 9 := by decide
example : foldSubInt (demo (-7) 3 5) 0 1 = .attr (-10) := by decide
example : foldMulInt (demo (-7) 3 5) 0 1 = .attr (-21) := by decide
example : foldMulInt (demo (2 ^ 62) 2 5) 0 1 = .undef := by decide
example : foldDeriveIndex (demo 4 10 (-3)) 0 1 2 = .attr (-2) := by decide
example : foldMaxInt (demo (-7) 3 5) 0 1 = .attr 3 := by decide

/-- **C71 (remainders).**  Partial: if the operands have the same sign or there is no remainder, the answer is the
remainder of Python (that of the least number by -1 is undefined behaviour). -/
theorem C71_remainder_partial {g : Ctx} {ρ : V → Int} (h : Holds g ρ) (a b : V) (h0 : ρ b ≠ 0)
    (hmin : ¬(ρ a = -2 ^ 63 ∧ ρ b = -1)) (hs : 0 ≤ ρ a ∧ 0 < ρ b ∨ ρ a ≤ 0 ∧ ρ b < 0 ∨ ρ b ∣ ρ a) :
    Correct ρ ((ρ a).fmod (ρ b)) (foldRemainderInt g a b)
      ∧ (IsConst g a → IsConst g b → Answers (foldRemainderInt g a b)) := by
  rw [isConst_iff, isConst_iff]
  unfold foldRemainderInt binaryIntHelper
  cases ea : g.const? a with
  | none => exact ⟨trivial, by simp⟩
  | some x =>
    cases eb : g.const? b with
    | none => exact ⟨trivial, by simp⟩
    | some y =>
      rw [h.const? ea, h.const? eb] at *
      have hc : cRem x y = some (x.tmod y) := by
        unfold cRem minI64
        rw [if_neg]
        rintro (h | h)
        · exact h0 h
        · exact hmin h
      simp only [hc, Res.ofExpr, Correct, Answers]
      refine ⟨?_, by simp⟩
      rcases hs with ⟨h1, h2⟩ | ⟨h1, h2⟩ | hd
      · rw [Int.tmod_eq_emod_of_nonneg h1, Int.fmod_eq_emod_of_nonneg x h2.le]
      · obtain ⟨m, rfl⟩ : ∃ m, x = -m := ⟨-x, by omega⟩
        obtain ⟨n, rfl⟩ : ∃ n, y = -n := ⟨-y, by omega⟩
        rw [Int.neg_tmod, Int.tmod_neg, Int.neg_fmod_neg, Int.tmod_eq_emod_of_nonneg (by omega),
          Int.fmod_eq_emod_of_nonneg m (by omega)]
      · rw [Int.tmod_eq_zero_of_dvd hd, Int.fmod_eq_emod, if_pos (.inr hd), Int.emod_eq_zero_of_dvd hd]
        rfl

/-- **C71 (remainders), violated.**  For operands of different signs with a remainder the answer is never the remainder
of Python: the remainder of C++ has the sign of the dividend. -/
theorem C71_remainder_violated {g : Ctx} {ρ : V → Int} (h : Holds g ρ) {a b : V} (ha : IsConst g a) (hb : IsConst g b)
    (hs : ρ a < 0 ∧ 0 < ρ b ∨ 0 < ρ a ∧ ρ b < 0) (hd : ¬ρ b ∣ ρ a) :
    ¬Correct ρ ((ρ a).fmod (ρ b)) (foldRemainderInt g a b) := by
  obtain ⟨x, ea⟩ := isConst_iff.1 ha
  obtain ⟨y, eb⟩ := isConst_iff.1 hb
  unfold foldRemainderInt binaryIntHelper
  rw [h.const? ea, h.const? eb] at *
  simp only [ea, eb]
  have hc : cRem x y = some (x.tmod y) := by
    unfold cRem
    rw [if_neg]
    rintro (h | ⟨_, h⟩)
    · omega
    · exact hd (by rw [h]; exact ⟨-x, by omega⟩)
  simp only [hc, Res.ofExpr, Correct]
  have hne : x % y ≠ 0 := fun e => hd (Int.dvd_of_emod_eq_zero e)
  have hn := Int.emod_nonneg x (b := y) (by omega)
  rcases hs with ⟨h1, h2⟩ | ⟨h1, h2⟩
  · rw [Int.fmod_eq_emod_of_nonneg x h2.le]
    obtain ⟨m, rfl⟩ : ∃ m, x = -m := ⟨-x, by omega⟩
    rw [Int.neg_tmod]
    have := Int.tmod_nonneg y (a := m) (by omega)
    omega
  · rw [Int.tmod_eq_emod_of_nonneg h1.le, Int.fmod_eq_emod, if_neg (by rintro (h | h); omega; exact hd h)]
    omega

/-- -7 % 3 folds to -1, in Python it is 2. -/
example : foldRemainderInt (demo (-7) 3 5) 0 1 = .attr (-1) ∧ Int.fmod (-7) 3 = 2 := by decide
example : foldRemainderInt (demo 7 3 5) 0 1 = .attr 1 := by decide

/-- **C71 (quotients).**  Partial: up to `2 ^ 53` the quotient of doubles has the right integral part. -/
theorem C71_floordiv_partial {g : Ctx} {ρ : V → Int} (h : Holds g ρ) (a b : V) (h0 : ρ b ≠ 0)
    (ha : |ρ a| ≤ 2 ^ 53) (hb : |ρ b| ≤ 2 ^ 53) :
    Correct ρ ((ρ a).fdiv (ρ b)) (foldFloordivInt g a b)
      ∧ (IsConst g a → IsConst g b → Answers (foldFloordivInt g a b)) := by
  rw [isConst_iff, isConst_iff]
  unfold foldFloordivInt binaryIntHelper
  cases ea : g.const? a with
  | none => exact ⟨trivial, by simp⟩
  | some x =>
    cases eb : g.const? b with
    | none => exact ⟨trivial, by simp⟩
    | some y =>
      rw [h.const? ea, h.const? eb] at *
      have hq : ⌊roundF64 (roundF64 x / roundF64 y)⌋ = x.fdiv y := by
        rw [roundF64_int ha, roundF64_int hb, floor_roundF64_div ha h0, floor_div_eq_fdiv]
      have hf : Fits (x.fdiv y) := by
        rw [abs_le] at ha
        have hd := Int.mul_fdiv_add_fmod x y
        rw [← floor_div_eq_fdiv]
        have hyq : (1 : ℚ) ≤ |(y : ℚ)| := by exact_mod_cast Int.one_le_abs h0
        have hx : |(x : ℚ) / y| ≤ 2 ^ 53 := by
          rw [abs_div, div_le_iff₀ (by linarith)]
          have : |(x : ℚ)| ≤ 2 ^ 53 := by exact_mod_cast abs_le.2 ha
          nlinarith
        rw [abs_le] at hx
        constructor
        · apply Int.le_floor.2
          push_cast
          linarith [hx.1]
        · apply Int.floor_lt.2
          push_cast
          linarith [hx.2]
      simp [floorDivDouble, if_neg h0, hq, i64_eq hf, Res.ofExpr, Correct, Answers]

/-- **C71 (doubles).**  The numbers the folder of `floordiv.int` calculates with are the nearest doubles. -/
theorem C71_double_rounding (x : ℚ) (hx : x ≠ 0) : IsNearestDouble x (roundF64 x) := by
  have h2 : (0 : ℚ) < 2 ^ (Int.log 2 |x| - 52) := zpow_pos (by norm_num) _
  have hpos : 0 < |x| := abs_pos.2 hx
  refine ⟨Int.log 2 |x| - 52, roundEven (x / ulp x), ?_, ?_, ?_, by rw [roundF64, if_neg hx]; rfl⟩
  · rw [le_div_iff₀ h2, ← zpow_natCast, ← zpow_add₀ (by norm_num)]
    have := Int.zpow_log_le_self (b := 2) (by norm_num) hpos
    convert this using 2
    all_goals first | omega | (push_cast; omega) | norm_num
  · rw [div_lt_iff₀ h2, ← zpow_natCast, ← zpow_add₀ (by norm_num)]
    have := Int.lt_zpow_succ_log_self (b := 2) (by norm_num) |x|
    convert this using 2
    all_goals first | omega | (push_cast; omega) | norm_num
  · show IsNearestEven (x / ulp x) _
    generalize x / ulp x = y
    have h0 : (⌊y⌋ : ℚ) ≤ y := Int.floor_le y
    have h1 : y < ⌊y⌋ + 1 := Int.lt_floor_add_one y
    unfold roundEven IsNearestEven
    split
    · rename_i h
      rw [abs_of_nonneg (show 0 ≤ y - (⌊y⌋ : ℚ) by linarith)]
      exact ⟨by linarith, fun e => absurd e (by linarith)⟩
    · rename_i h
      split
      · rename_i h'
        push_cast
        rw [abs_of_nonpos (show y - ((⌊y⌋ : ℚ) + 1) ≤ 0 by linarith)]
        exact ⟨by linarith, fun e => absurd e (by intro e; linarith)⟩
      · rename_i h'
        split
        · rename_i hev
          rw [abs_of_nonneg (show 0 ≤ y - (⌊y⌋ : ℚ) by linarith)]
          exact ⟨by linarith, fun _ => by omega⟩
        · rename_i hev
          push_cast
          rw [abs_of_nonpos (show y - ((⌊y⌋ : ℚ) + 1) ≤ 0 by linarith)]
          exact ⟨by linarith, fun _ => by omega⟩

/-- **C71 (quotients), violated.**  Above `2 ^ 53` the operand is rounded: `(2 ^ 53 + 1) // 1` folds to `2 ^ 53`.  And
`0 // 0` folds to an undefined conversion. -/
theorem C71_floordiv_violated :
    (∃ (g : Ctx) (ρ : V → Int) (a b : V), Holds g ρ ∧ ρ b ≠ 0 ∧ Fits ((ρ a).fdiv (ρ b))
      ∧ ¬Correct ρ ((ρ a).fdiv (ρ b)) (foldFloordivInt g a b))
    ∧ (∃ (g : Ctx) (ρ : V → Int) (a b : V), Holds g ρ ∧ ρ b = 0 ∧ foldFloordivInt g a b = .undef) := by
  refine ⟨⟨demo (2 ^ 53 + 1) 1 0, demoEnv (2 ^ 53 + 1) 1 0, 0, 1, demo_holds ?_ ?_ ?_, by decide, ?_, ?_⟩,
    ⟨demo 0 0 0, demoEnv 0 0 0, 0, 1, demo_holds ?_ ?_ ?_, rfl, ?_⟩⟩
  case refine_1 | refine_2 | refine_3 | refine_4 | refine_6 | refine_7 | refine_8 => exact ⟨by decide, by decide⟩
  · have e1 : roundF64 ((2 ^ 53 + 1 : Int) : ℚ) = 2 ^ 53 := by
      have hl : Int.log 2 |((2 ^ 53 + 1 : Int) : ℚ)| = 53 := by
        have : |((2 ^ 53 + 1 : Int) : ℚ)| = ((2 ^ 53 + 1 : ℕ) : ℚ) := by
          push_cast; rw [abs_of_pos (by norm_num)]
        rw [this, Int.log_natCast]
        have : Nat.log 2 (2 ^ 53 + 1) = 53 := (Nat.log_eq_iff (by norm_num)).2 ⟨by norm_num, by norm_num⟩
        rw [this]; rfl
      have hu : ulp ((2 ^ 53 + 1 : Int) : ℚ) = 2 := by
        unfold ulp; rw [hl]; norm_num
      unfold roundF64
      rw [if_neg (by norm_num), hu]
      have : roundEven (((2 ^ 53 + 1 : Int) : ℚ) / 2) = 2 ^ 52 := by
        have hfl : ⌊((2 ^ 53 + 1 : Int) : ℚ) / 2⌋ = 2 ^ 52 := by
          rw [Int.floor_eq_iff]; push_cast; constructor <;> norm_num
        unfold roundEven
        rw [hfl]
        push_cast
        norm_num
      rw [this]
      norm_num
    have e2 : roundF64 ((1 : Int) : ℚ) = 1 := by
      have := roundF64_int (n := 1) (by norm_num)
      simpa using this
    have e3 : roundF64 (2 ^ 53 / 1) = 2 ^ 53 := by
      have := roundF64_int (n := 2 ^ 53) (by norm_num)
      push_cast at this
      rw [div_one]; exact this
    have e4 : floorDivDouble (2 ^ 53 + 1) 1 = some (2 ^ 53) := by
      unfold floorDivDouble
      rw [if_neg (by decide), e1, e2, e3]
      have : ⌊(2 ^ 53 : ℚ)⌋ = 2 ^ 53 := by rw [Int.floor_eq_iff]; push_cast; constructor <;> norm_num
      rw [this]
      decide
    have : foldFloordivInt (demo (2 ^ 53 + 1) 1 0) 0 1 = .attr (2 ^ 53) := by
      show Res.ofExpr (floorDivDouble (2 ^ 53 + 1) 1) = _
      rw [e4]; rfl
    rw [this]
    show ¬(2 ^ 53 : Int) = Int.fdiv (2 ^ 53 + 1) 1
    decide
  · rfl

/-- **C71 (`__range_length`).**  Partial: for `lo ≤ hi` and a positive step, and if the difference fits, the answer is the
number of elements; for a negative step there is no answer. -/
theorem C71_range_length_partial {g : Ctx} {ρ : V → Int} (h : Holds g ρ) (lo hi step : V) :
    (ρ step < 0 → ∀ n, Correct ρ n (foldRangeLength g lo hi step))
    ∧ (0 < ρ step → ρ lo ≤ ρ hi → Fits (ρ hi - ρ lo) →
      ∃ n, IsRangeLength (ρ lo) (ρ hi) (ρ step) n ∧ Correct ρ n (foldRangeLength g lo hi step)
        ∧ (IsConst g lo → IsConst g hi → IsConst g step → Answers (foldRangeLength g lo hi step))) := by
  rw [isConst_iff, isConst_iff, isConst_iff]
  refine ⟨fun hs n => ?_, fun hs hle hf => ⟨(ρ hi - ρ lo + ρ step - 1) / ρ step, ?_, ?_⟩⟩
  · unfold foldRangeLength
    cases ea : g.const? lo with
    | none => trivial
    | some x =>
      cases eb : g.const? hi with
      | none => trivial
      | some y =>
        cases ec : g.const? step with
        | none => trivial
        | some z =>
          rw [h.const? ec] at hs
          simp [if_pos hs, Correct]
  · refine ⟨Int.ediv_nonneg (by omega) hs.le, fun i hi0 => ?_⟩
    rw [if_pos hs, Int.lt_iff_add_one_le, Int.le_ediv_iff_mul_le hs, add_mul, one_mul, mul_comm]
    omega
  · unfold foldRangeLength
    cases ea : g.const? lo with
    | none => exact ⟨trivial, by simp⟩
    | some x =>
      cases eb : g.const? hi with
      | none => exact ⟨trivial, by simp⟩
      | some y =>
        cases ec : g.const? step with
        | none => exact ⟨trivial, by simp⟩
        | some z =>
          rw [h.const? ea, h.const? eb, h.const? ec] at *
          have hup : roundingSDivUp (wrap (y - x)) z = some ((y - x + z - 1) / z) := by
            rw [wrap_eq hf]
            have hn : 0 ≤ y - x := by omega
            generalize y - x = d at *
            unfold roundingSDivUp
            rw [if_neg (by omega), Int.tmod_eq_emod_of_nonneg hn, Int.tdiv_eq_ediv_of_nonneg hn]
            have hm := Int.emod_nonneg d (b := z) (by omega)
            have hdm := Int.mul_ediv_add_emod d z
            have hml := Int.emod_lt_of_pos d hs
            have hdn := Int.ediv_nonneg hn hs.le
            have hdl : d / z ≤ d := Int.ediv_le_self z hn
            split
            · rename_i e
              rw [wrap_eq ⟨by have := hf.2; omega, by have := hf.2; omega⟩]
              have : (d + z - 1) / z = d / z :=
                ((Int.ediv_emod_unique hs (r := z - 1)).2 ⟨by omega, by omega, by omega⟩).1
              rw [this]
            · rename_i e
              rw [if_neg (by simp; omega)]
              have he : (d + z - 1) / z = d / z + 1 :=
                ((Int.ediv_emod_unique hs (r := d % z - 1)).2 ⟨by rw [mul_add]; omega, by omega, by omega⟩).1
              rw [he, wrap_eq]
              refine ⟨by omega, ?_⟩
              have := hf.2
              by_cases hz1 : z = 1
              · subst hz1; omega
              · have : 2 * (d / z) ≤ z * (d / z) := Int.mul_le_mul_of_nonneg_right (by omega) hdn
                omega
          simp [if_neg (show ¬z < 0 by omega), hup, Res.ofExpr, Correct, Answers]

/-- **C71 (`__range_length`), violated.**  If `hi` is below `lo` by at least the step, the answer is a negative number. -/
theorem C71_range_length_violated {g : Ctx} {ρ : V → Int} (h : Holds g ρ) {lo hi step : V} (ha : IsConst g lo)
    (hb : IsConst g hi) (hc : IsConst g step) (hs : 0 < ρ step) (hd : ρ hi + ρ step ≤ ρ lo)
    (hf : Fits (ρ hi - ρ lo)) :
    ∃ n, foldRangeLength g lo hi step = .attr n ∧ n < 0 ∧ ¬IsRangeLength (ρ lo) (ρ hi) (ρ step) n := by
  obtain ⟨x, ea⟩ := isConst_iff.1 ha
  obtain ⟨y, eb⟩ := isConst_iff.1 hb
  obtain ⟨z, ec⟩ := isConst_iff.1 hc
  unfold foldRangeLength
  rw [h.const? ea, h.const? eb, h.const? ec] at *
  simp only [ea, eb, ec]
  rw [if_neg (by omega), wrap_eq hf]
  suffices ∃ n, roundingSDivUp (y - x) z = some n ∧ n < 0 by
    obtain ⟨n, h1, h2⟩ := this
    exact ⟨n, by rw [h1]; rfl, h2, fun h => by have := h.1; omega⟩
  obtain ⟨d, e⟩ : ∃ d, y - x = -d := ⟨x - y, by omega⟩
  rw [e] at hf ⊢
  have hd' : z ≤ d := by omega
  unfold roundingSDivUp
  rw [if_neg (by omega), Int.neg_tmod, Int.neg_tdiv, Int.tmod_eq_emod_of_nonneg (by omega),
    Int.tdiv_eq_ediv_of_nonneg (by omega)]
  have hq : 1 ≤ d / z := by rw [Int.le_ediv_iff_mul_le hs]; omega
  have hql : d / z ≤ d := Int.ediv_le_self z (by omega)
  have hfit : Fits (-(d / z)) := ⟨by have := hf.1; omega, by omega⟩
  have hm := Int.emod_nonneg d (b := z) (by omega)
  split
  · exact ⟨_, rfl, by rw [wrap_eq hfit]; omega⟩
  · rw [if_pos (by simp only [ne_eq, eq_iff_iff]; omega)]
    exact ⟨_, rfl, by rw [wrap_eq hfit]; omega⟩

example : foldRangeLength (demo 1 10 3) 0 1 2 = .attr 3 := by decide
example : foldRangeLength (demo 10 1 3) 0 1 2 = .attr (-3) := by decide

/-- **C71 (quotients of floats).**  Partial: a quotient is what the division gives, unless the dividend is zero and the
divisor is zero or not a number. -/
theorem C71_div_float_partial {k : V → Option F} {ρ : V → F} (h : ∀ v x, k v = some x → ρ v = x) {div : F → F → F}
    (hdiv : IsDiv div) (a b : V) (hb : ρ a = .fin 0 → ρ b ≠ .nan ∧ ρ b ≠ .fin 0) :
    (∀ z, foldDivFloat k div a b = some z → z = div (ρ a) (ρ b))
      ∧ ((k a).isSome → (k b).isSome → (foldDivFloat k div a b).isSome) := by
  unfold foldDivFloat
  cases ea : k a with
  | none => simp
  | some x =>
    have hx := h a x ea
    by_cases h0 : x = .fin 0
    · obtain ⟨h1, h2⟩ := hb (hx.trans h0)
      simp [h0, hx, hdiv.zero_left _ h1 h2]
    · cases eb : k b with
      | none => simp [h0]
      | some y =>
        have hy := h b y eb
        by_cases h1 : y = .fin 1
        · subst h1
          simp [h0, hx, hy, hdiv.one_right]
        · simp [h0, h1, hx, hy]

/-- **C71 (quotients of floats), violated.**  Zero by zero and zero by NaN fold to zero, although they are NaN; also if
the divisor is not constant. -/
theorem C71_div_float_violated {k : V → Option F} {ρ : V → F} {div : F → F → F} (hdiv : IsDiv div) {a b : V}
    (ha : k a = some (.fin 0)) (hρ : ρ a = .fin 0) (hb : ρ b = .nan ∨ ρ b = .fin 0) :
    ∃ z, foldDivFloat k div a b = some z ∧ z ≠ div (ρ a) (ρ b) := by
  refine ⟨.fin 0, by simp [foldDivFloat, ha], ?_⟩
  rcases hb with e | e <;> rw [e, hρ]
  · rw [hdiv.nan_right]; simp
  · rw [hdiv.zero_zero]; simp

/-- There is such a division. -/
example : ∃ div, IsDiv div := ⟨fun x y =>
    if y = .nan then .nan else if y = .fin 1 then x else if x = .fin 0 then (if y = .fin 0 then .nan else .fin 0)
    else .nan,
  ⟨fun y h1 h2 => by simp [h1, h2], by simp, fun x => by simp, fun x => by simp⟩⟩

/-! ## C72: comparisons and truth values -/

/-- **C72 (comparisons of integers).**  A comparison folds to 1 only if it holds and to 0 only if it does not, whatever
the operands that are not constant are; and it folds for constants, for a value and itself, and for sizes compared with
negative numbers. -/
theorem C72_compare {g : Ctx} {ρ : V → Int} (h : Holds g ρ) (c : Cmp) (a b : V) :
    (foldCompare g c.run a b = .none ∨ foldCompare g c.run a b = .attr 1 ∧ c.Holds (ρ a) (ρ b)
        ∨ foldCompare g c.run a b = .attr 0 ∧ ¬c.Holds (ρ a) (ρ b))
      ∧ (IsConst g a ∧ IsConst g b ∨ a = b ∨ g.defn a = .size ∧ (∃ n < 0, g.defn b = .const n)
          ∨ g.defn b = .size ∧ (∃ n < 0, g.defn a = .const n)
        → Answers (foldCompare g c.run a b)) := by
  have hr : ∀ x y, c.run x y = true ↔ c.Holds x y := by
    intro x y; cases c <;> simp [Cmp.run, Cmp.Holds]
  have hi : ∀ x y, (i1 (c.run x y) = 1 ∧ c.Holds x y) ∨ (i1 (c.run x y) = 0 ∧ ¬c.Holds x y) := by
    intro x y
    cases e : c.run x y
    · exact .inr ⟨rfl, fun h => by simp [(hr x y).2 h] at e⟩
    · exact .inl ⟨rfl, (hr x y).1 e⟩
  unfold foldCompare
  by_cases hab : a = b
  · subst hab
    simp only [if_true, Res.attr.injEq, reduceCtorEq, false_or]
    refine ⟨?_, fun _ => by simp [Answers]⟩
    have : c.Holds (ρ a) (ρ a) ↔ c.Holds 0 0 := by cases c <;> simp [Cmp.Holds]
    rw [this]
    exact hi 0 0
  simp only [if_neg hab]
  cases ea : g.const? a with
  | some x =>
    have hx := h.const? ea
    have hda := const?_eq.1 ea
    cases eb : g.const? b with
    | some y =>
      have hy := h.const? eb
      simp only [Res.attr.injEq, reduceCtorEq, false_or]
      rw [hx, hy]
      exact ⟨hi x y, fun _ => by simp [Answers]⟩
    | none =>
      simp only [compareSize]
      have hnb : ¬IsConst g b := by rw [isConst_iff, eb]; simp
      constructor
      · split
        · rename_i hc
          have := h.size b hc.2
          rw [hx]
          have e : c.Holds x (ρ b) ↔ c.Holds (-1) 0 := by cases c <;> simp [Cmp.Holds] <;> omega
          rw [e]
          simpa using hi (-1) 0
        · split
          · rename_i _ hc
            have := h.size b hc.2
            rw [hx, hc.1]
            cases c <;> simp [Cmp.run, Cmp.Holds, i1] <;> omega
          · simp
      · rintro (h | h | h | h)
        · exact absurd h.2 hnb
        · exact absurd h hab
        · obtain ⟨_, n, _, hn⟩ := h
          exact absurd ⟨n, hn⟩ hnb
        · obtain ⟨hs, n, hn, e⟩ := h
          rw [hda] at e
          injection e with e
          rw [if_pos ⟨by omega, hs⟩]
          simp [Answers]
  | none =>
    have hna : ¬IsConst g a := by rw [isConst_iff, ea]; simp
    cases eb : g.const? b with
    | some y =>
      have hy := h.const? eb
      have hdb := const?_eq.1 eb
      simp only [compareSize]
      constructor
      · split
        · rename_i hc
          have := h.size a hc.2
          rw [hy]
          have e : c.Holds (ρ a) y ↔ c.Holds 0 (-1) := by cases c <;> simp [Cmp.Holds] <;> omega
          rw [e]
          simpa using hi 0 (-1)
        · split
          · rename_i _ hc
            have := h.size a hc.2
            rw [hy, hc.1]
            cases c <;> simp [Cmp.run, Cmp.Holds, i1] <;> omega
          · simp
      · rintro (h | h | h | h)
        · exact absurd h.1 hna
        · exact absurd h hab
        · obtain ⟨hs, n, hn, e⟩ := h
          rw [hdb] at e
          injection e with e
          rw [if_pos ⟨by omega, hs⟩]
          simp [Answers]
        · obtain ⟨_, n, _, hn⟩ := h
          exact absurd ⟨n, hn⟩ hna
    | none =>
      refine ⟨.inl rfl, ?_⟩
      rintro (h | h | h | h)
      · exact absurd h.1 hna
      · exact absurd h hab
      · obtain ⟨_, n, _, hn⟩ := h
        have : ¬IsConst g b := by rw [isConst_iff, eb]; simp
        exact absurd ⟨n, hn⟩ this
      · obtain ⟨_, n, _, hn⟩ := h
        exact absurd ⟨n, hn⟩ hna

/-- **C72 (sizes and zero).**  `size >= 0` and `0 <= size` fold to true, `size < 0` and `0 > size` to false. -/
theorem C72_compare_zero {g : Ctx} {a z : V} (ha : g.defn a = .size) (hz : g.defn z = .const 0) :
    foldCompare g Cmp.ge.run a z = .attr 1 ∧ foldCompare g Cmp.le.run z a = .attr 1
      ∧ foldCompare g Cmp.lt.run a z = .attr 0 ∧ foldCompare g Cmp.gt.run z a = .attr 0 := by
  have hne : a ≠ z := by rintro rfl; rw [ha] at hz; cases hz
  have ea : g.const? a = none := by simp [Ctx.const?, ha]
  have ez : g.const? z = some 0 := const?_eq.2 hz
  simp [foldCompare, hne, hne.symm, ea, ez, compareSize, ha, Cmp.run, i1]

example : foldCompare (demo 3 4 5) Cmp.lt.run 0 1 = .attr 1 := by decide
example : foldCompare ⟨fun v => if v = 0 then .size else .const (-5), fun _ => 1⟩ Cmp.gt.run 1 0 = .attr 0 := by decide

/-- **C72 (comparisons of floats).**  Partial: if no operand is NaN. -/
theorem C72_compare_float_partial {k : V → Option F} {ρ : V → F} (h : ∀ v x, k v = some x → ρ v = x) (c : FCmp)
    (a b : V) (hn : a = b → ρ a ≠ .nan) :
    (foldCompareFloat k c.run a b = .none ∨ foldCompareFloat k c.run a b = .attr 1 ∧ c.Holds (ρ a) (ρ b)
        ∨ foldCompareFloat k c.run a b = .attr 0 ∧ ¬c.Holds (ρ a) (ρ b))
      ∧ ((k a).isSome → (k b).isSome → Answers (foldCompareFloat k c.run a b)) := by
  have hr : ∀ x y, c.run x y = true ↔ c.Holds x y := by
    intro x y
    have hle : ∀ u w : ℚ, (w < u ∨ u = w) ↔ w ≤ u := fun u w => by rw [le_iff_lt_or_eq, eq_comm (a := u)]
    rcases x with _ | (_ | _) | u <;> rcases y with _ | (_ | _) | w <;> cases c <;>
      simp [FCmp.run, FCmp.Holds, F.lt, F.beq, F.place, hle, ← WithBot.coe_top, WithBot.coe_lt_coe]
  have hi : ∀ x y, (i1 (c.run x y) = 1 ∧ c.Holds x y) ∨ (i1 (c.run x y) = 0 ∧ ¬c.Holds x y) := by
    intro x y
    cases e : c.run x y
    · exact .inr ⟨rfl, fun h => by simp [(hr x y).2 h] at e⟩
    · exact .inl ⟨rfl, (hr x y).1 e⟩
  unfold foldCompareFloat
  by_cases hab : a = b
  · subst hab
    simp only [if_true, Res.attr.injEq, reduceCtorEq, false_or]
    refine ⟨?_, fun _ _ => by simp [Answers]⟩
    have hp : ∃ p, (ρ a).place = some p := by
      cases e : ρ a with
      | nan => exact absurd e (hn rfl)
      | inf n => cases n <;> exact ⟨_, rfl⟩
      | fin q => exact ⟨_, rfl⟩
    obtain ⟨p, hp⟩ := hp
    have : c.Holds (ρ a) (ρ a) ↔ c.Holds (.fin 0) (.fin 0) := by
      have h0 : (F.fin 0).place = some ((0 : ℚ) : WithTop ℚ) := rfl
      cases c <;> simp [FCmp.Holds, hp, h0]
    rw [this]
    exact hi _ _
  · simp only [if_neg hab]
    cases ea : k a with
    | none => simp
    | some x =>
      cases eb : k b with
      | none => simp
      | some y =>
        rw [h a x ea, h b y eb]
        simp only [Res.attr.injEq, reduceCtorEq, false_or]
        exact ⟨hi x y, fun _ _ => by simp [Answers]⟩

/-- **C72 (comparisons of floats), violated.**  `x == x` and `x >= x` fold to true, although they are false for NaN. -/
theorem C72_compare_float_violated (k : V → Option F) (ρ : V → F) (a : V) (hn : ρ a = .nan) :
    foldCompareFloat k FCmp.eq.run a a = .attr 1 ∧ ¬FCmp.eq.Holds (ρ a) (ρ a)
      ∧ foldCompareFloat k FCmp.ge.run a a = .attr 1 ∧ ¬FCmp.ge.Holds (ρ a) (ρ a) := by
  simp [foldCompareFloat, FCmp.run, F.lt, F.beq, i1, FCmp.Holds, hn, F.place]

example : foldCompareFloat (fun v => if v = 0 then some (.fin (1 / 2)) else some (.inf false)) FCmp.lt.run 0 1 = .attr 1 := by
  decide

/-- **C72 (truth values).**  `not`, `or`, `==` and `!=` of truth values, and conversions to and from integers. -/
theorem C72_bool {k : V → Option Bool} {ρ : V → Bool} (h : ∀ v x, k v = some x → ρ v = x) (a b : V) :
    CorrectBool ρ (!ρ a) (foldNot k a) ∧ CorrectBool ρ (ρ a || ρ b) (foldOr k a b)
      ∧ CorrectBool ρ (ρ a == ρ b) (foldEqBool k a b) ∧ CorrectBool ρ (ρ a != ρ b) (foldNeBool k a b)
      ∧ CorrectBool ρ (ρ a) (foldIntBool k a)
      ∧ ((k a).isSome → Answers (foldNot k a) ∧ Answers (foldOr k a b) ∧ Answers (foldOr k b a)
          ∧ Answers (foldIntBool k a))
      ∧ ((k a).isSome → (k b).isSome → Answers (foldEqBool k a b) ∧ Answers (foldNeBool k a b)) := by
  unfold foldNot foldOr foldEqBool foldNeBool foldIntBool
  by_cases hab : a = b
  · subst hab
    cases ea : k a with
    | none => simp [CorrectBool, i1]
    | some x =>
      have hx := h a x ea
      cases x <;> simp [CorrectBool, Answers, i1, hx]
  · cases ea : k a with
    | none =>
      cases eb : k b with
      | none => simp [CorrectBool, i1, hab]
      | some y =>
        have hy := h b y eb
        cases y <;> simp [CorrectBool, Answers, i1, hab, hy]
    | some x =>
      have hx := h a x ea
      cases eb : k b with
      | none => cases x <;> simp [CorrectBool, Answers, i1, hab, hx]
      | some y =>
        have hy := h b y eb
        cases x <;> cases y <;> simp [CorrectBool, Answers, i1, hab, hx, hy]

/-- **C72 (`bool` of an integer).** -/
theorem C72_bool_int {g : Ctx} {ρ : V → Int} (h : Holds g ρ) (a : V) :
    (foldBoolInt g a = .none ∨ foldBoolInt g a = .attr 1 ∧ ρ a ≠ 0 ∨ foldBoolInt g a = .attr 0 ∧ ρ a = 0)
      ∧ (IsConst g a → Answers (foldBoolInt g a)) := by
  rw [isConst_iff]
  unfold foldBoolInt
  cases ea : g.const? a with
  | none => simp
  | some x =>
    rw [h.const? ea]
    by_cases h0 : x = 0 <;> simp [h0, i1, Answers]

/-- **C72 (`is None`).**  Partial: if no operand has the type `!torch.any` or a union with None, `is` and `is not` fold to
what they are; `nl` and `nr` say whether the operands are None, and something and something that is not None are not
told apart. -/
theorem C72_is_partial {l r : Arg} {nl nr : Bool} (hl : l.Allows nl) (hr : r.Allows nr)
    (htl : l.refinedTy ≠ .any ∧ l.refinedTy ≠ .unionNone) (htr : r.refinedTy ≠ .any ∧ r.refinedTy ≠ .unionNone)
    {eq x : Bool} (h : foldIs eq l r = some x) : (nl = true ∨ nr = true) ∧ x = ((nl == nr) == eq) := by
  have hal : l.refinedTy.Allows nl := by
    unfold Arg.refinedTy
    cases e : l.derefined with
    | none => exact hl.1
    | some t => exact hl.2 t e
  have har : r.refinedTy.Allows nr := by
    unfold Arg.refinedTy
    cases e : r.derefined with
    | none => exact hr.1
    | some t => exact hr.2 t e
  unfold foldIs at h
  revert h hal har htl htr
  generalize l.refinedTy = lt
  generalize r.refinedTy = rt
  cases lt <;> cases rt <;> cases nl <;> cases nr <;> cases eq <;> cases x <;> simp [Ty.Allows]

/-- **C72 (`is None`), violated.**  A value of type `!torch.any` or of a union type with None may be None, but `is None`
folds to false. -/
theorem C72_is_violated (t : Ty) (h : t = .any ∨ t = .unionNone) :
    (⟨t, none⟩ : Arg).Allows true ∧ (⟨.none, none⟩ : Arg).Allows true ∧ foldIs true ⟨t, none⟩ ⟨.none, none⟩ = some false := by
  rcases h with rfl | rfl <;> simp [Arg.Allows, Ty.Allows, foldIs, Arg.refinedTy]

example : foldIs true ⟨.optional, some .none⟩ ⟨.none, none⟩ = some true := by decide
example : foldIs false ⟨.none, none⟩ ⟨.optional, some .other⟩ = some true := by decide

/-! ## C73: merging constants -/

/-- **C73 (products).**  A product of a constant and a product with a constant becomes one product with the same value in
every execution; the product that is erased has no other use; the new constant is undefined only if the product of the
constants overflows. -/
theorem C73_mul {g : Ctx} {ρ : V → Int} (h : Holds g ρ) {a b : V} :
    (∀ v c m, canonMulInt g a b = .mulConst v c m →
      ρ v * c = ρ a * ρ b ∧ (m = a ∨ m = b) ∧ g.uses m = 1 ∧ (∃ p q, g.defn m = .mul p q) ∧ Fits c)
    ∧ (∀ v m, canonMulInt g a b ≠ .replace v m)
    ∧ (canonMulInt g a b = .undef → ∃ x y p q, (g.defn a = .const x ∧ g.defn b = .mul p q
        ∨ g.defn b = .const x ∧ g.defn a = .mul p q) ∧ (g.defn p = .const y ∨ g.defn q = .const y) ∧ ¬Fits (y * x)) := by
  have hi : ∀ z d, i64 z = some d → z = d ∧ Fits d := by
    intro z d e
    unfold i64 minI64 maxI64 at e
    split at e
    · injection e with e
      subst e
      exact ⟨rfl, by unfold Fits; omega⟩
    · cases e
  have hi' : ∀ z, i64 z = none → ¬Fits z := fun z e hf => by rw [i64_eq hf] at e; cases e
  have key : ∀ m x p q, constAndMul g a b = some (m, x, p, q) →
      g.defn m = .mul p q ∧ (m = a ∧ g.defn b = .const x ∨ m = b ∧ g.defn a = .const x) := by
    intro m x p q e
    unfold constAndMul at e
    cases ea : g.const? a with
    | some u =>
      cases eb : g.const? b with
      | some w => simp [ea, eb] at e
      | none =>
        simp only [ea, eb] at e
        cases ed : g.defn b <;> simp only [ed] at e
        case mul p' q' =>
          simp only [Option.some.injEq, Prod.mk.injEq] at e
          obtain ⟨rfl, rfl, rfl, rfl⟩ := e
          exact ⟨ed, .inr ⟨rfl, const?_eq.1 ea⟩⟩
        all_goals cases e
    | none =>
      cases eb : g.const? b with
      | none => simp [ea, eb] at e
      | some w =>
        simp only [ea, eb] at e
        cases ed : g.defn a <;> simp only [ed] at e
        case mul p' q' =>
          simp only [Option.some.injEq, Prod.mk.injEq] at e
          obtain ⟨rfl, rfl, rfl, rfl⟩ := e
          exact ⟨ed, .inl ⟨rfl, const?_eq.1 eb⟩⟩
        all_goals cases e
  have hcases : canonMulInt g a b = .failure ∨ ∃ m x p q, constAndMul g a b = some (m, x, p, q) ∧ g.uses m = 1 ∧
      ∃ c w, (g.const? p = some c ∧ w = q ∨ g.const? q = some c ∧ w = p) ∧
        canonMulInt g a b = match i64 (c * x) with | some d => .mulConst w d m | Option.none => .undef := by
    unfold canonMulInt
    cases e : constAndMul g a b with
    | none => exact .inl rfl
    | some t =>
      obtain ⟨m, x, p, q⟩ := t
      cases ep : g.const? p with
      | some c =>
        cases eq : g.const? q with
        | some d => exact .inl (by simp [ep, eq])
        | none =>
          by_cases hu : g.uses m = 1
          · exact .inr ⟨m, x, p, q, rfl, hu, c, q, .inl ⟨ep, rfl⟩, by simp only [ep, eq, if_pos hu]; rfl⟩
          · exact .inl (by simp [ep, eq, hu])
      | none =>
        cases eq : g.const? q with
        | none => exact .inl (by simp [ep, eq])
        | some c =>
          by_cases hu : g.uses m = 1
          · exact .inr ⟨m, x, p, q, rfl, hu, c, p, .inr ⟨eq, rfl⟩, by simp only [ep, eq, if_pos hu]; rfl⟩
          · exact .inl (by simp [ep, eq, hu])
  rcases hcases with hf | ⟨m, x, p, q, hk, hu, c, w, hc, he⟩
  · rw [hf]
    exact ⟨fun _ _ _ e => (by cases e), fun _ _ e => (by cases e), fun e => by cases e⟩
  · obtain ⟨hm, hx⟩ := key m x p q hk
    rw [he]
    cases e : i64 (c * x) with
    | none =>
      refine ⟨fun _ _ _ e => (by cases e), fun _ _ e => (by cases e), fun _ => ⟨x, c, p, q, ?_, ?_, hi' _ e⟩⟩
      · rcases hx with ⟨rfl, h⟩ | ⟨rfl, h⟩
        · exact .inr ⟨h, hm⟩
        · exact .inl ⟨h, hm⟩
      · rcases hc with h | h
        · exact .inl (const?_eq.1 h.1)
        · exact .inr (const?_eq.1 h.1)
    | some d =>
      obtain ⟨e1, e2⟩ := hi _ _ e
      refine ⟨fun v c' m' e' => ?_, fun _ _ e => (by cases e), fun e => by cases e⟩
      simp only [Rewrite.mulConst.injEq] at e'
      obtain ⟨rfl, rfl, rfl⟩ := e'
      refine ⟨?_, by rcases hx with h | h <;> simp [h.1], hu, ⟨p, q, hm⟩, e2⟩
      have hv := h.mul m p q hm
      have : ρ m = ρ w * c := by
        rcases hc with ⟨h1, rfl⟩ | ⟨h1, rfl⟩
        · rw [hv, h.const? h1]; ring
        · rw [hv, h.const? h1]
      rw [← e1]
      rcases hx with ⟨rfl, h1⟩ | ⟨rfl, h1⟩
      · rw [h.const _ _ h1, this]; ring
      · rw [h.const _ _ h1, this]; ring

/-- The shapes the pattern of `aten.floordiv.int` replaces. -/
theorem Fold.canonFloordiv_cases {g : Ctx} {a b v m : V} (e : canonFloordivInt g a b = .replace v m) :
    ∃ c, g.uses m = 1 ∧ (m = a ∧ g.defn b = .const c ∨ m = b ∧ g.defn a = .const c) ∧
      ∃ p q, g.defn m = .mul p q ∧ (g.defn p = .const c ∧ v = q ∨ g.defn q = .const c ∧ v = p) := by
  unfold canonFloordivInt at e
  cases ek : constAndMul g a b with
  | none => simp [ek] at e
  | some t =>
    obtain ⟨m', x, p, q⟩ := t
    simp only [ek] at e
    have hm : g.defn m' = .mul p q ∧ (m' = a ∧ g.defn b = .const x ∨ m' = b ∧ g.defn a = .const x) := by
      unfold constAndMul at ek
      cases ea : g.const? a with
      | some u =>
        cases eb : g.const? b with
        | some w => simp [ea, eb] at ek
        | none =>
          simp only [ea, eb] at ek
          cases ed : g.defn b <;> simp only [ed] at ek
          case mul p' q' =>
            simp only [Option.some.injEq, Prod.mk.injEq] at ek
            obtain ⟨rfl, rfl, rfl, rfl⟩ := ek
            exact ⟨ed, .inr ⟨rfl, const?_eq.1 ea⟩⟩
          all_goals cases ek
      | none =>
        cases eb : g.const? b with
        | none => simp [ea, eb] at ek
        | some w =>
          simp only [ea, eb] at ek
          cases ed : g.defn a <;> simp only [ed] at ek
          case mul p' q' =>
            simp only [Option.some.injEq, Prod.mk.injEq] at ek
            obtain ⟨rfl, rfl, rfl, rfl⟩ := ek
            exact ⟨ed, .inl ⟨rfl, const?_eq.1 eb⟩⟩
          all_goals cases ek
    cases ep : g.const? p with
    | some c =>
      cases eq : g.const? q with
      | some d => simp [ep, eq] at e
      | none =>
        simp only [ep, eq] at e
        split at e
        · rename_i hu
          simp only [Rewrite.replace.injEq] at e
          obtain ⟨rfl, rfl⟩ := e
          exact ⟨x, hu.1, hm.2, p, q, hm.1, .inl ⟨hu.2 ▸ const?_eq.1 ep, rfl⟩⟩
        · cases e
    | none =>
      cases eq : g.const? q with
      | none => simp [ep, eq] at e
      | some c =>
        simp only [ep, eq] at e
        split at e
        · rename_i hu
          simp only [Rewrite.replace.injEq] at e
          obtain ⟨rfl, rfl⟩ := e
          exact ⟨x, hu.1, hm.2, p, q, hm.1, .inr ⟨hu.2 ▸ const?_eq.1 eq, rfl⟩⟩
        · cases e

/-- **C73 (quotients).**  Partial: a product with a constant divided by that constant, which is not zero, becomes the other
factor. -/
theorem C73_floordiv_partial {g : Ctx} {ρ : V → Int} (h : Holds g ρ) {a b v m : V}
    (e : canonFloordivInt g a b = .replace v m) (hb : IsConst g b) (h0 : ρ b ≠ 0) :
    ρ v = (ρ a).fdiv (ρ b) ∧ m = a ∧ g.uses m = 1 := by
  obtain ⟨c, hu, hx, p, q, hm, hc⟩ := Fold.canonFloordiv_cases e
  rcases hx with ⟨rfl, hx⟩ | ⟨rfl, hx⟩
  · rw [h.mul _ _ _ hm]
    have hbc := h.const _ _ hx
    refine ⟨?_, rfl, hu⟩
    rcases hc with ⟨hc, rfl⟩ | ⟨hc, rfl⟩
    · rw [h.const _ _ hc, hbc, Int.mul_fdiv_cancel_left _ (by rw [← hbc]; exact h0)]
    · rw [h.const _ _ hc, hbc, Int.mul_fdiv_cancel _ (by rw [← hbc]; exact h0)]
  · obtain ⟨d, hd⟩ := hb
    rw [hd] at hm
    cases hm

/-- **C73 (quotients), violated.**  A constant divided by a product with that constant becomes the other factor `x`, but
is `1 // x`: the value is wrong whenever `x` is not 1 or -1; and where the program divides by zero the result is 0. -/
theorem C73_floordiv_violated {g : Ctx} {ρ : V → Int} (h : Holds g ρ) {a b v m : V}
    (e : canonFloordivInt g a b = .replace v m) (ha : IsConst g a) :
    (2 ≤ |ρ v| → ρ a ≠ 0 → ρ v ≠ (ρ a).fdiv (ρ b)) ∧ (ρ v = 0 → ρ b = 0) := by
  obtain ⟨c, hu, hx, p, q, hm, hc⟩ := Fold.canonFloordiv_cases e
  rcases hx with ⟨rfl, hx⟩ | ⟨rfl, hx⟩
  · obtain ⟨d, hd⟩ := ha
    rw [hd] at hm
    cases hm
  · have hac := h.const _ _ hx
    have hb : ρ m = c * ρ v := by
      rw [h.mul _ _ _ hm]
      rcases hc with ⟨hc, rfl⟩ | ⟨hc, rfl⟩
      · rw [h.const _ _ hc]
      · rw [h.const _ _ hc]; ring
    refine ⟨fun h2 h0 he => ?_, fun h0 => by rw [hb, h0]; simp⟩
    rw [hac] at h0
    have hq : (ρ a).fdiv (ρ m) = (1 : Int).fdiv (ρ v) := by
      rw [hac, hb, ← floor_div_eq_fdiv, ← floor_div_eq_fdiv]
      congr 1
      have hcq : (c : ℚ) ≠ 0 := by exact_mod_cast h0
      push_cast
      by_cases hv : (ρ v : ℚ) = 0
      · rw [hv]; simp
      · field_simp
    rw [hq] at he
    generalize ρ v = x at *
    rcases lt_or_ge x 0 with hn | hp
    · rw [abs_of_neg hn] at h2
      have : (1 : Int).fdiv x = -1 := by
        rw [Int.fdiv_eq_ediv, if_neg]
        · have : (1 : Int) / x = 0 := by
            obtain ⟨y, rfl⟩ : ∃ y, x = -y := ⟨-x, by omega⟩
            rw [Int.ediv_neg, Int.ediv_eq_zero_of_lt (by omega) (by omega)]; rfl
          omega
        · rintro (h | h)
          · omega
          · have := Int.le_of_dvd (a := -x) (b := 1) (by omega) (Int.neg_dvd.2 h)
            omega
      omega
    · rw [abs_of_nonneg hp] at h2
      have : (1 : Int).fdiv x = 0 := by
        rw [Int.fdiv_eq_ediv_of_nonneg _ hp, Int.ediv_eq_zero_of_lt (by omega) (by omega)]
      omega

/-- Value 0 is the constant 6, value 1 is unknown, value 2 is their product. -/
def Fold.demoMul : Ctx where
  defn v := if v = 0 then .const 6 else if v = 2 then .mul 0 1 else if v = 3 then .const 5 else .other
  uses _ := 1

example : canonMulInt demoMul 2 3 = .mulConst 1 30 2 := by decide
example : canonFloordivInt demoMul 2 0 = .replace 1 2 := by decide
example : canonFloordivInt demoMul 0 2 = .replace 1 2 := by decide

/-- The violation occurs: `6 // (6 * 2)` is 0, the pattern makes it 2. -/
example : ∃ ρ, Holds demoMul ρ ∧ canonFloordivInt demoMul 0 2 = .replace 1 2 ∧ ρ 1 = 2 ∧ (ρ 0).fdiv (ρ 2) = 0 := by
  refine ⟨fun v => if v = 0 then 6 else if v = 1 then 2 else if v = 2 then 12 else if v = 3 then 5 else 0,
    ⟨fun v => ?_, fun v c e => ?_, fun v e => ?_, fun v p q e => ?_⟩, by decide, rfl, by decide⟩
  · repeat' split
    all_goals exact ⟨by decide, by decide⟩
  all_goals
    unfold demoMul at e
    dsimp only at e ⊢
    repeat' split at e
    all_goals simp_all
  obtain ⟨rfl, rfl⟩ := e
  decide

end Verif
