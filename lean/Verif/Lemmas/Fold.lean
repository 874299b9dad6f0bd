import Verif.Spec.Fold
import Mathlib.Tactic.Linarith
import Mathlib.Tactic.Ring
import Mathlib.Tactic.FieldSimp
import Mathlib.Tactic.Positivity
import Mathlib.Tactic.NormNum
import Mathlib.Tactic.Push
import Mathlib.Algebra.Order.Field.Power

namespace Verif.Fold

theorem const?_eq {g : Ctx} {v : V} {c : Int} : g.const? v = some c ↔ g.defn v = .const c := by
  unfold Ctx.const?
  split <;> simp_all

theorem isConst_iff {g : Ctx} {v : V} : IsConst g v ↔ ∃ c, g.const? v = some c := by
  simp [IsConst, const?_eq]

theorem Holds.const? {g : Ctx} {ρ : V → Int} (h : Holds g ρ) {v : V} {c : Int} (e : g.const? v = some c) :
    ρ v = c := h.const v c (const?_eq.1 e)

theorem i64_eq {x : Int} (h : Fits x) : i64 x = some x := by
  unfold i64 minI64 maxI64
  unfold Fits at h
  rw [if_pos (by omega)]

theorem wrap_eq {x : Int} (h : Fits x) : wrap x = x := by
  unfold wrap
  unfold Fits at h
  rw [Int.bmod_eq_of_le] <;> omega

theorem wrap_add_wrap (x y : Int) : wrap (x + wrap y) = wrap (x + y) := by
  unfold wrap
  exact Int.add_bmod_bmod

/-! ## Rounding -/

theorem roundEven_int (n : Int) : roundEven n = n := by
  unfold roundEven
  rw [if_pos (by simp)]
  exact Int.floor_intCast n

theorem roundEven_err (x : ℚ) : |(roundEven x : ℚ) - x| ≤ 1 / 2 := by
  have h1 := Int.floor_le x
  have h2 := Int.lt_floor_add_one x
  unfold roundEven
  rw [abs_le]
  split
  · constructor <;> linarith
  · split
    · push_cast; constructor <;> linarith
    · split
      · constructor <;> linarith
      · push_cast; constructor <;> linarith

theorem ulp_pos (x : ℚ) : 0 < ulp x := by unfold ulp; exact zpow_pos (by norm_num) _

theorem ulp_le {x : ℚ} (hx : x ≠ 0) : ulp x * 2 ^ 52 ≤ |x| := by
  have h := Int.zpow_log_le_self (b := 2) (r := |x|) (by norm_num) (abs_pos.2 hx)
  unfold ulp
  rw [zpow_sub₀ (by norm_num)]
  push_cast at h
  have : (2 : ℚ) ^ (52 : ℤ) = 2 ^ 52 := by norm_cast
  rw [this, div_mul_cancel₀ _ (by positivity)]
  exact h

theorem roundF64_err (x : ℚ) : |roundF64 x - x| ≤ ulp x / 2 := by
  unfold roundF64
  by_cases h : x = 0
  · rw [if_pos h, h]
    have := ulp_pos 0
    simp
    linarith
  · rw [if_neg h]
    have hp := ulp_pos x
    have e : (roundEven (x / ulp x) : ℚ) * ulp x - x = ((roundEven (x / ulp x) : ℚ) - x / ulp x) * ulp x := by
      rw [sub_mul, div_mul_cancel₀ _ hp.ne']
    rw [e, abs_mul, abs_of_pos hp]
    have := roundEven_err (x / ulp x)
    nlinarith

theorem roundF64_exact {x : ℚ} (n : Int) (h : x = n * ulp x) : roundF64 x = x := by
  unfold roundF64
  split
  · simp_all
  · have hp := ulp_pos x
    have e : x / ulp x = n := (div_eq_iff hp.ne').2 h
    rw [e, roundEven_int, ← h]

/-- Powers of two are doubles. -/
theorem roundF64_pow {x : ℚ} (h : |x| = ulp x * 2 ^ 52) : roundF64 x = x := by
  rcases abs_choice x with e | e <;> rw [e] at h
  · exact roundF64_exact (2 ^ 52) (by push_cast; linarith)
  · exact roundF64_exact (-2 ^ 52) (by push_cast; linarith)

/-- Integers up to `2 ^ 53` are doubles. -/
theorem roundF64_int {n : Int} (h : |n| ≤ 2 ^ 53) : roundF64 (n : ℚ) = n := by
  by_cases h0 : n = 0
  · subst h0; simp [roundF64]
  have hq : (n : ℚ) ≠ 0 := by exact_mod_cast h0
  have hle : |(n : ℚ)| ≤ 2 ^ 53 := by exact_mod_cast h
  have hlog : Int.log 2 |(n : ℚ)| ≤ 53 := by
    have := Int.log_mono_right (b := 2) (abs_pos.2 hq) hle
    have e := Int.log_zpow (R := ℚ) (b := 2) (by norm_num) 53
    have e2 : ((2 : ℕ) : ℚ) ^ (53 : ℤ) = 2 ^ 53 := by norm_cast
    rw [e2] at e
    omega
  by_cases h53 : Int.log 2 |(n : ℚ)| = 53
  · have hl := Int.zpow_log_le_self (b := 2) (r := |(n : ℚ)|) (by norm_num) (abs_pos.2 hq)
    rw [h53] at hl
    have e2 : ((2 : ℕ) : ℚ) ^ (53 : ℤ) = 2 ^ 53 := by norm_cast
    rw [e2] at hl
    refine roundF64_pow ?_
    unfold ulp
    rw [h53]
    norm_num
    norm_num at hl hle
    linarith
  · have hk : ∃ k : ℕ, Int.log 2 |(n : ℚ)| - 52 = -(k : ℤ) := ⟨(52 - Int.log 2 |(n : ℚ)|).toNat, by omega⟩
    obtain ⟨k, hk⟩ := hk
    refine roundF64_exact (n * 2 ^ k) ?_
    unfold ulp
    rw [hk, zpow_neg]
    push_cast
    have : (2 : ℚ) ^ (k : ℤ) = 2 ^ k := by norm_cast
    rw [this, mul_assoc, mul_inv_cancel₀ (by positivity), mul_one]

theorem floor_roundF64_div {a b : Int} (ha : |a| ≤ 2 ^ 53) (hb : b ≠ 0) :
    ⌊roundF64 ((a : ℚ) / b)⌋ = ⌊(a : ℚ) / b⌋ := by
  set x : ℚ := (a : ℚ) / b with hx
  have hbq : (0 : ℚ) < |(b : ℚ)| := abs_pos.2 (by exact_mod_cast hb)
  have hb0 : (b : ℚ) ≠ 0 := by exact_mod_cast hb
  have haq : |(a : ℚ)| ≤ 2 ^ 53 := by exact_mod_cast ha
  -- distances of `x` to integers are multiples of `1 / |b|`
  have hsep : ∀ k : Int, x ≠ k → 1 / |(b : ℚ)| ≤ |x - k| := by
    intro k hk
    have e : x - k = ((a - k * b : Int) : ℚ) / b := by
      rw [hx]; push_cast; field_simp
    have hne : a - k * b ≠ 0 := by
      intro h
      rw [h] at e
      apply hk
      have : x - k = 0 := by rw [e]; simp
      linarith
    rw [e, abs_div]
    apply div_le_div_of_nonneg_right _ hbq.le
    have : (1 : Int) ≤ |a - k * b| := Int.one_le_abs hne
    exact_mod_cast this
  by_cases hint : x = (⌊x⌋ : ℚ)
  · have : roundF64 x = x := by
      have hle : |⌊x⌋| ≤ 2 ^ 53 := by
        have : |(⌊x⌋ : ℚ)| ≤ 2 ^ 53 := by
          rw [← hint, hx, abs_div, div_le_iff₀ hbq]
          have : (1 : ℚ) ≤ |(b : ℚ)| := by exact_mod_cast Int.one_le_abs hb
          nlinarith
        exact_mod_cast this
      have h := roundF64_int hle
      rw [← hint] at h
      exact h
    rw [this]
  by_cases hpow : |x| = ulp x * 2 ^ 52
  · rw [roundF64_pow hpow]
  have hx0 : x ≠ 0 := by
    rintro h
    apply hint
    rw [h]; simp
  have herr := roundF64_err x
  have hu : ulp x * 2 ^ 52 < |x| := lt_of_le_of_ne (ulp_le hx0) (Ne.symm hpow)
  have hxb : |x| * |(b : ℚ)| ≤ 2 ^ 53 := by
    rw [hx, abs_div, div_mul_cancel₀ _ hbq.ne']; exact haq
  have hsmall : ulp x / 2 < 1 / |(b : ℚ)| := by
    rw [lt_div_iff₀ hbq]
    nlinarith
  have h1 := Int.floor_le x
  have h2 := Int.lt_floor_add_one x
  have s1 := hsep ⌊x⌋ hint
  have s2 := hsep (⌊x⌋ + 1) (by push_cast; linarith)
  rw [abs_of_nonneg (show 0 ≤ x - (⌊x⌋ : ℚ) by linarith)] at s1
  push_cast at s2
  rw [abs_of_neg (show x - ((⌊x⌋ : ℚ) + 1) < 0 by linarith)] at s2
  rw [abs_le] at herr
  rw [Int.floor_eq_iff]
  constructor <;> linarith [herr.1, herr.2]

theorem floor_div_eq_fdiv (a b : Int) : ⌊(a : ℚ) / b⌋ = a.fdiv b := by
  by_cases hb : b = 0
  · subst hb; simp
  have hbq : (b : ℚ) ≠ 0 := by exact_mod_cast hb
  have h := Int.mul_fdiv_add_fmod a b
  have e : (a : ℚ) / b = (a.fdiv b : ℚ) + (a.fmod b : ℚ) / b := by
    have : (a : ℚ) = b * (a.fdiv b : ℚ) + a.fmod b := by exact_mod_cast h.symm
    field_simp
    linarith
  rw [Int.floor_eq_iff, e]
  rcases lt_or_gt_of_ne hb with hn | hp
  · have h0 := Int.emod_nonneg a hb
    have h3 := Int.emod_lt_of_neg a hn
    have h12 : a.fmod b ≤ 0 ∧ b < a.fmod b := by
      rw [Int.fmod_eq_emod]
      by_cases hd : b ∣ a
      · rw [if_pos (.inr hd), Int.emod_eq_zero_of_dvd hd]; omega
      · have : a % b ≠ 0 := fun e => hd (Int.dvd_of_emod_eq_zero e)
        rw [if_neg (by rintro (h | h); omega; exact hd h)]; omega
    obtain ⟨h1, h2⟩ := h12
    have hn' : (b : ℚ) < 0 := by exact_mod_cast hn
    have h1' : (a.fmod b : ℚ) ≤ 0 := by exact_mod_cast h1
    have h2' : (b : ℚ) < a.fmod b := by exact_mod_cast h2
    constructor
    · linarith [div_nonneg_of_nonpos h1' hn'.le]
    · have : (a.fmod b : ℚ) / b < 1 := by rw [div_lt_one_of_neg hn']; exact h2'
      linarith
  · have h1 : 0 ≤ a.fmod b := Int.fmod_nonneg_of_pos a hp
    have h2 : a.fmod b < b := Int.fmod_lt_of_pos a hp
    have hp' : (0 : ℚ) < b := by exact_mod_cast hp
    have h1' : (0 : ℚ) ≤ a.fmod b := by exact_mod_cast h1
    have h2' : (a.fmod b : ℚ) < b := by exact_mod_cast h2
    constructor
    · linarith [div_nonneg h1' hp'.le]
    · have : (a.fmod b : ℚ) / b < 1 := by rw [div_lt_one hp']; exact h2'
      linarith

end Verif.Fold
