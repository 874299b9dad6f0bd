import Mathlib.Tactic.Linarith
import Mathlib.Tactic.Ring
import Mathlib.Tactic.FieldSimp
import Mathlib.Algebra.Order.Floor.Ring
import Verif.Spec.DecBucket
import Verif.Lemmas.LinPad
import Verif.Lemmas.LinDiag

/-! # Lemmas on buckets, classes and evenly spaced numbers -/

namespace Verif.Bucket

open Lin

theorem firstMax_spec (f : Nat → ℚ) : ∀ n, firstMax f n ≤ n ∧ (∀ i, i ≤ n → f i ≤ f (firstMax f n)) ∧ ∀ i, i < firstMax f n → f i < f (firstMax f n)
  | 0 => ⟨Nat.le_refl _, fun i h => by rw [Nat.le_zero.1 h]; rfl, fun i h => absurd h (Nat.not_lt_zero _)⟩
  | n + 1 => by
    obtain ⟨h1, h2, h3⟩ := firstMax_spec f n
    rw [firstMax]
    split_ifs with q
    · refine ⟨Nat.le_refl _, fun i hi => ?_, fun i hi => lt_of_le_of_lt (h2 i (by omega)) q⟩
      by_cases e : i = n + 1
      · rw [e]
      · exact le_of_lt (lt_of_le_of_lt (h2 i (by omega)) q)
    · refine ⟨by omega, fun i hi => ?_, h3⟩
      by_cases e : i = n + 1
      · rw [e]; exact not_lt.1 q
      · exact h2 i (by omega)

/-- The first of truth values that hold. -/
theorem firstMax_bool (p : Nat → Bool) (f : Nat → ℚ) {n : Nat} (hf : ∀ i, i ≤ n → f i = if p i then 1 else 0) (hn : p n = true) :
    firstMax f n ≤ n ∧ p (firstMax f n) = true ∧ ∀ i, i < firstMax f n → p i = false := by
  obtain ⟨h1, h2, h3⟩ := firstMax_spec f n
  have e : p (firstMax f n) = true := by
    by_contra c
    have := h2 n (Nat.le_refl _)
    rw [hf n (Nat.le_refl _), hf _ h1, if_pos hn, if_neg c] at this
    exact absurd this (by norm_num)
  refine ⟨h1, e, fun i hi => ?_⟩
  have := h3 i hi
  rw [hf _ h1, if_pos e, hf i (by omega)] at this
  by_contra c
  rw [if_pos (by simpa using c)] at this
  exact absurd this (lt_irrefl _)

theorem rowOf_eq {E : Type} {t : Tensor E} {idx : List Int} {f : Nat → E} : ∀ {n : Nat}, (∀ i, i < n → t.elem (idx ++ [(i : Int)]) = some (f i)) →
    rowOf t idx n = some ((List.range n).map f)
  | 0, _ => rfl
  | n + 1, h => by
    rw [rowOf, rowOf_eq fun i hi => h i (by omega), h n (by omega)]
    simp [List.range_succ]

theorem across_elem {E F G : Type} {f : E → F → G} {t : Tensor E} {u : Tensor F} {idx : List Int} {j : Int} {a : E} {b : F}
    (ha : t.elem idx = some a) (hb : u.elem [j] = some b) : (across f (unsqueezeLast t) u).elem (idx ++ [j]) = some (f a b) := by
  simp only [across, unsqueezeLast, List.dropLast_concat, ha, List.getLastD_concat, hb]

theorem across_sizes {E F G : Type} (f : E → F → G) (t : Tensor E) (u : Tensor F) : (across f (unsqueezeLast t) u).sizes = t.sizes ++ u.sizes := by
  simp only [across, unsqueezeLast, List.dropLast_concat]

theorem vector_elem {bs : List ℚ} {i : Nat} (h : i < bs.length) : (vector bs).elem [(i : Int)] = some (some bs[i]) := by
  simp [vector, h]

/-- The comparison that is made. -/
def cmp (right : Bool) : Num → Num → Bool := if !right then Num.leq else Num.less

theorem cmp_some (right : Bool) (x b : ℚ) : cmp right (some x) (some b) = true ↔ if right then x < b else x ≤ b := by
  cases right <;> simp [cmp, Num.leq, Num.less]

theorem cmp_none (right : Bool) (b : Num) : cmp right none b = false := by
  cases right <;> rfl

theorem cmp_mono {right : Bool} {x b c : ℚ} (h : b ≤ c) (hb : cmp right (some x) (some b) = true) : cmp right (some x) (some c) = true := by
  rw [cmp_some] at hb ⊢
  cases right
  · exact le_trans hb h
  · exact lt_of_lt_of_le hb h

/-- From the first comparison that holds on, all hold. -/
theorem isBucket_of {right : Bool} {bs : List ℚ} (hs : bs.Pairwise (· ≤ ·)) {x : ℚ} {k : Nat} (hk : k ≤ bs.length)
    (h1 : ∀ h : k < bs.length, cmp right (some x) (some bs[k]) = true)
    (h2 : ∀ i, i < k → ∀ h : i < bs.length, cmp right (some x) (some bs[i]) = false) : IsBucket right bs (some x) k := by
  refine ⟨Int.natCast_nonneg _, by exact_mod_cast hk, fun i b hb => ?_⟩
  obtain ⟨hi, rfl⟩ := List.getElem?_eq_some_iff.1 hb
  constructor
  · intro h
    have := h2 i (by omega) hi
    rw [← Bool.not_eq_true, cmp_some] at this
    cases right
    · simpa using this
    · simpa using this
  · intro h
    rw [← cmp_some]
    have hk' : k < bs.length := by omega
    by_cases e : k = i
    · subst e; exact h1 hi
    · exact cmp_mono (List.pairwise_iff_getElem.1 hs k i hk' hi (by omega)) (h1 hk')

/-! ## Evenly spaced numbers -/

theorem toKind_truncated (x : ℚ) : Truncated x (toKind .integer x) := by
  simp only [toKind]
  split_ifs with q
  · have h1 := Int.floor_le x
    have h2 := Int.lt_floor_add_one x
    have h3 : (0 : ℚ) ≤ ⌊x⌋ := by exact_mod_cast Int.floor_nonneg.2 q
    refine ⟨⟨_, rfl⟩, ?_, ?_, mul_nonneg q h3⟩
    · rw [abs_lt]; constructor <;> linarith
    · rwa [abs_of_nonneg h3, abs_of_nonneg q]
  · have h1 := Int.le_ceil x
    have h2 := Int.ceil_lt_add_one x
    have q := not_le.1 q
    have h3 : (⌈x⌉ : ℚ) ≤ 0 := by exact_mod_cast Int.ceil_le.2 (by exact_mod_cast le_of_lt q)
    refine ⟨⟨_, rfl⟩, ?_, ?_, mul_nonneg_of_nonpos_of_nonpos (le_of_lt q) h3⟩
    · rw [abs_lt]; constructor <;> linarith
    · rw [abs_of_nonpos h3, abs_of_nonpos (le_of_lt q)]; linarith

theorem toKind_stored (k : Kind) (x : ℚ) : Stored k x (toKind k x) := by
  cases k
  · rfl
  · exact toKind_truncated x

theorem stored_int (k : Kind) (z : Int) : Stored k z z := by
  cases k
  · rfl
  · exact ⟨⟨z, rfl⟩, by norm_num, le_refl _, mul_self_nonneg _⟩

theorem even_of (start stop : ℚ) {n : Nat} (h : n ≠ 1) :
    Even start stop ((List.range n).map fun (i : Nat) => (i : ℚ) * ((stop - start) / (((n : Int) - 1 : Int) : ℚ)) + start) := by
  refine ⟨fun x hx => ?_, fun h2 => ?_, (stop - start) / (((n : Int) - 1 : Int) : ℚ), fun i x y hx hy => ?_⟩
  · rw [List.getElem?_map] at hx
    obtain ⟨a, ha, rfl⟩ := Option.map_eq_some_iff.1 hx
    obtain ⟨_, ha⟩ := List.getElem?_eq_some_iff.1 ha
    rw [List.getElem_range] at ha
    subst ha
    simp
  · simp only [List.length_map, List.length_range] at h2 ⊢
    rw [List.getElem?_map, List.getElem?_range (by omega)]
    have e : ((n - 1 : Nat) : ℚ) = (((n : Int) - 1 : Int) : ℚ) := by
      rw [Nat.cast_sub (by omega)]; push_cast; ring
    have hne : (((n : Int) - 1 : Int) : ℚ) ≠ 0 := by
      have : ((n : Int) - 1 : Int) ≠ 0 := by omega
      exact_mod_cast this
    simp only [Option.map_some, e, Option.some.injEq]
    field_simp
    ring
  · rw [List.getElem?_map] at hx hy
    obtain ⟨a, ha, rfl⟩ := Option.map_eq_some_iff.1 hx
    obtain ⟨b, hb, rfl⟩ := Option.map_eq_some_iff.1 hy
    obtain ⟨_, ha⟩ := List.getElem?_eq_some_iff.1 ha
    obtain ⟨_, hb⟩ := List.getElem?_eq_some_iff.1 hb
    rw [List.getElem_range] at ha hb
    subst ha hb
    push_cast
    ring

end Verif.Bucket
