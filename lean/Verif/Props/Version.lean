import Verif.Model.Version
import Verif.Spec.Version

/-!
# C22: version gates compare versions

Feature decisions that depend on "PyTorch at least version X" hold exactly for versions numerically at
least X.
-/

namespace Verif

open Version

namespace Version

theorem digit_range {n : Nat} {c : Char} (h : c ∈ Nat.toDigits 10 n) : 48 ≤ c.toNat ∧ c.toNat ≤ 57 := by
  have := Nat.isDigit_of_mem_toDigits (b := 10) (by omega) (by omega) h
  simp only [Char.isDigit, Bool.and_eq_true, decide_eq_true_eq] at this
  obtain ⟨h1, h2⟩ := this
  exact ⟨UInt32.le_iff_toNat_le.mp h1, UInt32.le_iff_toNat_le.mp h2⟩

theorem digits_head {n : Nat} (hn : 0 < n) : ∃ c cs, Nat.toDigits 10 n = c :: cs ∧ 49 ≤ c.toNat := by
  induction n using Nat.strongRecOn with
  | ind n ih =>
    by_cases h : n < 10
    · rw [Nat.toDigits_of_lt_base h]
      refine ⟨_, [], rfl, ?_⟩
      have : n = 1 ∨ n = 2 ∨ n = 3 ∨ n = 4 ∨ n = 5 ∨ n = 6 ∨ n = 7 ∨ n = 8 ∨ n = 9 := by omega
      rcases this with rfl | rfl | rfl | rfl | rfl | rfl | rfl | rfl | rfl <;> decide
    · rw [Nat.toDigits_of_base_le (by omega) (by omega)]
      obtain ⟨c, cs, hc, h49⟩ := ih (n / 10) (by omega) (by omega)
      exact ⟨c, cs ++ [(n % 10).digitChar], by rw [hc]; rfl, h49⟩

theorem digits_two {n : Nat} (hn : 10 ≤ n) :
    ∃ c d cs, Nat.toDigits 10 n = c :: d :: cs ∧ 49 ≤ c.toNat ∧ 48 ≤ d.toNat := by
  rw [Nat.toDigits_of_base_le (by omega) hn]
  obtain ⟨c, cs, hc, h49⟩ := digits_head (n := n / 10) (by omega)
  have hd : ∀ d, d ∈ Nat.toDigits 10 n → 48 ≤ d.toNat := fun d h => (digit_range h).1
  rw [Nat.toDigits_of_base_le (by omega) hn, hc] at hd
  rw [hc]
  cases cs with
  | nil => exact ⟨c, _, [], rfl, h49, hd _ (by simp)⟩
  | cons d ds => exact ⟨c, d, ds ++ [(n % 10).digitChar], rfl, h49, hd _ (by simp)⟩

theorem strLe_cons (a b : Char) (as bs : List Char) : strLe (a :: as) (b :: bs) =
    if a.toNat < b.toNat then true else if b.toNat < a.toNat then false else strLe as bs := rfl

theorem takeWhile_release {a b c : Nat} {l : List Char} (hl : l = [] ∨ ∃ r, l = '+' :: r) :
    beforePlus (releaseText a b c l) = releaseText a b c [] := by
  have hd : ∀ (n : Nat) (x : Char), x ∈ Nat.toDigits 10 n → decide (x ≠ '+') = true := by
    intro n x hx
    have := (digit_range hx).1
    simp only [ne_eq, decide_not, Bool.not_eq_eq_eq_not, Bool.not_true, decide_eq_false_iff_not]
    rintro rfl
    exact absurd this (by decide)
  have hall : ∀ x ∈ releaseText a b c [], decide (x ≠ '+') = true := by
    intro x hx
    simp only [releaseText, List.mem_append, List.mem_cons, List.append_nil] at hx
    rcases hx with h | rfl | h | rfl | h
    · exact hd a x h
    · decide
    · exact hd b x h
    · decide
    · exact hd c x h
  have hsplit : releaseText a b c l = releaseText a b c [] ++ l := by simp [releaseText]
  unfold beforePlus
  rw [hsplit, List.takeWhile_append_of_pos hall]
  rcases hl with rfl | ⟨r, rfl⟩ <;> simp

/-- `c` against the last component. -/
theorem strLe_patch (c : Nat) : strLe (Nat.toDigits 10 c) ['0'] = decide (c = 0) := by
  by_cases h : c = 0
  · subst h; rfl
  · obtain ⟨d, ds, hd, h49⟩ := digits_head (n := c) (by omega)
    rw [hd, strLe_cons]
    have h0 : ('0' : Char).toNat = 48 := rfl
    rw [if_neg (by omega), if_pos (by omega)]
    simp [h]

/-- `b.c` against `1.0`. -/
theorem strLe_minor (b c : Nat) :
    strLe (Nat.toDigits 10 b ++ '.' :: Nat.toDigits 10 c) ['1', '.', '0'] =
      decide (b < 1 ∨ (b = 1 ∧ c = 0)) := by
  have h1 : ('1' : Char).toNat = 49 := rfl
  have hdot : ('.' : Char).toNat = 46 := rfl
  by_cases hb : b < 10
  · have : b = 0 ∨ b = 1 ∨ (2 ≤ b) := by omega
    rcases this with rfl | rfl | h2
    · rfl
    · show strLe ('1' :: '.' :: Nat.toDigits 10 c) ['1', '.', '0'] = _
      simp only [strLe_cons, Nat.lt_irrefl, if_false]
      rw [strLe_patch]
      simp
    · rw [Nat.toDigits_of_lt_base hb, List.singleton_append, strLe_cons]
      have : 49 < (b.digitChar).toNat := by
        have : b = 2 ∨ b = 3 ∨ b = 4 ∨ b = 5 ∨ b = 6 ∨ b = 7 ∨ b = 8 ∨ b = 9 := by omega
        rcases this with rfl | rfl | rfl | rfl | rfl | rfl | rfl | rfl <;> decide
      rw [if_neg (by omega), if_pos (by omega)]
      symm; rw [decide_eq_false_iff_not]; omega
  · obtain ⟨x, y, ds, hd, hx, hy⟩ := digits_two (n := b) (by omega)
    rw [hd, List.cons_append, List.cons_append, strLe_cons, if_neg (by omega)]
    have hf : decide (b < 1 ∨ (b = 1 ∧ c = 0)) = false := by rw [decide_eq_false_iff_not]; omega
    rw [hf]
    split
    · rfl
    · rw [strLe_cons, if_neg (by omega), if_pos (by omega)]

end Version

/-- For releases of PyTorch up to major version 9 (with or without a local part) the gate is exactly
the numeric comparison. -/
theorem C22_partial (a b c : Nat) (l : List Char) (ha : a < 10) (hl : l = [] ∨ ∃ r, l = '+' :: r) :
    isTorch21OrEarlier (releaseText a b c l) = true ↔ AtMost210 a b c := by
  unfold isTorch21OrEarlier
  rw [takeWhile_release hl]
  unfold releaseText AtMost210
  rw [Nat.toDigits_of_lt_base ha, List.singleton_append, List.append_nil, strLe_cons]
  have h2 : ('2' : Char).toNat = 50 := rfl
  have : a < 2 ∨ a = 2 ∨ 2 < a := by omega
  rcases this with h | rfl | h
  · have : (a.digitChar).toNat < 50 := by
      have : a = 0 ∨ a = 1 := by omega
      rcases this with rfl | rfl <;> decide
    rw [if_pos (by omega)]
    exact ⟨fun _ => Or.inl h, fun _ => rfl⟩
  · show (if (50 : Nat) < 50 then true else if (50 : Nat) < 50 then false else
      strLe ('.' :: (Nat.toDigits 10 b ++ '.' :: Nat.toDigits 10 c)) ['.', '1', '.', '0']) = true ↔ _
    rw [if_neg (by omega), if_neg (by omega), strLe_cons, if_neg (by omega), if_neg (by omega),
      strLe_minor]
    simp
  · have : 50 < (a.digitChar).toNat := by
      have : a = 3 ∨ a = 4 ∨ a = 5 ∨ a = 6 ∨ a = 7 ∨ a = 8 ∨ a = 9 := by omega
      rcases this with rfl | rfl | rfl | rfl | rfl | rfl | rfl <;> decide
    rw [if_neg (by omega), if_pos (by omega)]
    constructor
    · intro h; cases h
    · intro h; omega

/-- PyTorch 10.0.0 is taken for 2.1 or earlier. -/
theorem C22_violated : ∃ a b c, isTorch21OrEarlier (releaseText a b c []) = true ∧ ¬ AtMost210 a b c :=
  ⟨10, 0, 0, by decide +kernel, by unfold AtMost210; omega⟩

/-- The other direction fails for pre-releases: `2.1.0rc1`, which precedes 2.1.0, is taken for a later
version. -/
theorem C22_prerelease_violated : isTorch21OrEarlier "2.1.0rc1".toList = false ∧
    isTorch21OrEarlier "2.1.0".toList = true := by refine ⟨?_, ?_⟩ <;> decide +kernel

/-- 2.10.1 with CUDA is not 2.1; 2.0.19 is. -/
example : isTorch21OrEarlier "2.10.1+cu121".toList = false ∧
    isTorch21OrEarlier "2.0.19".toList = true := by refine ⟨?_, ?_⟩ <;> decide +kernel

end Verif
