import Mathlib.Tactic.Linarith
import Mathlib.Tactic.Ring
import Verif.Spec.DecAdapt

/-!
# C104: adaptive pooling

Adaptive pooling is replaced by pooling with windows of one size, if all windows have this size.
-/

namespace Verif

open Lin Adapt

/-- Windows of which the size and the distance is known. -/
theorem Adapt.windows_adaptive {q r : Int} {n : Nat} (hq : 0 < q) (hn : 0 < n) (hr : r = 0 ∨ (r = 1 ∧ 2 ≤ n)) :
    ∃ ws, windows (q * n + r) ⟨q + r, q⟩ = .ok ws ∧ IsAdaptive (q * n + r) n ws := by
  have hqn : q ≤ q * n := by nlinarith
  have h1 : ¬ ((q + r : Int) ≤ 0 ∨ q ≤ 0 ∨ q * n + r < q + r) := by
    rcases hr with h | ⟨h, _⟩ <;> omega
  have hd : (q * n + r - (q + r)).fdiv q + 1 = n := by
    have : q * n + r - (q + r) = q * (n - 1) := by ring
    rw [this, Int.mul_fdiv_cancel_left _ (by omega)]
    omega
  refine ⟨(List.range n).map fun (i : Nat) => ((i : Int) * q, (i : Int) * q + (q + r)), ?_, ?_, ?_⟩
  · simp only [windows, if_neg h1, hd, Int.toNat_natCast]
  · simp
  · intro i w hw
    rw [List.getElem?_map] at hw
    obtain ⟨a, ha, rfl⟩ := Option.map_eq_some_iff.1 hw
    obtain ⟨hi, ha⟩ := List.getElem?_eq_some_iff.1 ha
    rw [List.length_range] at hi
    rw [List.getElem_range] at ha
    subst ha
    have hi' : (i : Int) + 1 ≤ n := by omega
    rcases hr with rfl | ⟨rfl, _⟩
    · refine ⟨⟨?_, ?_⟩, ?_, ?_⟩ <;> simp only <;> ring_nf <;> nlinarith
    · refine ⟨⟨?_, ?_⟩, ?_, ?_⟩ <;> simp only <;> ring_nf <;> nlinarith

theorem Adapt.fdivmod (q r : Int) {n : Nat} (h0 : 0 ≤ r) (h1 : r < n) : (q * n + r).fdiv n = q ∧ (q * n + r).fmod n = r := by
  have e : q * n + r = r + n * q := by ring
  rw [Int.fdiv_eq_ediv_of_nonneg _ (by omega), Int.fmod_eq_emod_of_nonneg _ (by omega), e, Int.add_mul_ediv_left _ _ (by omega), Int.add_mul_emod_self_left,
    Int.ediv_eq_zero_of_lt h0 h1, Int.emod_eq_of_lt h0 h1]
  omega

/-- When the program does not stop: nothing or one is left by dividing the size by the one asked for. -/
theorem Adapt.axis2d_eq (q r : Int) {n : Nat} (hn : 0 < n) (h0 : 0 ≤ r) (h1 : r < n) :
    axis2d (q * n + r) n = if r ≤ 1 then .ok ⟨q + r, q⟩ else .aborts := by
  obtain ⟨e1, e2⟩ := fdivmod q r h0 h1
  have hne : ¬ ((n : Int) = 0) := by omega
  simp only [axis2d, if_neg hne, e1, e2]
  by_cases h : r ≤ 1
  · rw [if_pos h]
    have hr : r = 0 ∨ r = 1 := by omega
    rcases hr with rfl | rfl
    · have : n ≠ 0 := by omega
      simp [this, Nat.pos_of_ne_zero this]
    · have : (n : Int) > 1 * ((n : Int) - 1) := by omega
      simp [this]
  · rw [if_neg h]
    have : ¬ ((n : Int) > r * ((n : Int) - 1)) := by nlinarith
    simp [this]

/-- The size as a multiple of the one asked for, and what is left. -/
theorem Adapt.split (input : Int) {n : Nat} (hn : 0 < n) : ∃ q r : Int, input = q * n + r ∧ 0 ≤ r ∧ r < n := by
  refine ⟨input / n, input % n, ?_, Int.emod_nonneg _ (by omega), Int.emod_lt_of_pos _ (by omega)⟩
  have := Int.mul_ediv_add_emod input n
  linarith [mul_comm (n : Int) (input / n)]

theorem Adapt.axis2d_windows {input : Int} {n : Nat} {a : Axis} (hn : 0 < n) (hi : (n : Int) ≤ input) (h : axis2d input n = .ok a) :
    ∃ ws, windows input a = .ok ws ∧ IsAdaptive input n ws := by
  obtain ⟨q, r, rfl, h0, h1⟩ := split input hn
  rw [axis2d_eq q r hn h0 h1] at h
  by_cases g : r ≤ 1
  · rw [if_pos g] at h
    have h := (Outcome.ok.inj h).symm
    subst h
    have hq : 0 < q := by
      by_contra c
      have : q * n ≤ 0 := mul_nonpos_of_nonpos_of_nonneg (by omega) (by omega)
      omega
    exact windows_adaptive hq hn (by omega)
  · rw [if_neg g] at h
    cases h

/-- Adaptive pooling in two dimensions gives the windows it should whenever the program does not stop. Missing: sizes larger than those of the input. -/
theorem C104_pool2d_partial (lead : List Int) (inH inW : Int) {outH outW : Nat} (h1 : 0 < outH) (h2 : 0 < outW) (h3 : (outH : Int) ≤ inH) (h4 : (outW : Int) ≤ inW) :
    pool2d (some (lead ++ [inH, inW])) (some [(outH : Int), (outW : Int)]) = .aborts ∨
      ∃ hs ws, pool2d (some (lead ++ [inH, inW])) (some [(outH : Int), (outW : Int)]) = .ok (hs, ws) ∧ IsAdaptive inH outH hs ∧ IsAdaptive inW outW ws := by
  have e1 : (lead ++ [inH, inW]).getD ((lead ++ [inH, inW]).length - 2) 0 = inH := by simp
  have e2 : (lead ++ [inH, inW]).getD ((lead ++ [inH, inW]).length - 1) 0 = inW := by
    have : (lead ++ [inH, inW]).length - 1 = lead.length + 1 := by simp
    rw [this]
    simp
  simp only [pool2d, e1, e2]
  obtain ⟨q, r, eH, a0, a1⟩ := split inH h1
  obtain ⟨q', r', eW, b0, b1⟩ := split inW h2
  have hH := axis2d_eq q r h1 a0 a1
  have hW := axis2d_eq q' r' h2 b0 b1
  rw [← eH] at hH
  rw [← eW] at hW
  by_cases g : r ≤ 1
  · rw [if_pos g] at hH
    by_cases g' : r' ≤ 1
    · rw [if_pos g'] at hW
      obtain ⟨hs, k1, k2⟩ := axis2d_windows h1 h3 hH
      obtain ⟨ws, k3, k4⟩ := axis2d_windows h2 h4 hW
      refine Or.inr ⟨hs, ws, ?_, k2, k4⟩
      simp only [hH, hW, Outcome.bind, k1, k3]
    · rw [if_neg g'] at hW
      left
      simp only [hH, hW, Outcome.bind]
  · rw [if_neg g] at hH
    left
    simp only [hH, Outcome.bind]

/-- It does not stop if and only if at most one is left by dividing each size by the one asked for. -/
theorem C104_applies (input : Int) {n : Nat} (hn : 0 < n) : (∃ a, axis2d input n = .ok a) ↔ input % n ≤ 1 := by
  obtain ⟨q, r, rfl, h0, h1⟩ := split input hn
  rw [axis2d_eq q r hn h0 h1]
  have e : (q * n + r) % n = r := by
    rw [Int.add_comm, Int.add_mul_emod_self_right, Int.emod_eq_of_lt h0 h1]
  rw [e]
  constructor
  · rintro ⟨a, h⟩
    by_contra c
    rw [if_neg c] at h
    cases h
  · intro h
    exact ⟨_, if_pos h⟩

/-- Stopping is needed: windows at equal distances are only right for such sizes. -/
theorem C104_complete {input d : Int} {n : Nat} {ws : List (Int × Int)} (hn : 0 < n) (h : IsAdaptive input n ws)
    (hd : ∀ (i : Nat) (w : Int × Int), ws[i]? = some w → w.1 = i * d) : ∃ a, axis2d input n = .ok a := by
  rw [C104_applies input hn]
  obtain ⟨q, r, rfl, h0, h1⟩ := split input hn
  have e : (q * n + r) % n = r := by
    rw [Int.add_comm, Int.add_mul_emod_self_right, Int.emod_eq_of_lt h0 h1]
  rw [e]
  by_contra c
  have hlen : ws.length = n := by
    have := h.1
    omega
  have g1 := h.2 1 _ (List.getElem?_eq_getElem (by omega))
  have g2 := h.2 (n - 1) _ (List.getElem?_eq_getElem (by omega))
  rw [hd 1 _ (List.getElem?_eq_getElem (by omega))] at g1
  rw [hd (n - 1) _ (List.getElem?_eq_getElem (by omega))] at g2
  have en : ((n - 1 : Nat) : Int) = (n : Int) - 1 := by omega
  rw [en] at g2
  have g1 := g1.1
  have g2 := g2.1.2
  simp only [Nat.cast_one, one_mul] at g1
  have hdq : d = q := by
    have a : d < q + 1 := by
      by_contra c
      have : (q + 1) * n ≤ d * n := mul_le_mul_of_nonneg_right (by omega) (by omega)
      nlinarith
    have b : q < d + 1 := by
      by_contra c
      have : (d + 1) * n ≤ q * n := mul_le_mul_of_nonneg_right (by omega) (by omega)
      nlinarith
    omega
  subst hdq
  nlinarith

/-- Nothing is replaced if the rank is not known. -/
theorem C104_rejects (outputs : Option (List Int)) (strict : Bool) (output : Option Int) : pool2d none outputs = .unmatched ∧ pool1d strict none output = .unmatched :=
  ⟨rfl, rfl⟩

/-- From a size of one, all assertions hold, but the distance of windows is zero; all windows should be the whole. -/
theorem C104_violated_enlarged {n : Nat} (hn : 2 ≤ n) : axis2d 1 n = .ok ⟨1, 0⟩ ∧ windows 1 ⟨1, 0⟩ = .bad ∧ IsAdaptive 1 n (List.replicate n (0, 1)) := by
  have h := axis2d_eq 0 1 (n := n) (by omega) (by omega) (by omega)
  rw [if_pos (by omega)] at h
  refine ⟨by simpa using h, by simp [windows], by simp, fun i w hw => ?_⟩
  obtain ⟨hi, rfl⟩ := List.getElem?_eq_some_iff.1 hw
  rw [List.length_replicate] at hi
  simp only [List.getElem_replicate]
  omega

/-- Adaptive pooling in one dimension, to one place or to as many as there are. -/
theorem C104_pool1d_partial (strict : Bool) (lead : List Int) (input : Int) (n : Nat) (hi : 0 < input) (h : n = 1 ∨ (n : Int) = input) :
    ∃ ws, pool1d strict (some (lead ++ [input])) (some (n : Int)) = .ok ws ∧ IsAdaptive input n ws := by
  have e : (lead ++ [input]).getD ((lead ++ [input]).length - 1) 0 = input := by simp
  simp only [pool1d, e]
  by_cases g : (n : Int) = 1
  · rw [if_pos g]
    have g' : n = 1 := by omega
    subst g'
    refine ⟨[(0, input)], ?_, rfl, fun i w hw => ?_⟩
    · have h1 : ¬ (input ≤ 0 ∨ (1 : Int) ≤ 0 ∨ input < input) := by omega
      simp only [windows, if_neg h1]
      simp
    · cases i with
      | zero =>
        simp at hw
        subst hw
        simp only
        omega
      | succ i => simp at hw
  · rw [if_neg g]
    have hn : (n : Int) = input := by omega
    subst hn
    have := windows_adaptive (q := 1) (r := 0) (n := n) (by omega) (by omega) (Or.inl rfl)
    simpa using this

/-- Otherwise it stops. -/
theorem C104_stops (lead : List Int) (input n : Int) (h1 : n ≠ 1) (h2 : input ≠ n) : pool1d false (some (lead ++ [input])) (some n) = .aborts := by
  have e : (lead ++ [input]).getD ((lead ++ [input]).length - 1) 0 = input := by simp
  simp only [pool1d, e, if_neg h1]
  simp [h2]

/-- With strict shapes it does not, and gives as many windows as there are places. -/
theorem C104_violated_strict (lead : List Int) {input n : Nat} (h0 : 0 < input) (h1 : n ≠ 1) (h2 : input ≠ n) :
    ∃ ws, pool1d true (some (lead ++ [(input : Int)])) (some (n : Int)) = .ok ws ∧ ¬ IsAdaptive input n ws := by
  have e : (lead ++ [(input : Int)]).getD ((lead ++ [(input : Int)]).length - 1) 0 = input := by simp
  have g : ¬ ((n : Int) = 1) := by omega
  obtain ⟨ws, h3, h4⟩ := windows_adaptive (q := 1) (r := 0) (n := input) (by omega) h0 (Or.inl rfl)
  refine ⟨ws, ?_, fun c => h2 ?_⟩
  · simp only [pool1d, e, if_neg g]
    simpa using h3
  · have a := h4.1
    have b := c.1
    omega

namespace Test104

example : pool2d (some [1, 3, 7, 6]) (some [3, 2]) = .ok ([(0, 3), (2, 5), (4, 7)], [(0, 3), (3, 6)]) := by rfl

example : pool2d (some [1, 3, 8, 6]) (some [3, 2]) = .aborts := by rfl

example : pool1d false (some [2, 5]) (some 1) = .ok [(0, 5)] := by rfl

example : IsAdaptive 7 3 [(0, 3), (2, 5), (4, 7)] := by
  obtain ⟨ws, h1, h2⟩ := windows_adaptive (q := 2) (r := 1) (n := 3) (by omega) (by omega) (by omega)
  have : windows (2 * (3 : Nat) + 1) ⟨2 + 1, 2⟩ = .ok [(0, 3), (2, 5), (4, 7)] := rfl
  rw [h1] at this
  have := Outcome.ok.inj this
  subst this
  exact h2

end Test104

end Verif
