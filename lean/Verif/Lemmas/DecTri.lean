import Verif.Spec.DecTri
import Mathlib.Tactic.Ring
import Mathlib.Tactic.Linarith
import Mathlib.Tactic.FieldSimp
import Mathlib.Tactic.SplitIfs
import Mathlib.Tactic.Positivity

/-! # Triangular indices -/

namespace Verif.Tri

open Lin

/-! ## Rows put one after the other -/

/-- Where row `k` starts. -/
def start (len : Nat → Nat) : Nat → Nat
  | 0 => 0
  | k + 1 => start len k + len k

theorem segments {A : Type} (len : Nat → Nat) (f : Nat → A) (g : Nat → Nat → A) : ∀ K, (∀ k, k < K → ∀ j, j < len k → f (start len k + j) = g k j) →
    (List.range (start len K)).map f = (List.range K).flatMap fun k => (List.range (len k)).map (g k)
  | 0, _ => rfl
  | K + 1, h => by
    have ih := segments len f g K fun k hk => h k (by omega)
    have e : (List.range (start len (K + 1))).map f = (List.range (start len K)).map f ++ (List.range (len K)).map (fun j => f (start len K + j)) := by
      rw [start, List.range_add, List.map_append, List.map_map]
      rfl
    rw [e, ih, List.range_succ, List.flatMap_append, List.flatMap_singleton]
    congr 1
    apply List.map_congr_left
    intro j hj
    exact h K (by omega) j (List.mem_range.1 hj)

theorem start_const (c : Nat) : ∀ K, start (fun _ => c) K = K * c
  | 0 => by simp [start]
  | K + 1 => by rw [start, start_const c K, Nat.succ_mul]

theorem start_up (m : Nat) : ∀ k : Nat, (2 * start (fun k => m + k) k : Int) = k * (2 * m + k - 1)
  | 0 => by simp [start]
  | k + 1 => by
    have ih := start_up m k
    rw [start]
    push_cast
    push_cast at ih
    linarith

theorem start_down (m : Nat) : ∀ k : Nat, k ≤ m → (2 * start (fun k => m - k) k : Int) = k * (2 * m + 1 - k)
  | 0, _ => by simp [start]
  | k + 1, h => by
    have ih := start_down m k (by omega)
    rw [start]
    have e : ((m - k : Nat) : Int) = m - k := by omega
    push_cast
    push_cast at ih
    rw [e]
    linarith

theorem length_segments {A : Type} (len : Nat → Nat) (g : Nat → Nat → A) : ∀ K, ((List.range K).flatMap fun k => (List.range (len k)).map (g k)).length = start len K
  | 0 => rfl
  | K + 1 => by
    rw [List.range_succ, List.flatMap_append, List.flatMap_singleton, List.length_append, length_segments len g K, List.length_map, List.length_range, start]

/-! ## Roots -/

theorem trilRow_eq {sqrt : ℚ → ℚ} {bound : Nat} (hs : GoodSqrt sqrt bound) {m k j : Nat} (hm : 1 ≤ m) (hj : j < m + k)
    (hb : m * m + 2 * (start (fun k => m + k) k + j) < bound + m) : trilRow sqrt m ((start (fun k => m + k) k + j : Nat) : Int) = k := by
  have hst := start_up m k
  generalize hS : start (fun k => m + k) k = S at *
  obtain ⟨p, rfl⟩ : ∃ p, m = p + 1 := ⟨m - 1, by omega⟩
  have e : (((S + j : Nat) : Int) : ℚ) * 2 + (((p + 1 : Nat) : Int) - 1 / 2 : ℚ) * (((p + 1 : Nat) : Int) - 1 / 2 : ℚ) = ((p * p + p + 2 * (S + j) : Nat) : ℚ) + 1 / 4 := by
    push_cast
    ring
  have hn : p * p + p + 2 * (S + j) < bound := by nlinarith
  have h1 := (hs (p * p + p + 2 * (S + j)) (k + p) hn).1
  have h2 := (hs (p * p + p + 2 * (S + j)) (k + p + 1) hn).1
  unfold trilRow
  simp only [e]
  rw [Int.floor_eq_iff]
  constructor
  · have : (k + p) * (k + p) + (k + p) ≤ p * p + p + 2 * (S + j) := by
      zify
      push_cast at hst
      nlinarith
    have := h1.2 this
    push_cast at *
    linarith
  · have : ¬ ((k + p + 1) * (k + p + 1) + (k + p + 1) ≤ p * p + p + 2 * (S + j)) := by
      intro h
      zify at h hj
      push_cast at hst
      nlinarith
    have := mt h2.1 this
    push_cast at *
    linarith

theorem trilCol_eq {m k j : Nat} : trilCol m ((start (fun k => m + k) k + j : Nat) : Int) k = j := by
  have hst := start_up m k
  have hq : (2 * (start (fun k => m + k) k : ℚ)) = k * (2 * m + k - 1) := by exact_mod_cast hst
  unfold trilCol
  rw [Int.floor_eq_iff]
  push_cast
  constructor <;> linarith

theorem triuRow_eq {sqrt : ℚ → ℚ} {bound : Nat} (hs : GoodSqrt sqrt bound) {m k j : Nat} (hj : j < m - k) (hb : m * m + m < bound) :
    triuRow sqrt m ((start (fun k => m - k) k + j : Nat) : Int) = k := by
  have hst := start_down m k (by omega)
  generalize hS : start (fun k => m - k) k = S at *
  obtain ⟨p, rfl⟩ : ∃ p, m = k + 1 + p := ⟨m - k - 1, by omega⟩
  have hj' : (j : Int) < p + 1 := by omega
  have hle : 2 * (S + j) ≤ (k + 1 + p) * (k + 1 + p) + (k + 1 + p) := by
    zify
    push_cast at hst
    nlinarith
  obtain ⟨n, hn⟩ : ∃ n, (k + 1 + p) * (k + 1 + p) + (k + 1 + p) = 2 * (S + j) + n := ⟨_, (Nat.add_sub_of_le hle).symm⟩
  have e : (((S + j : Nat) : Int) : ℚ) * -2 + (-1 / 2 - ((k + 1 + p : Nat) : Int) : ℚ) * (-1 / 2 - ((k + 1 + p : Nat) : Int) : ℚ) = (n : ℚ) + 1 / 4 := by
    have hq : ((k + 1 + p : ℚ) * (k + 1 + p) + (k + 1 + p)) = 2 * (S + j) + n := by exact_mod_cast hn
    push_cast
    linarith
  have hnb : n < bound := by omega
  have h1 := (hs n (p + 1) hnb).2
  have h2 := (hs n p hnb).2
  unfold triuRow
  simp only [e]
  rw [Int.floor_eq_iff]
  zify at hn
  push_cast at hst
  constructor
  · have : n ≤ (p + 1) * (p + 1) + (p + 1) := by
      zify
      nlinarith
    have := h1.2 this
    push_cast at *
    linarith
  · have : ¬ (n ≤ p * p + p) := by
      intro h
      zify at h
      nlinarith
    have := mt h2.1 this
    push_cast at *
    linarith

theorem triuCol_eq {m k j : Nat} (hk : k ≤ m) : triuCol m ((start (fun k => m - k) k + j : Nat) : Int) k = k + j := by
  have hst := start_down m k hk
  have hq : (2 * (start (fun k => m - k) k : ℚ)) = k * (2 * m + 1 - k) := by exact_mod_cast hst
  unfold triuCol
  rw [Int.floor_eq_iff]
  push_cast
  constructor <;> linarith

/-! ## Rows of the matrix -/

theorem flatMap_split {A : Type} (f : Nat → List A) (a b : Nat) :
    (List.range (a + b)).flatMap f = (List.range a).flatMap f ++ (List.range b).flatMap fun k => f (a + k) := by
  rw [List.range_add, List.flatMap_append, List.flatMap_map]

theorem flatMap_empty {A : Type} {f : Nat → List A} {a : Nat} (h : ∀ k, k < a → f k = []) : (List.range a).flatMap f = [] := by
  rw [List.flatMap_eq_nil_iff]
  intro k hk
  exact h k (List.mem_range.1 hk)

theorem flatMap_congr' {A : Type} {f g : Nat → List A} {a : Nat} (h : ∀ k, k < a → f k = g k) : (List.range a).flatMap f = (List.range a).flatMap g := by
  simp only [List.flatMap]
  congr 1
  apply List.map_congr_left
  intro k hk
  exact h k (List.mem_range.1 hk)

theorem filter_lt (n : Nat) : ∀ C, (List.range C).filter (fun c => decide (c < n)) = List.range (min C n)
  | 0 => by simp
  | C + 1 => by
    rw [List.range_succ, List.filter_append, filter_lt n C]
    by_cases h : C < n
    · rw [List.filter_cons_of_pos (by simpa using h), Nat.min_eq_left (by omega), Nat.min_eq_left (by omega), List.range_succ]
      rfl
    · rw [List.filter_cons_of_neg (by simpa using h), Nat.min_eq_right (by omega), Nat.min_eq_right (by omega)]
      simp

theorem filter_ge (n : Nat) : ∀ C, (List.range C).filter (fun c => decide (n ≤ c)) = (List.range (C - n)).map (n + ·)
  | 0 => by simp
  | C + 1 => by
    rw [List.range_succ, List.filter_append, filter_ge n C]
    by_cases h : n ≤ C
    · rw [List.filter_cons_of_pos (by simpa using h), Nat.sub_add_comm h, List.range_succ, List.map_append]
      simp [Nat.add_sub_of_le h]
    · rw [List.filter_cons_of_neg (by simpa using h)]
      have e1 : C - n = 0 := by omega
      have e2 : C + 1 - n = 0 := by omega
      rw [e1, e2]
      simp

theorem row_lower {offset : Int} {r C n : Nat} (h : (n : Int) = min (C : Int) (max 0 (r + offset + 1))) :
    ((List.range C).filter fun (c : Nat) => lower offset r c) = List.range n := by
  have e : (List.range C).filter (fun (c : Nat) => lower offset r c) = (List.range C).filter fun c => decide (c < n) := by
    apply List.filter_congr
    intro c hc
    have := List.mem_range.1 hc
    unfold lower
    by_cases q : c < n
    · rw [decide_eq_true q, decide_eq_true]; omega
    · rw [decide_eq_false q, decide_eq_false]; omega
  rw [e, filter_lt, Nat.min_eq_right (by omega)]

theorem row_upper {offset : Int} {r C n : Nat} (h : (n : Int) = max 0 (r + offset)) :
    ((List.range C).filter fun (c : Nat) => upper offset r c) = (List.range (C - n)).map (n + ·) := by
  rw [← filter_ge]
  apply List.filter_congr
  intro c hc
  unfold upper
  by_cases q : n ≤ c
  · rw [decide_eq_true q, decide_eq_true]; omega
  · rw [decide_eq_false q, decide_eq_false]; omega

theorem rect_eq {d c : Int} (hd : 0 ≤ d) (hc : 0 ≤ c) : (if d * c > 0 then d * c else 0) = d * c := by
  have := Int.mul_nonneg hd hc
  by_cases q : d * c > 0
  · rw [if_pos q]
  · rw [if_neg q]; omega

theorem trap_eq {m K : Nat} (hK : 1 ≤ K) : (((m : Int) + (m + K - 1)) * K).tdiv 2 = start (fun k => m + k) K := by
  have h := start_up m K
  have e : ((m : Int) + (m + K - 1)) * K = 2 * start (fun k => m + k) K := by
    rw [h]; ring
  rw [e, Int.mul_tdiv_cancel_left _ (by omega)]

/-- The sizes of the lower triangle, and what they are sizes of. -/
theorem trilSizes_spec {R C : Nat} (hR : 0 < R) (hC : 0 < C) {offset : Int} (ho : 0 < R + offset) : ∃ m K Q : Nat,
    trilSizes R C offset = (((start (fun k => m + k) K : Nat) : Int), ((Q * C : Nat) : Int), (m : Int)) ∧ 1 ≤ m ∧ m ≤ C ∧ R = (-offset).toNat + K + Q ∧ (0 < Q → K + m = C + 1) ∧
    (∀ k, k < K → ((m + k : Nat) : Int) = min (C : Int) (max 0 (((-offset).toNat + k : Nat) + offset + 1))) ∧
    (∀ k, k < Q → (C : Int) = min (C : Int) (max 0 (((-offset).toNat + K + k : Nat) + offset + 1))) := by
  have hf : (if offset > 0 then (if (C : Int) < offset + 1 then (C : Int) else offset + 1) else if (R : Int) + offset > 0 then 1 else 0) = max 1 (min (C : Int) (offset + 1)) := by
    split_ifs <;> omega
  have hl : (if (if (C : Int) < R + offset then (C : Int) else R + offset) > 0 then (if (C : Int) < R + offset then (C : Int) else R + offset) else 0) = min (C : Int) (R + offset) := by
    split_ifs <;> omega
  have ha : (if (if (R : Int) < R + offset then (R : Int) else R + offset) > 0 then (if (R : Int) < R + offset then (R : Int) else R + offset) else 0) = min (R : Int) (R + offset) := by
    split_ifs <;> omega
  obtain ⟨m, hm⟩ : ∃ m : Nat, (m : Int) = max 1 (min (C : Int) (offset + 1)) := ⟨(max 1 (min (C : Int) (offset + 1))).toNat, by omega⟩
  obtain ⟨K, hK⟩ : ∃ K : Nat, (K : Int) = min (C : Int) (R + offset) - m + 1 := ⟨(min (C : Int) (R + offset) - m + 1).toNat, by omega⟩
  obtain ⟨Q, hQ⟩ : ∃ Q : Nat, (Q : Int) = min (R : Int) (R + offset) - K := ⟨(min (R : Int) (R + offset) - K).toNat, by omega⟩
  refine ⟨m, K, Q, ?_, by omega, by omega, by omega, fun _ => by omega, fun k hk => by omega, fun k hk => by omega⟩
  unfold trilSizes
  rw [if_neg (by omega)]
  simp only [hf, hl, ha, ← hm]
  have e1 : min (C : Int) (R + offset) = m + K - 1 := by omega
  have e2 : (m : Int) + K - 1 - m + 1 = K := by omega
  have e3 : min (R : Int) (R + offset) - K = Q := by omega
  rw [e1, e2, e3, rect_eq (by omega) (by omega), trap_eq (by omega)]
  push_cast
  rfl

theorem trilSizes_none {R C : Nat} {offset : Int} (ho : R + offset ≤ 0) : (trilSizes R C offset).1 = 0 ∧ (trilSizes R C offset).2.1 = 0 := by
  unfold trilSizes
  by_cases q : (R : Int) = 0 ∨ (C : Int) = 0
  · rw [if_pos q]; exact ⟨rfl, rfl⟩
  rw [if_neg q]
  have hf : (if offset > 0 then (if (C : Int) < offset + 1 then (C : Int) else offset + 1) else if (R : Int) + offset > 0 then 1 else 0) = 0 := by
    split_ifs <;> omega
  have hl : (if (if (C : Int) < R + offset then (C : Int) else R + offset) > 0 then (if (C : Int) < R + offset then (C : Int) else R + offset) else 0) = 0 := by
    split_ifs <;> omega
  have ha : (if (if (R : Int) < R + offset then (R : Int) else R + offset) > 0 then (if (R : Int) < R + offset then (R : Int) else R + offset) else 0) = 0 := by
    split_ifs <;> omega
  simp only [hf, hl, ha]
  refine ⟨by decide, ?_⟩
  rw [if_neg (by omega)]

theorem lower_places {R C m K Q : Nat} {offset : Int} (h1 : R = (-offset).toNat + K + Q)
    (h2 : ∀ k, k < K → ((m + k : Nat) : Int) = min (C : Int) (max 0 (((-offset).toNat + k : Nat) + offset + 1)))
    (h3 : ∀ k, k < Q → (C : Int) = min (C : Int) (max 0 (((-offset).toNat + K + k : Nat) + offset + 1))) :
    places (lower offset) R C = ((List.range K).flatMap fun (k : Nat) => (List.range (m + k)).map fun (j : Nat) => ((((-offset).toNat + k : Nat) : Int), (j : Int))) ++
      (List.range Q).flatMap fun (k : Nat) => (List.range C).map fun (j : Nat) => ((((-offset).toNat + K + k : Nat) : Int), (j : Int)) := by
  unfold places
  rw [h1, flatMap_split, flatMap_split, flatMap_empty, List.nil_append]
  · congr 1
    · exact flatMap_congr' fun k hk => by rw [row_lower (h2 k hk)]
    · exact flatMap_congr' fun k hk => by rw [row_lower (h3 k hk)]
  · intro k hk
    rw [row_lower (n := 0) (by omega)]
    rfl

theorem lower_empty {R C : Nat} {offset : Int} (ho : R + offset ≤ 0) : places (lower offset) R C = [] :=
  flatMap_empty fun k hk => by
    rw [row_lower (n := 0) (by omega)]
    rfl

theorem places_nil (keep : Int → Int → Bool) {R C : Nat} (h : R = 0 ∨ C = 0) : places keep R C = [] := by
  rcases h with rfl | rfl
  · rfl
  · exact flatMap_empty fun k _ => rfl

theorem lower_length (R C : Nat) (offset : Int) : (trilSizes R C offset).1 + (trilSizes R C offset).2.1 = ((places (lower offset) R C).length : Int) := by
  by_cases q : R = 0 ∨ C = 0
  · rw [places_nil _ q]
    unfold trilSizes
    rw [if_pos (by omega)]
    rfl
  by_cases ho : R + offset ≤ 0
  · rw [lower_empty ho, (trilSizes_none ho).1, (trilSizes_none ho).2]
    rfl
  obtain ⟨m, K, Q, e, -, -, h1, -, h2, h3⟩ := trilSizes_spec (R := R) (C := C) (offset := offset) (by omega) (by omega) (by omega)
  rw [lower_places h1 h2 h3, e, List.length_append, length_segments (fun k => m + k), length_segments (fun _ => C), start_const]
  push_cast
  rfl

theorem partition_length (offset : Int) (C : Nat) : ∀ R : Nat, (places (lower (offset - 1)) R C).length + (places (upper offset) R C).length = R * C
  | 0 => by simp [places]
  | R + 1 => by
    have ih := partition_length offset C R
    have key : ∀ l : List Nat, (l.filter fun (c : Nat) => lower (offset - 1) R c).length + (l.filter fun (c : Nat) => upper offset R c).length = l.length := by
      intro l
      induction l with
      | nil => rfl
      | cons c l ihl =>
        by_cases q : (c : Int) - R ≤ offset - 1
        · rw [List.filter_cons_of_pos (by unfold lower; exact decide_eq_true q), List.filter_cons_of_neg (by unfold upper; rw [decide_eq_false (by omega)]; simp)]
          simp only [List.length_cons]; omega
        · rw [List.filter_cons_of_neg (by unfold lower; rw [decide_eq_false q]; simp), List.filter_cons_of_pos (by unfold upper; exact decide_eq_true (by omega))]
          simp only [List.length_cons]; omega
    have k := key (List.range C)
    rw [List.length_range] at k
    unfold places at ih ⊢
    rw [List.range_succ, List.flatMap_append, List.flatMap_append, List.flatMap_singleton, List.flatMap_singleton, List.length_append, List.length_append, List.length_map,
      List.length_map, Nat.succ_mul]
    omega

theorem upper_places {R C P K : Nat} {m c0 : Nat} {offset : Int} (h1 : R = P + K) (hP : 0 < P → P + offset ≤ 0) (h2 : ∀ k, k < K → ((c0 + k : Nat) : Int) = max 0 (((P + k : Nat) : Int) + offset))
    (hm : m = C - c0) :
    places (upper offset) R C = ((List.range P).flatMap fun (k : Nat) => (List.range C).map fun (j : Nat) => ((k : Int), (j : Int))) ++
      (List.range K).flatMap fun (k : Nat) => (List.range (m - k)).map fun (j : Nat) => (((P + k : Nat) : Int), ((c0 + k + j : Nat) : Int)) := by
  unfold places
  rw [h1, flatMap_split]
  congr 1
  · exact flatMap_congr' fun k hk => by
      have := hP (by omega)
      rw [row_upper (n := 0) (by omega)]
      simp
  · exact flatMap_congr' fun k hk => by
      rw [row_upper (h2 k hk), List.map_map, hm, Nat.sub_sub]
      rfl

/-- The sizes of the upper triangle, and what they are sizes of. -/
theorem triuSizes_spec {R C : Nat} (hR : 0 < R) (hC : 0 < C) (offset : Int) : ∃ m P K : Nat,
    triuSizes R C offset = (((start (fun k => m - k) K : Nat) : Int), ((P * C : Nat) : Int), (m : Int)) ∧ m = C - offset.toNat ∧ R = P + K ∧
    places (upper offset) R C = ((List.range P).flatMap fun (k : Nat) => (List.range C).map fun (j : Nat) => ((k : Int), (j : Int))) ++
      (List.range K).flatMap fun (k : Nat) => (List.range (m - k)).map fun (j : Nat) => (((P + k : Nat) : Int), ((offset.toNat + k + j : Nat) : Int)) := by
  have hf : (if offset > 0 then (if (C : Int) - offset > 0 then (C : Int) - offset else 0) else (C : Int)) = ((C - offset.toNat : Nat) : Int) := by
    split_ifs <;> omega
  have hmin : (if (R : Int) < -offset then (R : Int) else -offset) = min (R : Int) (-offset) := by
    split_ifs <;> omega
  obtain ⟨P, hP⟩ : ∃ P : Nat, (P : Int) = max 0 (min (R : Int) (-offset)) := ⟨(max 0 (min (R : Int) (-offset))).toNat, by omega⟩
  obtain ⟨K, hK⟩ : ∃ K : Nat, R = P + K := ⟨R - P, by omega⟩
  have hrect : (if min (R : Int) (-offset) * C > 0 then min (R : Int) (-offset) * C else 0) = ((P * C : Nat) : Int) := by
    by_cases q : 0 ≤ min (R : Int) (-offset)
    · rw [rect_eq q (by omega), Int.natCast_mul, hP, max_eq_right q]
    · have : min (R : Int) (-offset) * C < 0 := Int.mul_neg_of_neg_of_pos (by omega) (by omega)
      rw [if_neg (by omega)]
      have : P = 0 := by omega
      rw [this]; simp
  have hpl := upper_places (R := R) (C := C) (P := P) (K := K) (m := C - offset.toNat) (c0 := offset.toNat) (offset := offset) hK (by omega) (fun k hk => by omega) rfl
  refine ⟨C - offset.toNat, P, K, ?_, rfl, hK, hpl⟩
  have hlen := partition_length offset C R
  have hup : (places (upper offset) R C).length = P * C + start (fun k => C - offset.toNat - k) K := by
    rw [hpl, List.length_append, length_segments (fun _ => C), length_segments (fun k => C - offset.toNat - k), start_const]
  have hlo := lower_length R C (offset - 1)
  unfold triuSizes
  rw [if_neg (by omega)]
  simp only [hf, hmin, hrect, hlo]
  congr 1
  have : ((R * C : Nat) : Int) = (R : Int) * C := Int.natCast_mul R C
  omega

end Verif.Tri
