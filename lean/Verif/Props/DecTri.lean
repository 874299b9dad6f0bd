import Verif.Lemmas.DecTri

/-!
# C101: triangular indices

`aten.tril_indices` and `aten.triu_indices` give the rows and columns of the places of a matrix on one side of a diagonal, in row-major order.
-/

namespace Verif

open Lin Tri

theorem Tri.start_lt (len : Nat → Nat) {k j : Nat} (hj : j < len k) : ∀ {K : Nat}, k < K → start len k + j < start len K
  | 0, h => by omega
  | K + 1, h => by
    rw [start]
    by_cases q : k = K
    · subst q; omega
    · have := start_lt len hj (K := K) (by omega)
      omega

theorem Tri.zip_self {A B C : Type} (f : A → B → C) (g : A → B) : ∀ l : List A, List.zipWith f l (l.map g) = l.map fun a => f a (g a)
  | [] => rfl
  | a :: l => by simp only [List.map_cons, List.zipWith_cons_cons, zip_self f g l]

theorem Tri.lower_le (R C : Nat) (offset : Int) : (places (lower offset) R C).length ≤ R * C := by
  have := partition_length (offset + 1) C R
  rw [Int.add_sub_cancel] at this
  omega

theorem Tri.rectangle {C : Nat} (hC : 0 < C) (base : Int) (Q : Nat) :
    (List.range (Q * C)).map (fun (x : Nat) => ((x : Int).fdiv C + base, (x : Int).fmod C)) =
      (List.range Q).flatMap fun (k : Nat) => (List.range C).map fun (j : Nat) => ((k : Int) + base, (j : Int)) := by
  rw [← start_const]
  refine segments (fun _ => C) _ (fun k j => ((k : Int) + base, (j : Int))) Q fun k _ j hj => ?_
  rw [start_const, Int.fdiv_eq_ediv_of_nonneg _ (by omega), Int.fmod_eq_emod_of_nonneg _ (by omega)]
  have e : ((k * C + j : Nat) : Int) = j + k * C := by push_cast; ring
  rw [e, Int.add_mul_ediv_right _ _ (by omega), Int.add_mul_emod_self_right, Int.ediv_eq_zero_of_lt (by omega) (by omega), Int.emod_eq_of_lt (by omega) (by omega)]
  simp

/-- The lower triangle. Missing: results of type int32. -/
theorem C101_tril_partial {sqrt : ℚ → ℚ} {bound : Nat} (hs : GoodSqrt sqrt bound) (R C : Nat) (offset : Int) (hb : C * C + C + 2 * (R * C) < bound) :
    decomposeTril sqrt (some R) (some C) (some offset) (some .long) =
      .ok ((places (lower offset) R C).map Prod.fst, (places (lower offset) R C).map Prod.snd) := by
  have hD : (if -offset > 0 then -offset else 0) = (((-offset).toNat : Nat) : Int) := by split_ifs <;> omega
  by_cases q : R = 0 ∨ C = 0
  · rw [places_nil _ q]
    have e : trilSizes R C offset = (0, 0, 0) := by
      unfold trilSizes
      rw [if_pos (by omega)]
    simp only [decomposeTril, e, if_true]
    rfl
  by_cases ho : R + offset ≤ 0
  · rw [lower_empty ho]
    obtain ⟨e1, e2⟩ := trilSizes_none (C := C) ho
    simp only [decomposeTril, e1, e2, if_true]
    rfl
  obtain ⟨m, K, Q, e, hm, hmC, h1, hQ, h2, h3⟩ := trilSizes_spec (R := R) (C := C) (offset := offset) (by omega) (by omega) (by omega)
  have hpl := lower_places h1 h2 h3
  have hle := Tri.lower_le R C offset
  have hlen := lower_length R C offset
  rw [e] at hlen
  have hst : start (fun k => m + k) K ≤ R * C := by
    have hlen' : start (fun k => m + k) K + Q * C = (places (lower offset) R C).length := by
      have h' : ((start (fun k => m + k) K : Nat) : Int) + ((Q * C : Nat) : Int) = ((places (lower offset) R C).length : Int) := hlen
      exact_mod_cast h'
    exact le_trans (Nat.le_add_right _ _) (hlen' ▸ hle)
  have hmm : m * m ≤ C * C := Nat.mul_le_mul hmC hmC
  have hrow : ∀ k, k < K → ∀ j, j < m + k → trilRow sqrt m ((start (fun k => m + k) k + j : Nat) : Int) = k := by
    intro k hk j hj
    have := Tri.start_lt (fun k => m + k) hj hk
    exact trilRow_eq hs hm hj (by omega)
  have t1 : (List.range (start (fun k => m + k) K)).map (fun (x : Nat) => (trilRow sqrt m x + (((-offset).toNat : Nat) : Int), trilCol m x (trilRow sqrt m x))) =
      (List.range K).flatMap fun (k : Nat) => (List.range (m + k)).map fun (j : Nat) => ((((-offset).toNat + k : Nat) : Int), (j : Int)) := by
    refine segments (fun k => m + k) _ (fun k j => ((((-offset).toNat + k : Nat) : Int), (j : Int))) K fun k hk j hj => ?_
    rw [hrow k hk j hj, trilCol_eq]
    push_cast
    rw [Int.add_comm]
  have t2 : (List.range (Q * C)).map (fun (x : Nat) => ((x : Int).fdiv C + ((C : Int) - m + 1 + (((-offset).toNat : Nat) : Int)), (x : Int).fmod C)) =
      (List.range Q).flatMap fun (k : Nat) => (List.range C).map fun (j : Nat) => ((((-offset).toNat + K + k : Nat) : Int), (j : Int)) := by
    rw [Tri.rectangle (by omega)]
    refine flatMap_congr' fun k hk => ?_
    have := hQ (by omega)
    have : (k : Int) + ((C : Int) - m + 1 + (((-offset).toNat : Nat) : Int)) = (((-offset).toNat + K + k : Nat) : Int) := by omega
    rw [this]
  rw [hpl, ← t1, ← t2]
  simp only [decomposeTril, e, if_true, hD, arange, Int.toNat_natCast, Tri.zip_self]
  simp only [List.map_append, List.map_map]
  rfl

/-- The upper triangle. Missing: results of type int32. -/
theorem C101_triu_partial {sqrt : ℚ → ℚ} {bound : Nat} (hs : GoodSqrt sqrt bound) (R C : Nat) (offset : Int) (hb : C * C + C < bound) :
    decomposeTriu sqrt (some R) (some C) (some offset) (some .long) =
      .ok ((places (upper offset) R C).map Prod.fst, (places (upper offset) R C).map Prod.snd) := by
  have hD : (if offset > 0 then offset else 0) = ((offset.toNat : Nat) : Int) := by split_ifs <;> omega
  by_cases q : R = 0 ∨ C = 0
  · rw [places_nil _ q]
    have e : triuSizes R C offset = (0, 0, 0) := by
      unfold triuSizes
      rw [if_pos (by omega)]
    simp only [decomposeTriu, e, if_true]
    split_ifs <;> rfl
  obtain ⟨m, P, K, e, hm, h1, hpl⟩ := triuSizes_spec (R := R) (C := C) (by omega) (by omega) offset
  have hmC : m ≤ C := by omega
  have hmm : m * m ≤ C * C := Nat.mul_le_mul hmC hmC
  have hP : ((P * C : Nat) : Int).tdiv C = P := by
    rw [Int.natCast_mul, Int.mul_tdiv_cancel _ (by omega)]
  have t1 : (List.range (start (fun k => m - k) K)).map (fun (x : Nat) => (triuRow sqrt m x + (P : Int), triuCol m x (triuRow sqrt m x) + ((offset.toNat : Nat) : Int))) =
      (List.range K).flatMap fun (k : Nat) => (List.range (m - k)).map fun (j : Nat) => (((P + k : Nat) : Int), ((offset.toNat + k + j : Nat) : Int)) := by
    refine segments (fun k => m - k) _ (fun k j => (((P + k : Nat) : Int), ((offset.toNat + k + j : Nat) : Int))) K fun k hk j hj => ?_
    rw [triuRow_eq hs hj (by omega), triuCol_eq (by omega)]
    have e1 : (k : Int) + P = ((P + k : Nat) : Int) := by omega
    have e2 : (k : Int) + j + ((offset.toNat : Nat) : Int) = ((offset.toNat + k + j : Nat) : Int) := by omega
    rw [e1, e2]
  have t2 : (List.range (P * C)).map (fun (x : Nat) => ((x : Int).fdiv C, (x : Int).fmod C)) =
      (List.range P).flatMap fun (k : Nat) => (List.range C).map fun (j : Nat) => ((k : Int), (j : Int)) := by
    have := Tri.rectangle (C := C) (by omega) 0 P
    simpa only [Int.add_zero] using this
  rw [hpl, ← t1, ← t2]
  have hC : (C : Int) ≠ 0 := by omega
  simp only [decomposeTriu, e, if_true, hD, arange, Int.toNat_natCast, Tri.zip_self, hP, ne_eq, hC, not_false_eq_true]
  simp only [List.map_append, List.map_map]
  rfl

/-- What is refused: parameters that are not constant. -/
theorem C101_rejects (sqrt : ℚ → ℚ) (row col offset : Option Int) (dtype : Option Width) :
    (decomposeTril sqrt row col offset dtype = .unmatched ↔ row = none ∨ col = none ∨ offset = none ∨ dtype = none) ∧
    (decomposeTriu sqrt row col offset dtype = .unmatched ↔ row = none ∨ col = none ∨ offset = none ∨ dtype = none) := by
  rcases row with _ | row <;> rcases col with _ | col <;> rcases offset with _ | offset <;> rcases dtype with _ | (_ | _) <;>
    exact ⟨by simp [decomposeTril], by simp [decomposeTriu]⟩

/-- Results of type int32, which the verifier allows, are declared to have type int64. -/
theorem C101_violated_type (sqrt : ℚ → ℚ) : decomposeTril sqrt (some 2) (some 2) (some 0) (some .int) = .bad ∧
    decomposeTriu sqrt (some 2) (some 2) (some 0) (some .int) = .bad := ⟨rfl, rfl⟩

/-! ## Examples -/

namespace Test101

/-- The largest `k` with `k * k + k ≤ n`. -/
def half (n : Nat) : Nat := Nat.findGreatest (fun k => k * k + k ≤ n) n

/-- A root that is good: rounded up to the next integer, unless it is exact. -/
def root (q : ℚ) : ℚ := let n := ⌊q⌋.toNat; if half n * half n + half n = n then half n + 1 / 2 else half n + 1

theorem half_le (n : Nat) : half n * half n + half n ≤ n := Nat.findGreatest_spec (P := fun k => k * k + k ≤ n) (m := 0) (Nat.zero_le _) (Nat.zero_le _)

theorem le_half {n k : Nat} (h : k * k + k ≤ n) : k ≤ half n := Nat.le_findGreatest (by nlinarith) h

theorem root_good (bound : Nat) : GoodSqrt root bound := by
  intro n k _
  have e : ⌊(n : ℚ) + 1 / 4⌋.toNat = n := by
    have : ⌊(n : ℚ) + 1 / 4⌋ = (n : Int) := by
      rw [Int.floor_eq_iff]
      push_cast
      constructor <;> linarith
    rw [this]; rfl
  have h1 := half_le n
  unfold root
  simp only [e]
  have hk : k * k + k ≤ n ↔ k ≤ half n := ⟨le_half, fun h => by nlinarith⟩
  by_cases q : half n * half n + half n = n
  · rw [if_pos q, hk]
    refine ⟨⟨fun h => ?_, fun h => ?_⟩, ⟨fun h => ?_, fun h => ?_⟩⟩
    · have : (k : ℚ) ≤ half n := by linarith
      exact_mod_cast this
    · have : (k : ℚ) ≤ half n := by exact_mod_cast h
      linarith
    · have : (half n : ℚ) ≤ k := by linarith
      have : half n ≤ k := by exact_mod_cast this
      nlinarith
    · have : half n ≤ k := by
        by_contra c
        have c' : k + 1 ≤ half n := by omega
        nlinarith
      have : (half n : ℚ) ≤ k := by exact_mod_cast this
      linarith
  · rw [if_neg q, hk]
    refine ⟨⟨fun h => ?_, fun h => ?_⟩, ⟨fun h => ?_, fun h => ?_⟩⟩
    · have : (k : ℚ) < ((half n + 1 : Nat) : ℚ) := by push_cast; linarith
      have : k < half n + 1 := by exact_mod_cast this
      omega
    · have : (k : ℚ) ≤ half n := by exact_mod_cast h
      linarith
    · have : (half n : ℚ) < k := by linarith
      have : half n < k := by exact_mod_cast this
      by_contra c
      have := le_half (n := n) (k := k) (by omega)
      omega
    · have : half n < k := by
        by_contra c
        have c' : k ≤ half n := by omega
        have := Nat.add_le_add (Nat.mul_le_mul c' c') c'
        omega
      have : ((half n + 1 : Nat) : ℚ) ≤ k := by exact_mod_cast this
      push_cast at this
      linarith

end Test101

open Test101

/-- The lower triangle of three rows and two columns. -/
example : places (lower 0) 3 2 = [(0, 0), (1, 0), (1, 1), (2, 0), (2, 1)] := by decide

example : decomposeTril root (some 3) (some 2) (some 0) (some .long) = .ok ([0, 1, 1, 2, 2], [0, 0, 1, 0, 1]) :=
  C101_tril_partial (root_good 1000) 3 2 0 (by decide)

/-- The upper triangle, with the diagonal below the main one. -/
example : places (upper (-1)) 3 2 = [(0, 0), (0, 1), (1, 0), (1, 1), (2, 1)] := by decide

example : decomposeTriu root (some 3) (some 2) (some (-1)) (some .long) = .ok ([0, 0, 1, 1, 2], [0, 1, 0, 1, 1]) :=
  C101_triu_partial (root_good 1000) 3 2 (-1) (by decide)

end Verif
