import Verif.Lemmas.LinReduce

namespace Verif.Red

open Lin

variable {E F : Type}

/-! ## Sums and products -/

theorem convert_value {t r : IntTy} (h1 : r.width ≠ 1 ∨ t.width = 1) (h2 : t.unsigned = false ∨ r.width ≤ t.width) (e : BitVec t.width) :
    convert t.width r.width e = BitVec.ofInt r.width (value t e) := by
  obtain ⟨w, u⟩ := t
  obtain ⟨v, ru⟩ := r
  simp only at *
  have cut : v ≤ w → e.setWidth v = BitVec.ofInt v (value ⟨w, u⟩ e) := by
    intro hle
    apply BitVec.eq_of_toNat_eq
    rw [BitVec.toNat_setWidth, BitVec.toNat_ofInt]
    unfold value
    simp only
    by_cases hu : u = true ∨ w = 1
    · rw [if_pos hu]
      omega
    · rw [if_neg hu]
      have hd : ((2 ^ v : Nat) : Int) ∣ ((2 ^ w : Nat) : Int) := by exact_mod_cast pow_dvd_pow 2 hle
      rw [BitVec.toInt_eq_toNat_bmod]
      have h3 : ((e.toNat : Int).bmod (2 ^ w)) % ((2 ^ v : Nat) : Int) = (e.toNat : Int) % ((2 ^ v : Nat) : Int) := by
        rw [Int.bmod_def]
        by_cases hb : (e.toNat : Int) % ((2 ^ w : Nat) : Int) < (((2 ^ w : Nat) : Int) + 1) / 2
        · rw [if_pos hb, Int.emod_emod_of_dvd _ hd]
        · rw [if_neg hb, Int.sub_emod, Int.emod_emod_of_dvd _ hd, Int.emod_eq_zero_of_dvd hd, Int.sub_zero, Int.emod_emod]
      rw [h3]
      omega
  unfold convert
  by_cases c1 : w = v
  · rw [if_pos c1]; exact cut (by omega)
  · rw [if_neg c1]
    by_cases c2 : v = 1
    · rw [if_pos c2]; omega
    · rw [if_neg c2]
      by_cases c3 : v < w
      · rw [if_pos c3]; exact cut (by omega)
      · rw [if_neg c3]
        by_cases c4 : w = 1
        · rw [if_pos c4]
          apply BitVec.eq_of_toNat_eq
          rw [BitVec.toNat_setWidth, BitVec.toNat_ofInt]
          unfold value
          rw [if_pos (Or.inr c4)]
          omega
        · rw [if_neg c4]
          unfold value
          rw [if_neg (by simp [c4]; rcases h2 with h | h; exact h; omega)]
          rfl

theorem foldl_sum {v : Nat} (f : List Int → BitVec v) (g : List Int → Int) (h : ∀ p, f p = BitVec.ofInt v (g p)) : ∀ (l : List (List Int)) (a : Int),
    l.foldl (fun a p => f p + a) (BitVec.ofInt v a) = BitVec.ofInt v (a + (l.map g).sum) := by
  intro l
  induction l with
  | nil => intro a; simp
  | cons p l ih =>
    intro a
    rw [List.foldl_cons, h, ← BitVec.ofInt_add, ih, List.map_cons, List.sum_cons]
    congr 1
    omega

theorem foldl_prod {v : Nat} (f : List Int → BitVec v) (g : List Int → Int) (h : ∀ p, f p = BitVec.ofInt v (g p)) : ∀ (l : List (List Int)) (a : Int),
    l.foldl (fun a p => f p * a) (BitVec.ofInt v a) = BitVec.ofInt v (a * (l.map g).prod) := by
  intro l
  induction l with
  | nil => intro a; simp
  | cons p l ih =>
    intro a
    rw [List.foldl_cons, h, ← BitVec.ofInt_mul, ih, List.map_cons, List.prod_cons]
    congr 1
    rw [Int.mul_comm (g p) a, Int.mul_assoc]

/-! ## Extremes -/

/-- Greater elements have greater keys. -/
def key (isMax : Bool) (t : IntTy) (e : BitVec t.width) : Int := if isMax then value t e else -value t e

theorem value_inj {t : IntTy} {a b : BitVec t.width} (h : value t a = value t b) : a = b := by
  unfold value at h
  by_cases hu : t.unsigned ∨ t.width = 1
  · rw [if_pos hu, if_pos hu] at h
    exact BitVec.eq_of_toNat_eq (by omega)
  · rw [if_neg hu, if_neg hu] at h
    exact BitVec.eq_of_toInt_eq h

theorem key_inj {isMax : Bool} {t : IntTy} {a b : BitVec t.width} (h : key isMax t a = key isMax t b) : a = b := by
  unfold key at h
  cases isMax
  · exact value_inj (by simpa using h)
  · exact value_inj (by simpa using h)

theorem useUnsigned_iff {t : IntTy} : t.useUnsigned = true ↔ (t.unsigned ∨ t.width = 1) := by
  unfold IntTy.useUnsigned
  simp

theorem better_key (isMax : Bool) (t : IntTy) (a b : BitVec t.width) :
    (if isMax then (if t.useUnsigned then b.ult a else b.slt a) else (if t.useUnsigned then a.ult b else a.slt b)) = decide (key isMax t b < key isMax t a) := by
  unfold key value
  by_cases hu : t.useUnsigned = true
  · have hu' := useUnsigned_iff.1 hu
    cases isMax <;> simp [hu, hu', BitVec.ult]
  · have hu' : ¬(t.unsigned = true ∨ t.width = 1) := fun h => hu (useUnsigned_iff.2 h)
    cases isMax <;> simp [hu, hu', BitVec.slt]

theorem pick_key (isMax : Bool) (t : IntTy) (a b : BitVec t.width) :
    pick isMax t.useUnsigned a b = if key isMax t b < key isMax t a then a else b := by
  have h := better_key isMax t a b
  unfold pick
  by_cases hu : t.useUnsigned = true
  · cases isMax
    · simp only [hu, if_true, Bool.false_eq_true, if_false] at h ⊢
      simp only [h, decide_eq_true_eq]
    · simp only [hu, if_true] at h ⊢
      simp only [h, decide_eq_true_eq]
  · cases isMax
    · simp only [hu, Bool.false_eq_true, if_false] at h ⊢
      simp only [h, decide_eq_true_eq]
    · simp only [hu, if_true, Bool.false_eq_true, if_false] at h ⊢
      simp only [h, decide_eq_true_eq]

theorem extreme_key (isMax : Bool) (t : IntTy) (hw : t.Valid) (e : BitVec t.width) : key isMax t (extreme isMax t.useUnsigned t.width) ≤ key isMax t e := by
  unfold key value extreme
  have hlt := e.isLt
  by_cases hu : t.useUnsigned = true
  · have hu' := useUnsigned_iff.1 hu
    cases isMax
    · simp only [hu, hu', if_true, Bool.false_eq_true, if_false]
      rw [BitVec.toNat_allOnes]
      omega
    · simp only [hu, hu', if_true]
      simp
  · have hu' : ¬(t.unsigned = true ∨ t.width = 1) := fun h => hu (useUnsigned_iff.2 h)
    have h1 := @BitVec.le_toInt t.width e
    have h2 := @BitVec.toInt_le t.width e
    cases isMax
    · simp only [hu, hu', Bool.false_eq_true, if_false]
      rw [BitVec.toInt_intMax]
      unfold IntTy.Valid at hw
      omega
    · simp only [hu, hu', if_true, Bool.false_eq_true, if_false]
      rw [BitVec.toInt_intMin_of_pos hw]
      omega

theorem signless_useUnsigned {t : IntTy} (h : t.unsigned = false) : t.signless.useUnsigned = t.useUnsigned := by
  unfold IntTy.useUnsigned IntTy.signless
  rw [h]

theorem isExtreme_of {isMax : Bool} {t : IntTy} {m : BitVec t.width} {l : List (BitVec t.width)} (h1 : m ∈ l) (h2 : ∀ e ∈ l, key isMax t e ≤ key isMax t m) :
    IsExtreme isMax (value t m) (l.map (value t)) := by
  refine ⟨List.mem_map.2 ⟨m, h1, rfl⟩, ?_⟩
  intro i hi
  obtain ⟨e, he, rfl⟩ := List.mem_map.1 hi
  have := h2 e he
  unfold key at this
  cases isMax
  · simp only [Bool.false_eq_true, if_false] at this ⊢; omega
  · simpa using this

/-! ## Folds that keep the best -/

/-- The best of the elements and the first index of it. -/
theorem best_fold {O : Type} [LinearOrder O] (P : E → Prop) (key : E → O) (best : E → E → E) (better : E → E → Bool) (init : E)
    (hb : ∀ a b, P a → P b → best a b = if key b < key a then a else b) (ht : ∀ a b, P a → P b → better a b = decide (key b < key a))
    (hP : P init) (hi : ∀ e, P e → key init ≤ key e) (inj : ∀ a b, P a → P b → key a = key b → a = b) (v : Nat → E) (n : Nat) (hn : 0 < n)
    (hv : ∀ i, i < n → P (v i)) :
    ∃ k, k < n ∧ (List.range n).foldl (fun (a : E × Int) (i : Nat) => (best (v i) a.1, if better (v i) a.1 then (i : Int) else a.2)) (init, 0) = (v k, (k : Int)) ∧
      (∀ i, i < n → key (v i) ≤ key (v k)) ∧ ∀ i, i < k → v i ≠ v k := by
  have main : ∀ m, m < n → ∃ k, k < m + 1 ∧
      (List.range (m + 1)).foldl (fun (a : E × Int) (i : Nat) => (best (v i) a.1, if better (v i) a.1 then (i : Int) else a.2)) (init, 0) = (v k, (k : Int)) ∧
      (∀ i, i < m + 1 → key (v i) ≤ key (v k)) ∧ ∀ i, i < k → v i ≠ v k := by
    intro m
    induction m with
    | zero =>
      intro _
      refine ⟨0, by omega, ?_, fun i hi => ?_, fun i hi => by omega⟩
      · have h0 := hv 0 hn
        rw [show List.range (0 + 1) = [0] from rfl, List.foldl_cons, List.foldl_nil, hb _ _ h0 hP]
        by_cases h : key init < key (v 0)
        · rw [if_pos h]; simp
        · rw [if_neg h]
          have : init = v 0 := inj _ _ hP h0 (le_antisymm (hi _ h0) (not_lt.1 h))
          rw [← this]; simp
      · have : i = 0 := by omega
        rw [this]
    | succ m ih =>
      intro hm
      obtain ⟨k, h1, h2, h3, h4⟩ := ih (by omega)
      have hk := hv k (by omega)
      have hm' := hv (m + 1) hm
      rw [List.range_succ, List.foldl_append, h2, List.foldl_cons, List.foldl_nil]
      simp only
      rw [hb _ _ hm' hk, ht _ _ hm' hk]
      by_cases h : key (v k) < key (v (m + 1))
      · refine ⟨m + 1, by omega, by rw [if_pos h, if_pos (by simpa using h)], fun i hi => ?_, fun i hi e => ?_⟩
        · by_cases hi' : i = m + 1
          · rw [hi']
          · exact le_trans (h3 i (by omega)) (le_of_lt h)
        · have := h3 i (by omega)
          rw [e] at this
          exact absurd h (not_lt.2 this)
      · refine ⟨k, by omega, by rw [if_neg h, if_neg (by simpa using h)], fun i hi => ?_, h4⟩
        by_cases hi' : i = m + 1
        · rw [hi']; exact not_lt.1 h
        · exact h3 i (by omega)
  obtain ⟨k, h1, h2, h3, h4⟩ := main (n - 1) (by omega)
  rw [show n - 1 + 1 = n by omega] at h1 h2 h3
  exact ⟨k, h1, h2, h3, h4⟩

/-- The best of the elements of a list. -/
theorem best_list {O : Type} [LinearOrder O] (key : E → O) (best : E → E → E) (init : E) (hb : ∀ a b, best a b = if key b < key a then a else b)
    (hi : ∀ e, key init ≤ key e) (inj : ∀ a b, key a = key b → a = b) (l : List E) (hl : l ≠ []) :
    l.foldl (fun a e => best e a) init ∈ l ∧ ∀ e ∈ l, key e ≤ key (l.foldl (fun a e => best e a) init) := by
  have main : ∀ (l : List E) (a : E), (l.foldl (fun a e => best e a) a = a ∨ l.foldl (fun a e => best e a) a ∈ l) ∧ key a ≤ key (l.foldl (fun a e => best e a) a) ∧
      ∀ e ∈ l, key e ≤ key (l.foldl (fun a e => best e a) a) := by
    intro l
    induction l with
    | nil => intro a; exact ⟨Or.inl rfl, le_refl _, by simp⟩
    | cons e l ih =>
      intro a
      obtain ⟨h1, h2, h3⟩ := ih (best e a)
      rw [List.foldl_cons]
      have hbe : (best e a = e ∨ best e a = a) ∧ key a ≤ key (best e a) ∧ key e ≤ key (best e a) := by
        rw [hb]
        by_cases h : key a < key e
        · rw [if_pos h]; exact ⟨Or.inl rfl, le_of_lt h, le_refl _⟩
        · rw [if_neg h]; exact ⟨Or.inr rfl, le_refl _, not_lt.1 h⟩
      refine ⟨?_, le_trans hbe.2.1 h2, fun e' he' => ?_⟩
      · rcases h1 with h1 | h1
        · rw [h1]
          rcases hbe.1 with h | h
          · right; rw [h]; simp
          · left; exact h
        · right; simp [h1]
      · rcases List.mem_cons.1 he' with rfl | he'
        · exact le_trans hbe.2.2 h2
        · exact h3 e' he'
  obtain ⟨h1, _, h3⟩ := main l init
  refine ⟨?_, h3⟩
  rcases h1 with h1 | h1
  · obtain ⟨e, he⟩ := List.exists_mem_of_ne_nil l hl
    have := h3 e he
    rw [h1] at this ⊢
    rw [inj _ _ (le_antisymm (hi e) this)]
    exact he
  · exact h1

end Verif.Red
