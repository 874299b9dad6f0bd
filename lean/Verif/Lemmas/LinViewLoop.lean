import Verif.Lemmas.LinView

namespace Verif.Lin

variable {E : Type}

/-! ## Sizes with an unknown one -/

/-- Sizes with `m` for the unknown ones. -/
def sub (m : Int) (xs : List Int) : List Int := xs.map fun x => if x = unknown then m else x

/-- How many are unknown. -/
def nu (xs : List Int) : Nat := xs.count unknown

/-- The sizes known are positive. -/
def Pos (xs : List Int) : Prop := ∀ x ∈ xs, x = unknown ∨ 1 ≤ x

theorem nu_nil : nu [] = 0 := rfl
theorem nu_cons (x : Int) (xs : List Int) : nu (x :: xs) = (if x = unknown then 1 else 0) + nu xs := by
  unfold nu
  rw [List.count_cons]
  simp only [beq_iff_eq]
  omega
theorem nu_append (a b : List Int) : nu (a ++ b) = nu a + nu b := List.count_append ..
theorem sub_append (m : Int) (a b : List Int) : sub m (a ++ b) = sub m a ++ sub m b := List.map_append ..
theorem Pos.tail {x : Int} {xs : List Int} (h : Pos (x :: xs)) : Pos xs := fun y hy => h y (by simp [hy])
theorem Pos.take {xs : List Int} (h : Pos xs) (k : Nat) : Pos (xs.take k) := fun y hy => h y (List.mem_of_mem_take hy)
theorem Pos.drop {xs : List Int} (h : Pos xs) (k : Nat) : Pos (xs.drop k) := fun y hy => h y (List.mem_of_mem_drop hy)

theorem sub_pos {m : Int} (hm : 1 ≤ m) : ∀ {xs : List Int}, Pos xs → 1 ≤ (sub m xs).prod := by
  intro xs
  induction xs with
  | nil => intro _; simp [sub]
  | cons x xs ih =>
    intro h
    have a := ih h.tail
    show 1 ≤ ((if x = unknown then m else x) :: sub m xs).prod
    rw [List.prod_cons]
    have : 1 ≤ (if x = unknown then m else x) := by
      by_cases hx : x = unknown
      · rw [if_pos hx]; exact hm
      · rw [if_neg hx]; exact (h x (by simp)).resolve_left hx
    have := Int.mul_pos (by omega : 0 < (if x = unknown then m else x)) (by omega : 0 < (sub m xs).prod)
    omega

theorem sub_static (m : Int) : ∀ {xs : List Int}, nu xs = 0 → sub m xs = xs := by
  intro xs
  induction xs with
  | nil => intro _; rfl
  | cons x xs ih =>
    intro h
    rw [nu_cons] at h
    by_cases hx : x = unknown
    · rw [if_pos hx] at h; omega
    · rw [if_neg hx] at h
      show (if x = unknown then m else x) :: sub m xs = _
      rw [if_neg hx, ih (by omega)]

theorem sub_mul (t m : Int) : ∀ (xs : List Int), (sub (t * m) xs).prod = t ^ nu xs * (sub m xs).prod := by
  intro xs
  induction xs with
  | nil => simp [sub, nu]
  | cons x xs ih =>
    show ((if x = unknown then t * m else x) :: sub (t * m) xs).prod = t ^ nu (x :: xs) * ((if x = unknown then m else x) :: sub m xs).prod
    rw [List.prod_cons, List.prod_cons, ih, nu_cons]
    by_cases hx : x = unknown
    · rw [if_pos hx, if_pos hx, if_pos hx, Nat.add_comm, pow_succ, Int.mul_assoc, Int.mul_assoc, Int.mul_left_comm m, Int.mul_left_comm t]
    · rw [if_neg hx, if_neg hx, if_neg hx, Nat.zero_add, Int.mul_left_comm]

theorem nu_take_drop (xs : List Int) (k : Nat) : nu xs = nu (xs.take k) + nu (xs.drop k) := by
  rw [← nu_append, List.take_append_drop]

theorem sub_take_drop (m : Int) (xs : List Int) (k : Nat) : (sub m xs).prod = (sub m (xs.take k)).prod * (sub m (xs.drop k)).prod := by
  rw [← List.prod_append, ← sub_append, List.take_append_drop]

theorem nu_mem {xs : List Int} (h : unknown ∈ xs) : nu xs ≠ 0 := by
  have := List.count_pos_iff.mpr h
  unfold nu
  omega

theorem mem_nu {xs : List Int} (h : nu xs ≠ 0) : unknown ∈ xs := List.count_pos_iff.mp (by unfold nu at h; omega)

/-! ## The helpers -/

/-- The first `a` of `xs` and the first `b` of `ys` make a group. -/
structure Matched (mx my : Int) (xs ys : List Int) (a b : Nat) : Prop where
  a1 : 1 ≤ a
  b1 : 1 ≤ b
  ax : a ≤ xs.length
  by_ : b ≤ ys.length
  nu : nu (xs.take a) = nu (ys.take b)
  prod : (sub mx (xs.take a)).prod = (sub my (ys.take b)).prod

theorem staticLoop_spec : ∀ (fuel : Nat) (xs ys : List Int) (tx ty : Int) (a b a' b' : Nat), staticLoop fuel xs ys tx ty a b = some (a', b') →
    ∃ k l, a' = a + k ∧ b' = b + l ∧ k ≤ xs.length ∧ l ≤ ys.length ∧ nu (xs.take k) = 0 ∧ nu (ys.take l) = 0 ∧
      tx * (xs.take k).prod = ty * (ys.take l).prod := by
  intro fuel
  induction fuel with
  | zero =>
    intro xs ys tx ty a b a' b' h
    unfold staticLoop at h
    by_cases hc : tx = ty
    · rw [if_pos hc] at h
      cases h
      exact ⟨0, 0, rfl, rfl, by simp, by simp, rfl, rfl, by simp [hc]⟩
    · rw [if_neg hc] at h; cases h
  | succ fuel ih =>
    intro xs ys tx ty a b a' b' h
    unfold staticLoop at h
    by_cases hc : tx = ty
    · rw [if_pos hc] at h
      cases h
      exact ⟨0, 0, rfl, rfl, by simp, by simp, rfl, rfl, by simp [hc]⟩
    · rw [if_neg hc] at h
      dsimp only at h
      by_cases hl : tx < ty
      · rw [if_pos hl] at h
        cases xs with
        | nil => cases h
        | cons x xs =>
          dsimp only at h
          by_cases hx : x = unknown
          · rw [if_pos hx] at h; cases h
          · rw [if_neg hx] at h
            obtain ⟨k, l, h1, h2, h3, h4, h5, h6, h7⟩ := ih _ _ _ _ _ _ _ _ h
            refine ⟨k + 1, l, by omega, h2, by simpa using h3, h4, ?_, h6, ?_⟩
            · rw [List.take_succ_cons, nu_cons, if_neg hx, h5]
            · rw [List.take_succ_cons, List.prod_cons, ← Int.mul_assoc, h7]
      · rw [if_neg hl] at h
        cases ys with
        | nil => cases h
        | cons y ys =>
          dsimp only at h
          by_cases hy : y = unknown
          · rw [if_pos hy] at h; cases h
          · rw [if_neg hy] at h
            obtain ⟨k, l, h1, h2, h3, h4, h5, h6, h7⟩ := ih _ _ _ _ _ _ _ _ h
            refine ⟨k, l + 1, h1, by omega, h3, by simpa using h4, h5, ?_, ?_⟩
            · rw [List.take_succ_cons, nu_cons, if_neg hy, h6]
            · rw [List.take_succ_cons, List.prod_cons, ← Int.mul_assoc, h7]

theorem mapStatic_spec (mx my : Int) {xs ys : List Int} {a b : Nat} (h : mapStatic xs ys = some (a, b)) : Matched mx my xs ys a b := by
  unfold mapStatic at h
  cases xs with
  | nil => cases h
  | cons x xs =>
    cases ys with
    | nil => cases h
    | cons y ys =>
      dsimp only at h
      by_cases hc : x = unknown ∨ y = unknown
      · rw [if_pos hc] at h; cases h
      · rw [if_neg hc] at h
        obtain ⟨k, l, h1, h2, h3, h4, h5, h6, h7⟩ := staticLoop_spec _ _ _ _ _ _ _ _ _ h
        subst h1 h2
        have hx : nu ((x :: xs).take (1 + k)) = 0 := by
          rw [Nat.add_comm, List.take_succ_cons, nu_cons, if_neg (fun e => hc (Or.inl e)), h5]
        have hy : nu ((y :: ys).take (1 + l)) = 0 := by
          rw [Nat.add_comm, List.take_succ_cons, nu_cons, if_neg (fun e => hc (Or.inr e)), h6]
        refine ⟨by omega, by omega, by simp; omega, by simp; omega, by rw [hx, hy], ?_⟩
        rw [sub_static _ hx, sub_static _ hy, Nat.add_comm, List.take_succ_cons, Nat.add_comm, List.take_succ_cons, List.prod_cons, List.prod_cons, h7]

theorem nu_pos_prod {xs : List Int} (h : nu xs = 0) (hp : Pos xs) : 1 ≤ xs.prod := by
  have := sub_pos (m := 1) (by omega) hp
  rwa [sub_static _ h] at this

theorem staticLoop_complete : ∀ (fuel : Nat) (xs ys : List Int) (tx ty : Int) (a b : Nat), Pos xs → Pos ys → nu xs = 0 → nu ys = 0 → 1 ≤ tx → 1 ≤ ty →
    tx * xs.prod = ty * ys.prod → xs.length + ys.length ≤ fuel → ∃ r, staticLoop fuel xs ys tx ty a b = some r := by
  intro fuel
  induction fuel with
  | zero =>
    intro xs ys tx ty a b px py nx ny h1 h2 h3 h4
    have hx : xs = [] := List.eq_nil_of_length_eq_zero (by omega)
    have hy : ys = [] := List.eq_nil_of_length_eq_zero (by omega)
    subst hx hy
    unfold staticLoop
    rw [if_pos (by simpa using h3)]
    exact ⟨_, rfl⟩
  | succ fuel ih =>
    intro xs ys tx ty a b px py nx ny h1 h2 h3 h4
    unfold staticLoop
    by_cases hc : tx = ty
    · rw [if_pos hc]; exact ⟨_, rfl⟩
    · rw [if_neg hc]
      dsimp only
      by_cases hl : tx < ty
      · rw [if_pos hl]
        cases xs with
        | nil =>
          exfalso
          have := nu_pos_prod ny py
          have : ty * 1 ≤ ty * ys.prod := Int.mul_le_mul_of_nonneg_left this (by omega)
          simp at h3
          omega
        | cons x xs =>
          rw [nu_cons] at nx
          have hx : x ≠ unknown := by
            intro hx
            rw [if_pos hx] at nx
            omega
          dsimp only
          rw [if_neg hx]
          rw [if_neg hx] at nx
          have := (px x (by simp)).resolve_left hx
          exact ih _ _ _ _ _ _ px.tail py (by omega) ny (by have := Int.mul_pos (a := tx) (b := x) (by omega) (by omega); omega) h2
            (by rw [List.prod_cons, ← Int.mul_assoc] at h3; exact h3) (by simp at h4; omega)
      · rw [if_neg hl]
        cases ys with
        | nil =>
          exfalso
          have := nu_pos_prod nx px
          have : tx * 1 ≤ tx * xs.prod := Int.mul_le_mul_of_nonneg_left this (by omega)
          simp at h3
          omega
        | cons y ys =>
          rw [nu_cons] at ny
          have hy : y ≠ unknown := by
            intro hy
            rw [if_pos hy] at ny
            omega
          dsimp only
          rw [if_neg hy]
          rw [if_neg hy] at ny
          have := (py y (by simp)).resolve_left hy
          exact ih _ _ _ _ _ _ px py.tail nx (by omega) h1 (by have := Int.mul_pos (a := ty) (b := y) (by omega) (by omega); omega)
            (by rw [List.prod_cons, ← Int.mul_assoc] at h3; exact h3) (by simp at h4; omega)

theorem mapStatic_complete {xs ys : List Int} (px : Pos xs) (py : Pos ys) (nx : nu xs = 0) (ny : nu ys = 0) (hx : xs ≠ []) (hy : ys ≠ [])
    (h : xs.prod = ys.prod) : ∃ a b, mapStatic xs ys = some (a, b) := by
  cases xs with
  | nil => exact absurd rfl hx
  | cons x xs =>
    cases ys with
    | nil => exact absurd rfl hy
    | cons y ys =>
      unfold mapStatic
      dsimp only
      rw [nu_cons] at nx ny
      have h1 : x ≠ unknown := by
        intro h1
        rw [if_pos h1] at nx
        omega
      have h2 : y ≠ unknown := by
        intro h2
        rw [if_pos h2] at ny
        omega
      rw [if_neg h1] at nx
      rw [if_neg h2] at ny
      rw [if_neg (by rintro (h | h) <;> contradiction)]
      obtain ⟨r, hr⟩ := staticLoop_complete (xs.length + ys.length) xs ys x y 1 1 px.tail py.tail (by omega) (by omega)
        ((px x (by simp)).resolve_left h1) ((py y (by simp)).resolve_left h2) (by rwa [List.prod_cons, List.prod_cons] at h) (Nat.le_refl _)
      exact ⟨r.1, r.2, hr⟩

theorem parallelLoop_spec (mx my : Int) : ∀ (fuel : Nat) (xs ys : List Int) (tx ty : Int) (hx hy : Bool) (a b a' b' : Nat),
    parallelLoop mx my fuel xs ys tx ty hx hy a b = some (a', b') →
    ∃ k l, a' = a + k ∧ b' = b + l ∧ k ≤ xs.length ∧ l ≤ ys.length ∧ hx.toNat + nu (xs.take k) = hy.toNat + nu (ys.take l) ∧
      tx * (sub mx (xs.take k)).prod = ty * (sub my (ys.take l)).prod := by
  intro fuel
  induction fuel with
  | zero =>
    intro xs ys tx ty hx hy a b a' b' h
    unfold parallelLoop at h
    by_cases hc : ¬(tx ≠ ty ∨ hx ≠ hy)
    · rw [if_pos hc] at h
      cases h
      have h1 : tx = ty := Classical.byContradiction fun h => hc (Or.inl h)
      have h2 : hx = hy := Classical.byContradiction fun h => hc (Or.inr h)
      exact ⟨0, 0, rfl, rfl, by simp, by simp, by simp [h2, nu], by simp [sub, h1]⟩
    · rw [if_neg hc] at h; cases h
  | succ fuel ih =>
    intro xs ys tx ty hx hy a b a' b' h
    unfold parallelLoop at h
    by_cases hc : ¬(tx ≠ ty ∨ hx ≠ hy)
    · rw [if_pos hc] at h
      cases h
      have h1 : tx = ty := Classical.byContradiction fun h => hc (Or.inl h)
      have h2 : hx = hy := Classical.byContradiction fun h => hc (Or.inr h)
      exact ⟨0, 0, rfl, rfl, by simp, by simp, by simp [h2, nu], by simp [sub, h1]⟩
    · rw [if_neg hc] at h
      dsimp only at h
      by_cases hl : (hx = false ∧ hy = true) ∨ tx < ty
      · rw [if_pos hl] at h
        cases xs with
        | nil => cases h
        | cons x xs =>
          dsimp only at h
          by_cases hu : x = unknown
          · rw [if_pos hu] at h
            cases hx with
            | true => cases h
            | false =>
              obtain ⟨k, l, h1, h2, h3, h4, h5, h6⟩ := ih _ _ _ _ _ _ _ _ _ _ h
              refine ⟨k + 1, l, by omega, h2, by simpa using h3, h4, ?_, ?_⟩
              · rw [List.take_succ_cons, nu_cons, if_pos hu, ← h5]; simp
              · rw [List.take_succ_cons, ← h6]
                show tx * ((if x = unknown then mx else x) :: sub mx (xs.take k)).prod = _
                rw [if_pos hu, List.prod_cons, Int.mul_assoc]
          · rw [if_neg hu] at h
            obtain ⟨k, l, h1, h2, h3, h4, h5, h6⟩ := ih _ _ _ _ _ _ _ _ _ _ h
            refine ⟨k + 1, l, by omega, h2, by simpa using h3, h4, ?_, ?_⟩
            · rw [List.take_succ_cons, nu_cons, if_neg hu, ← h5]; simp
            · rw [List.take_succ_cons, ← h6]
              show tx * ((if x = unknown then mx else x) :: sub mx (xs.take k)).prod = _
              rw [if_neg hu, List.prod_cons, Int.mul_assoc]
      · rw [if_neg hl] at h
        cases ys with
        | nil => cases h
        | cons y ys =>
          dsimp only at h
          by_cases hu : y = unknown
          · rw [if_pos hu] at h
            cases hy with
            | true => cases h
            | false =>
              obtain ⟨k, l, h1, h2, h3, h4, h5, h6⟩ := ih _ _ _ _ _ _ _ _ _ _ h
              refine ⟨k, l + 1, h1, by omega, h3, by simpa using h4, ?_, ?_⟩
              · rw [List.take_succ_cons, nu_cons, if_pos hu, h5]; simp
              · rw [List.take_succ_cons, h6]
                show _ = ty * ((if y = unknown then my else y) :: sub my (ys.take l)).prod
                rw [if_pos hu, List.prod_cons, Int.mul_assoc]
          · rw [if_neg hu] at h
            obtain ⟨k, l, h1, h2, h3, h4, h5, h6⟩ := ih _ _ _ _ _ _ _ _ _ _ h
            refine ⟨k, l + 1, h1, by omega, h3, by simpa using h4, ?_, ?_⟩
            · rw [List.take_succ_cons, nu_cons, if_neg hu, h5]; simp
            · rw [List.take_succ_cons, h6]
              show _ = ty * ((if y = unknown then my else y) :: sub my (ys.take l)).prod
              rw [if_neg hu, List.prod_cons, Int.mul_assoc]

theorem mapParallel_spec {mx my : Int} {xs ys : List Int} {a b : Nat} (h : mapParallel xs ys mx my = some (a, b)) : Matched mx my xs ys a b := by
  unfold mapParallel at h
  by_cases hc : xs.count unknown > 1 ∨ ys.count unknown > 1
  · rw [if_pos hc] at h; cases h
  · rw [if_neg hc] at h
    cases xs with
    | nil => cases h
    | cons x xs =>
      cases ys with
      | nil => cases h
      | cons y ys =>
        dsimp only at h
        obtain ⟨k, l, h1, h2, h3, h4, h5, h6⟩ := parallelLoop_spec _ _ _ _ _ _ _ _ _ _ _ _ _ h
        subst h1 h2
        refine ⟨by omega, by omega, by simp; omega, by simp; omega, ?_, ?_⟩
        · rw [Nat.add_comm, List.take_succ_cons, Nat.add_comm, List.take_succ_cons, nu_cons, nu_cons]
          by_cases ha : x = unknown <;> by_cases hb : y = unknown <;> simp [ha, hb] at h5 ⊢ <;> omega
        · rw [Nat.add_comm, List.take_succ_cons, Nat.add_comm, List.take_succ_cons]
          show ((if x = unknown then mx else x) :: sub mx (xs.take k)).prod = ((if y = unknown then my else y) :: sub my (ys.take l)).prod
          rw [List.prod_cons, List.prod_cons, h6]

theorem parallelLoop_complete {mx my : Int} (hmx : 1 ≤ mx) (hmy : 1 ≤ my) : ∀ (fuel : Nat) (xs ys : List Int) (tx ty : Int) (hx hy : Bool) (a b : Nat),
    Pos xs → Pos ys → hx.toNat + nu xs ≤ 1 → hx.toNat + nu xs = hy.toNat + nu ys → 1 ≤ tx → 1 ≤ ty →
    tx * (sub mx xs).prod = ty * (sub my ys).prod → xs.length + ys.length ≤ fuel → ∃ r, parallelLoop mx my fuel xs ys tx ty hx hy a b = some r := by
  intro fuel
  induction fuel with
  | zero =>
    intro xs ys tx ty hx hy a b px py nx ny h1 h2 h3 h4
    have ex : xs = [] := List.eq_nil_of_length_eq_zero (by omega)
    have ey : ys = [] := List.eq_nil_of_length_eq_zero (by omega)
    subst ex ey
    unfold parallelLoop
    have : hx = hy := by cases hx <;> cases hy <;> simp [nu] at ny ⊢
    rw [if_pos (by simp [sub] at h3; simp [h3, this])]
    exact ⟨_, rfl⟩
  | succ fuel ih =>
    intro xs ys tx ty hx hy a b px py nx ny h1 h2 h3 h4
    unfold parallelLoop
    by_cases hc : ¬(tx ≠ ty ∨ hx ≠ hy)
    · rw [if_pos hc]; exact ⟨_, rfl⟩
    · rw [if_neg hc]
      have hc : tx ≠ ty ∨ hx ≠ hy := Classical.byContradiction hc
      dsimp only
      by_cases hl : (hx = false ∧ hy = true) ∨ tx < ty
      · rw [if_pos hl]
        cases xs with
        | nil =>
          exfalso
          rcases hl with ⟨e1, e2⟩ | hl
          · subst e1 e2; simp [nu] at ny; omega
          · have := sub_pos hmy py
            have : ty * 1 ≤ ty * (sub my ys).prod := Int.mul_le_mul_of_nonneg_left this (by omega)
            simp [sub] at h3 this
            omega
        | cons x xs =>
          rw [nu_cons] at nx ny
          dsimp only
          replace h3 : tx * ((if x = unknown then mx else x) :: sub mx xs).prod = ty * (sub my ys).prod := h3
          rw [List.prod_cons, ← Int.mul_assoc] at h3
          by_cases hu : x = unknown
          · rw [if_pos hu] at nx ny h3 ⊢
            cases hx with
            | true => simp at nx
            | false =>
              exact ih _ _ _ _ _ _ _ _ px.tail py (by simp at nx ⊢; omega) (by simp at ny ⊢; omega)
                (by have := Int.mul_pos (a := tx) (b := mx) (by omega) (by omega); omega) h2 h3 (by simp at h4; omega)
          · rw [if_neg hu] at nx ny h3 ⊢
            have := (px x (by simp)).resolve_left hu
            exact ih _ _ _ _ _ _ _ _ px.tail py (by omega) (by omega)
              (by have := Int.mul_pos (a := tx) (b := x) (by omega) (by omega); omega) h2 h3 (by simp at h4; omega)
      · rw [if_neg hl]
        cases ys with
        | nil =>
          exfalso
          have := sub_pos hmx px
          have : tx * 1 ≤ tx * (sub mx xs).prod := Int.mul_le_mul_of_nonneg_left this (by omega)
          simp [sub] at h3 this
          have hne : tx ≠ ty ∨ (hx = true ∧ hy = false) := by
            cases hx <;> cases hy <;> simp at hc hl ⊢ <;> try exact hc
          rcases hne with hne | ⟨e1, e2⟩
          · have : ¬ tx < ty := fun h => hl (Or.inr h)
            omega
          · subst e1 e2; simp [nu] at ny
        | cons y ys =>
          rw [nu_cons] at ny
          dsimp only
          replace h3 : tx * (sub mx xs).prod = ty * ((if y = unknown then my else y) :: sub my ys).prod := h3
          rw [List.prod_cons, ← Int.mul_assoc] at h3
          by_cases hu : y = unknown
          · rw [if_pos hu] at ny h3 ⊢
            cases hy with
            | true => simp at ny; omega
            | false =>
              exact ih _ _ _ _ _ _ _ _ px py.tail nx (by simp at ny ⊢; omega) h1
                (by have := Int.mul_pos (a := ty) (b := my) (by omega) (by omega); omega) h3 (by simp at h4; omega)
          · rw [if_neg hu] at ny h3 ⊢
            have := (py y (by simp)).resolve_left hu
            exact ih _ _ _ _ _ _ _ _ px py.tail nx (by omega) h1
              (by have := Int.mul_pos (a := ty) (b := y) (by omega) (by omega); omega) h3 (by simp at h4; omega)

/-- If no unknown size is reached, the loop goes the same way as the static one. -/
theorem parallelLoop_static (mx my : Int) : ∀ (fuel : Nat) (xs ys : List Int) (tx ty : Int) (a b a' b' : Nat),
    parallelLoop mx my fuel xs ys tx ty false false a b = some (a', b') →
    staticLoop fuel xs ys tx ty a b = some (a', b') ∨ ∃ k, a' = a + k ∧ nu (xs.take k) ≠ 0 := by
  intro fuel
  induction fuel with
  | zero =>
    intro xs ys tx ty a b a' b' h
    unfold parallelLoop at h
    unfold staticLoop
    by_cases hc : tx = ty
    · rw [if_pos (by simpa using hc)] at h
      rw [if_pos hc]
      exact Or.inl h
    · rw [if_neg (by simpa using hc)] at h
      cases h
  | succ fuel ih =>
    intro xs ys tx ty a b a' b' h
    unfold parallelLoop at h
    unfold staticLoop
    by_cases hc : tx = ty
    · rw [if_pos (by simpa using hc)] at h
      rw [if_pos hc]
      exact Or.inl h
    · rw [if_neg (by simpa using hc)] at h
      rw [if_neg hc]
      dsimp only at h ⊢
      by_cases hl : tx < ty
      · rw [if_pos (Or.inr hl)] at h
        rw [if_pos hl]
        cases xs with
        | nil => cases h
        | cons x xs =>
          dsimp only at h ⊢
          by_cases hx : x = unknown
          · rw [if_pos hx, if_neg (by simp)] at h
            obtain ⟨k, l, h1, -⟩ := parallelLoop_spec mx my _ _ _ _ _ _ _ _ _ _ _ h
            refine Or.inr ⟨k + 1, by omega, ?_⟩
            rw [List.take_succ_cons, nu_cons, if_pos hx]
            omega
          · rw [if_neg hx] at h ⊢
            rcases ih _ _ _ _ _ _ _ _ h with e | ⟨k, h1, h2⟩
            · exact Or.inl e
            · refine Or.inr ⟨k + 1, by omega, ?_⟩
              rw [List.take_succ_cons, nu_cons, if_neg hx]
              omega
      · rw [if_neg (by simpa using hl)] at h
        rw [if_neg hl]
        cases ys with
        | nil => cases h
        | cons y ys =>
          dsimp only at h ⊢
          by_cases hy : y = unknown
          · rw [if_pos hy, if_neg (by simp)] at h
            obtain ⟨k, l, h1, h2, h3, h4, h5, -⟩ := parallelLoop_spec mx my _ _ _ _ _ _ _ _ _ _ _ h
            refine Or.inr ⟨k, by omega, ?_⟩
            simp at h5
            omega
          · rw [if_neg hy] at h ⊢
            exact ih _ _ _ _ _ _ _ _ h

theorem mapParallel_uses {mx my : Int} {xs ys : List Int} {a b : Nat} (h : mapParallel xs ys mx my = some (a, b)) (hs : mapStatic xs ys = none) :
    nu (xs.take a) ≠ 0 := by
  unfold mapParallel at h
  by_cases hc : xs.count unknown > 1 ∨ ys.count unknown > 1
  · rw [if_pos hc] at h; cases h
  · rw [if_neg hc] at h
    cases xs with
    | nil => cases h
    | cons x xs =>
      cases ys with
      | nil => cases h
      | cons y ys =>
        dsimp only at h
        by_cases hx : x = unknown
        · obtain ⟨k, l, h1, -⟩ := parallelLoop_spec mx my _ _ _ _ _ _ _ _ _ _ _ h
          rw [h1, Nat.add_comm, List.take_succ_cons, nu_cons, if_pos hx]
          omega
        · by_cases hy : y = unknown
          · obtain ⟨k, l, h1, h2, h3, h4, h5, -⟩ := parallelLoop_spec mx my _ _ _ _ _ _ _ _ _ _ _ h
            rw [h1, Nat.add_comm, List.take_succ_cons, nu_cons, if_neg hx]
            simp [hx, hy] at h5
            omega
          · rw [if_neg hx, if_neg hy, decide_eq_false hx, decide_eq_false hy] at h
            unfold mapStatic at hs
            dsimp only at hs
            rw [if_neg (by simp [hx, hy])] at hs
            rcases parallelLoop_static mx my _ _ _ _ _ _ _ _ _ h with e | ⟨k, h1, h2⟩
            · rw [hs] at e; cases e
            · rw [h1, Nat.add_comm, List.take_succ_cons, nu_cons, if_neg hx]
              omega

theorem mapParallel_complete {mx my : Int} (hmx : 1 ≤ mx) (hmy : 1 ≤ my) {xs ys : List Int} (px : Pos xs) (py : Pos ys) (n1 : nu xs ≤ 1)
    (n2 : nu xs = nu ys) (hx : xs ≠ []) (hy : ys ≠ []) (h : (sub mx xs).prod = (sub my ys).prod) : ∃ a b, mapParallel xs ys mx my = some (a, b) := by
  unfold mapParallel
  rw [if_neg (by have : nu ys ≤ 1 := (by omega); unfold nu at n1 this; omega)]
  cases xs with
  | nil => exact absurd rfl hx
  | cons x xs =>
    cases ys with
    | nil => exact absurd rfl hy
    | cons y ys =>
      dsimp only
      rw [nu_cons] at n1
      rw [nu_cons, nu_cons] at n2
      have hpos : ∀ {m : Int}, 1 ≤ m → ∀ {z : Int} {zs : List Int}, Pos (z :: zs) → 1 ≤ (if z = unknown then m else z) := by
        intro m hm z zs hz
        by_cases hu : z = unknown
        · rw [if_pos hu]; exact hm
        · rw [if_neg hu]; exact (hz z (by simp)).resolve_left hu
      have hnat : ∀ z : Int, (decide (z = unknown)).toNat = if z = unknown then 1 else 0 := by
        intro z
        by_cases hu : z = unknown <;> simp [hu]
      obtain ⟨r, hr⟩ := parallelLoop_complete hmx hmy (xs.length + ys.length) xs ys _ _ (decide (x = unknown)) (decide (y = unknown)) 1 1 px.tail py.tail
        (by rw [hnat]; exact n1) (by rw [hnat, hnat]; exact n2) (hpos hmx px) (hpos hmy py)
        (by
          replace h : ((if x = unknown then mx else x) :: sub mx xs).prod = ((if y = unknown then my else y) :: sub my ys).prod := h
          rwa [List.prod_cons, List.prod_cons] at h) (Nat.le_refl _)
      exact ⟨r.1, r.2, hr⟩

theorem mapAll_spec {xs ys : List Int} {a b : Nat} (h : mapAll xs ys = some (a, b)) :
    a = xs.length ∧ b = ys.length ∧ 1 ≤ a ∧ 1 ≤ b ∧ (nu xs = 0 → nu ys = 0 → xs.prod = ys.prod) := by
  unfold mapAll at h
  by_cases h0 : (xs.isEmpty || ys.isEmpty) = true
  · rw [if_pos h0] at h; cases h
  · rw [if_neg h0] at h
    simp only [Bool.or_eq_true, List.isEmpty_iff, not_or] at h0
    have hx : 1 ≤ xs.length := List.length_pos_iff.mpr h0.1
    have hy : 1 ≤ ys.length := List.length_pos_iff.mpr h0.2
    have hval : ∀ (n : Int) (l : List Int), validReduction n l = true → nu [n] = 0 → nu l = 0 → n = l.prod := by
      intro n l hv hn hl
      unfold validReduction at hv
      simp only [Bool.or_eq_true, decide_eq_true_eq] at hv
      rcases hv with (hm | hm) | hm
      · exact absurd hl (nu_mem hm)
      · subst hm; simp [nu] at hn
      · exact hm.symm
    by_cases h1 : xs.length = 1
    · rw [if_pos h1] at h
      by_cases hv : validReduction (xs.getD 0 0) ys = true
      · rw [if_pos hv] at h
        cases h
        refine ⟨h1.symm, rfl, Nat.le_refl 1, hy, fun n1 n2 => ?_⟩
        match xs, h1 with
        | [x], _ => simpa using hval x ys hv n1 n2
      · rw [if_neg hv] at h; cases h
    · rw [if_neg h1] at h
      by_cases h2 : ys.length = 1
      · rw [if_pos h2] at h
        by_cases hv : validReduction (ys.getD 0 0) xs = true
        · rw [if_pos hv] at h
          cases h
          refine ⟨rfl, h2.symm, hx, Nat.le_refl 1, fun n1 n2 => ?_⟩
          match ys, h2 with
          | [y], _ => simpa using (hval y xs hv n2 n1).symm
        · rw [if_neg hv] at h; cases h
      · rw [if_neg h2] at h; cases h

theorem adjustSlices_eq {xs ys : List Int} (h : nu xs = nu ys) : adjustSlices xs ys = some (xs, ys) := by
  have hc : calculateSingle xs ys = some (xs, ys) := by
    unfold calculateSingle
    split
    · rfl
    · rw [if_pos (by unfold nu at h; omega)]
  unfold adjustSlices
  rw [hc, Option.map_some]
  congr 1
  dsimp only
  by_cases h1 : xs.length = 1 ∧ unknown ∈ ys
  · rw [if_pos h1]
    have : nu xs ≠ 0 := by rw [h]; exact nu_mem h1.2
    have := mem_nu this
    match xs, h1.1 with
    | [x], _ =>
      simp at this
      rw [this]
  · rw [if_neg h1]
    by_cases h2 : ys.length = 1 ∧ unknown ∈ xs
    · rw [if_pos h2]
      have : nu ys ≠ 0 := by rw [← h]; exact nu_mem h2.2
      have := mem_nu this
      match ys, h2.1 with
      | [y], _ =>
        simp at this
        rw [this]
    · rw [if_neg h2]

end Verif.Lin
