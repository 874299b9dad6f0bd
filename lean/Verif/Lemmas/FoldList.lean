import Verif.Spec.FoldList

namespace Verif.Fold

theorem fixed_eq {g : LCtx} {l : V} {es : List V} (h : g.fixed l = some es) :
    g.list l = some es ∧ g.mutated l = false := by
  unfold LCtx.fixed at h
  split at h
  · cases h
  · rename_i hm; exact ⟨h, by simpa using hm⟩

theorem mapM_const {k : V → Option Int} {ρ : V → Int} (h : ∀ v c, k v = some c → ρ v = c) :
    ∀ {es : List V} {xs : List Int}, es.mapM k = some xs → xs = es.map ρ
  | [], xs, e => by simpa using e.symm
  | v :: es, xs, e => by
    rw [List.mapM_cons] at e
    cases ev : k v with
    | none => simp [ev] at e
    | some c =>
      cases er : es.mapM k with
      | none => simp [ev, er] at e
      | some r =>
        simp [ev, er] at e
        rw [← e, List.map_cons, h v c ev, mapM_const h er]

theorem minElement_spec (x : Int) (xs : List Int) :
    xs.foldl min x ∈ x :: xs ∧ ∀ y ∈ x :: xs, xs.foldl min x ≤ y := by
  induction xs generalizing x with
  | nil => simp
  | cons z zs ih =>
    obtain ⟨h1, h2⟩ := ih (min x z)
    rw [List.foldl_cons]
    refine ⟨?_, ?_⟩
    · rcases List.mem_cons.1 h1 with h | h
      · rw [h]
        rcases min_choice x z with e | e <;> rw [e] <;> simp
      · simp [h]
    · have h0 := h2 _ List.mem_cons_self
      intro y hy
      simp only [List.mem_cons] at hy
      rcases hy with rfl | rfl | hy
      · exact le_trans h0 (min_le_left _ _)
      · exact le_trans h0 (min_le_right _ _)
      · exact h2 y (List.mem_cons_of_mem _ hy)

theorem allBoolLoop_spec {kb : V → Option Bool} {β : V → Bool} (h : ∀ v c, kb v = some c → β v = c) (es : List V)
    (ac : Bool) :
    (∀ b, allBoolLoop kb es ac = some b → b = (es.map β).all id)
      ∧ (ac = true → (∀ e ∈ es, (kb e).isSome) → (allBoolLoop kb es ac).isSome)
      ∧ ((∃ e ∈ es, kb e = some false) → allBoolLoop kb es ac = some false) := by
  induction es generalizing ac with
  | nil =>
    refine ⟨fun b e => ?_, fun e _ => by simp [allBoolLoop, e], by simp⟩
    unfold allBoolLoop at e
    split at e
    · simpa using e.symm
    · cases e
  | cons v es ih =>
    unfold allBoolLoop
    cases ev : kb v with
    | none =>
      obtain ⟨h1, h2, h3⟩ := ih false
      refine ⟨fun b e => ?_, fun _ hs => by simpa [ev] using hs v (by simp), fun hs => ?_⟩
      · dsimp only at e
        have hb : b = false := by
          cases b
          · rfl
          · exfalso
            clear h1 h2 h3 ih
            induction es with
            | nil => simp [allBoolLoop] at e
            | cons w ws ihw =>
              unfold allBoolLoop at e
              cases ew : kb w with
              | none => rw [ew] at e; exact ihw e
              | some c => cases c <;> simp only [ew] at e <;> first | exact ihw e | cases e
        have := h1 b e
        subst hb
        rw [List.map_cons, List.all_cons, ← this]
        simp
      · obtain ⟨e, he, hk⟩ := hs
        rcases List.mem_cons.1 he with rfl | he
        · rw [ev] at hk; cases hk
        · exact h3 ⟨e, he, hk⟩
    | some c =>
      have hv := h v c ev
      cases c with
      | false =>
        refine ⟨fun b e => ?_, fun _ _ => rfl, fun _ => rfl⟩
        dsimp only at e
        injection e with e
        simp [← e, hv]
      | true =>
        obtain ⟨h1, h2, h3⟩ := ih ac
        refine ⟨fun b e => ?_, fun hac hs => h2 hac fun e he => hs e (List.mem_cons_of_mem _ he), fun hs => ?_⟩
        · rw [List.map_cons, List.all_cons, ← h1 b e]
          simp [hv]
        · obtain ⟨e, he, hk⟩ := hs
          rcases List.mem_cons.1 he with rfl | he
          · rw [ev] at hk; cases hk
          · exact h3 ⟨e, he, hk⟩

/-! ## Slices -/

/-- Positions at or after `i`, before `e`, at a multiple of `step` from `i`. -/
def from_ (i e step : Int) (j : Nat) : Bool := decide (i ≤ j ∧ (j : Int) < e ∧ step ∣ ((j : Int) - i))

theorem range_split {i n : Nat} (h : i < n) : List.range n = List.range i ++ i :: List.range' (i + 1) (n - i - 1) := by
  rw [List.range_eq_range', List.range_eq_range']
  have e : n = i + ((n - i - 1) + 1) := by omega
  conv_lhs => rw [e, ← List.range'_append_1]
  rw [List.range'_succ]
  simp

theorem filter_from_cons {i e step : Int} {n : Nat} (hi : 0 ≤ i) (hie : i < e) (hen : e ≤ n) (hs : 0 < step) :
    (List.range n).filter (from_ i e step) = i.toNat :: (List.range n).filter (from_ (i + step) e step) := by
  obtain ⟨m, rfl⟩ : ∃ m : Nat, i = m := ⟨i.toNat, by omega⟩
  have hm : m < n := by omega
  have hlow : ∀ (x : Int), (m : Int) ≤ x → (List.range m).filter (from_ x e step) = [] := by
    intro x hx
    rw [List.filter_eq_nil_iff]
    intro j hj
    have := List.mem_range.1 hj
    simp only [from_, decide_eq_true_eq]
    omega
  have hhigh : (List.range' (m + 1) (n - m - 1)).filter (from_ m e step)
      = (List.range' (m + 1) (n - m - 1)).filter (from_ (m + step) e step) := by
    apply List.filter_congr
    intro j hj
    have hj := (List.mem_range'_1.1 hj).1
    simp only [from_, decide_eq_decide]
    have hd : step ∣ (j : Int) - (m + step) ↔ step ∣ (j : Int) - m := by
      rw [show (j : Int) - (m + step) = ((j : Int) - m) - step by omega]
      exact ⟨fun h => by simpa using Int.dvd_add h (Int.dvd_refl step), fun h => Int.dvd_sub h (Int.dvd_refl step)⟩
    rw [hd]
    constructor
    · rintro ⟨_, h2, h3⟩
      have := Int.le_of_dvd (by omega) h3
      exact ⟨by omega, h2, h3⟩
    · rintro ⟨h1, h2, h3⟩
      exact ⟨by omega, h2, h3⟩
  have hself : from_ m e step m = true := by simp [from_, hie]
  have hself' : from_ (m + step) e step m = false := by
    simp only [from_, decide_eq_false_iff_not]
    omega
  rw [range_split hm, List.filter_append, List.filter_append, hlow _ le_rfl, hlow _ (by omega), List.filter_cons,
    List.filter_cons, hself, hself', hhigh]
  simp

theorem sliceLoop_eq (es : List V) (i e step : Int) (hi : 0 ≤ i) (he : e ≤ es.length) (hs : 0 < step) :
    sliceLoop es i e step = some (((List.range es.length).filter (from_ i e step)).filterMap (es[·]?)) := by
  induction hn : (e - i).toNat using Nat.strongRecOn generalizing i with
  | ind n ih =>
    rw [sliceLoop]
    by_cases h : i < e
    · have hlt : i.toNat < es.length := by omega
      rw [if_pos h, dif_pos hs, ih _ (by omega) (i + step) (by omega) rfl, filter_from_cons hi h he hs]
      simp [List.getElem?_eq_getElem hlt]
    · rw [if_neg h]
      have : (List.range es.length).filter (from_ i e step) = [] := by
        rw [List.filter_eq_nil_iff]
        intro j hj
        simp only [from_, decide_eq_true_eq]
        omega
      rw [this]; rfl

theorem sliceStart_nonneg (n : Nat) (s : Int) : 0 ≤ sliceStart n s := by
  unfold sliceStart
  dsimp only
  by_cases h : s ≥ 0
  · simp only [if_pos h]; exact h
  · simp only [if_neg h]; by_cases h' : s + n ≥ 0
    · rw [if_pos h']; exact h'
    · rw [if_neg h']

theorem sliceStart_position (n : Nat) (s : Int) :
    sliceStart n s = Shape.position n s ∨ (n : Int) ≤ sliceStart n s ∧ (n : Int) ≤ Shape.position n s := by
  unfold sliceStart Shape.position
  dsimp only
  by_cases h : s ≥ 0
  · simp only [if_pos h, if_neg (show ¬ s < 0 by omega)]; omega
  · simp only [if_neg h, if_pos (show s < 0 by omega)]; by_cases h' : s + n ≥ 0
    · rw [if_pos h']; omega
    · rw [if_neg h']; omega

theorem sliceEnd_le (n : Nat) (e : Int) : sliceEnd n e ≤ n := by
  unfold sliceEnd
  dsimp only
  by_cases h : (if e ≥ 0 then e else e + n) < n
  · rw [if_pos h]; omega
  · rw [if_neg h]

theorem lt_sliceEnd (n : Nat) (e : Int) (j : Nat) : (j : Int) < sliceEnd n e ↔ (j : Int) < Shape.position n e := by
  unfold sliceEnd Shape.position
  dsimp only
  by_cases h : e ≥ 0
  · simp only [if_pos h, if_neg (show ¬ e < 0 by omega)]
    by_cases h' : e < n
    · rw [if_pos h']; omega
    · rw [if_neg h']; omega
  · simp only [if_neg h, if_pos (show e < 0 by omega)]
    by_cases h' : e + n < n
    · rw [if_pos h']; omega
    · rw [if_neg h']; omega

theorem filterMap_map {α β : Type} (f : α → β) (l : List α) (is : List Nat) :
    is.filterMap ((l.map f)[·]?) = (is.filterMap (l[·]?)).map f := by
  induction is with
  | nil => rfl
  | cons i is ih =>
    rw [List.filterMap_cons, List.filterMap_cons, List.getElem?_map]
    cases l[i]? with
    | none => simpa using ih
    | some x => simpa using ih

theorem repeatLoop_map (f : V → Int) (es : List V) (n : Nat) :
    (repeatLoop es n).map f = (List.replicate n (es.map f)).flatten := by
  induction n with
  | zero => rfl
  | succ n ih => rw [repeatLoop, List.map_append, ih, List.replicate_succ', List.flatten_append]; simp

end Verif.Fold
