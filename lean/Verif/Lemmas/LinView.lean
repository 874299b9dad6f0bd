import Verif.Spec.LinView
import Verif.Lemmas.LinBroadcast

namespace Verif.Lin

variable {E : Type}

/-! ## Positions -/

theorem linearize_eq : ∀ (ns is : List Int), linearize ns is = position ns is := by
  intro ns
  induction ns with
  | nil => intro is; cases is <;> rfl
  | cons n ns ih =>
    intro is
    cases is with
    | nil => rfl
    | cons i is => rw [linearize, position, ih]

theorem prod_nonneg : ∀ {l : List Int}, (∀ n ∈ l, 0 ≤ n) → 0 ≤ l.prod := by
  intro l
  induction l with
  | nil => intro _; decide
  | cons a l ih =>
    intro h
    rw [List.prod_cons]
    exact Int.mul_nonneg (h a (by simp)) (ih fun n hn => h n (by simp [hn]))

theorem position_bound : ∀ {ns is : List Int}, inRange ns is = true → 0 ≤ position ns is ∧ position ns is < ns.prod := by
  intro ns
  induction ns with
  | nil => intro is h; cases is <;> simp [position]
  | cons n ns ih => intro is h; cases is with
    | nil => simp [inRange] at h
    | cons i is =>
      simp only [inRange, Bool.and_eq_true, decide_eq_true_eq] at h
      obtain ⟨⟨h0, h1⟩, h2⟩ := h
      obtain ⟨h3, h4⟩ := ih h2
      rw [position, List.prod_cons]
      have := Int.mul_nonneg h0 (by omega : 0 ≤ ns.prod)
      have h5 : (i + 1) * ns.prod ≤ n * ns.prod := Int.mul_le_mul_of_nonneg_right (by omega) (by omega)
      rw [Int.add_mul] at h5
      exact ⟨by omega, by omega⟩

theorem delinearize_position : ∀ {ns is : List Int}, inRange ns is = true → delinearize ns (position ns is) = is := by
  intro ns
  induction ns with
  | nil => intro is h; cases is with
    | nil => rfl
    | cons => simp [inRange] at h
  | cons n ns ih => intro is h; cases is with
    | nil => simp [inRange] at h
    | cons i is =>
      simp only [inRange, Bool.and_eq_true, decide_eq_true_eq] at h
      obtain ⟨h3, h4⟩ := position_bound h.2
      rw [position, delinearize, Int.mul_comm, Int.mul_add_ediv_left _ _ (by omega), Int.ediv_eq_zero_of_lt h3 h4,
        Int.mul_add_emod_self_left, Int.emod_eq_of_lt h3 h4, ih h.2, Int.add_zero]

theorem delinearize_spec : ∀ {ns : List Int}, (∀ n ∈ ns, 0 ≤ n) → ∀ {v : Int}, 0 ≤ v → v < ns.prod →
    inRange ns (delinearize ns v) = true ∧ position ns (delinearize ns v) = v := by
  intro ns
  induction ns with
  | nil => intro _ v h0 h1; simp [inRange, delinearize, position] at h1 ⊢; omega
  | cons n ns ih =>
    intro h v h0 h1
    rw [List.prod_cons] at h1
    have hp : 0 ≤ ns.prod := prod_nonneg fun m hm => h m (by simp [hm])
    have hp : 0 < ns.prod := by
      rcases Int.lt_or_eq_of_le hp with h' | h'
      · exact h'
      · rw [← h', Int.mul_zero] at h1; omega
    obtain ⟨a, b⟩ := ih (fun m hm => h m (by simp [hm])) (Int.emod_nonneg v (by omega)) (Int.emod_lt_of_pos v hp)
    refine ⟨?_, ?_⟩
    · simp only [delinearize, inRange, Bool.and_eq_true, decide_eq_true_eq]
      exact ⟨⟨Int.ediv_nonneg h0 (by omega), Int.ediv_lt_of_lt_mul hp h1⟩, a⟩
    · rw [delinearize, position, b, Int.mul_comm]
      exact Int.mul_ediv_add_emod v ns.prod

theorem position_append : ∀ (A a B b : List Int), A.length = a.length → position (A ++ B) (a ++ b) = position A a * B.prod + position B b := by
  intro A
  induction A with
  | nil => intro a B b h; cases a with
    | nil => simp [position]
    | cons => simp at h
  | cons n A ih => intro a B b h; cases a with
    | nil => simp at h
    | cons i a =>
      rw [List.cons_append, List.cons_append, position, position, ih a B b (by simpa using h), List.prod_append, Int.add_mul, Int.mul_assoc, Int.add_assoc]

theorem inRange_split : ∀ (A a B b : List Int), A.length = a.length → inRange (A ++ B) (a ++ b) = (inRange A a && inRange B b) := by
  intro A
  induction A with
  | nil => intro a B b h; cases a with
    | nil => simp [inRange]
    | cons => simp at h
  | cons n A ih => intro a B b h; cases a with
    | nil => simp at h
    | cons i a =>
      rw [List.cons_append, List.cons_append, inRange, inRange, ih a B b (by simpa using h), Bool.and_assoc]

theorem delinearize_length : ∀ (ns : List Int) (v : Int), (delinearize ns v).length = ns.length := by
  intro ns
  induction ns with
  | nil => intro v; rfl
  | cons n ns ih => intro v; simp [delinearize, ih]

theorem prod_flatten : ∀ (S : List (List Int)), (S.map List.prod).prod = S.flatten.prod := by
  intro S
  induction S with
  | nil => rfl
  | cons s S ih => rw [List.map_cons, List.prod_cons, List.flatten_cons, List.prod_append, ih]

/-! ## Reshapes -/

theorem IsReshapeOf.refl {x : Tensor E} (hx : ∀ n ∈ x.sizes, 0 ≤ n) : IsReshapeOf x x := by
  refine ⟨rfl, hx, fun i hi => ⟨i, hi, rfl⟩, fun i j hi hj h => ?_⟩
  rw [← delinearize_position hi, h, delinearize_position hj]

theorem IsReshapeOf.trans {x y z : Tensor E} (h : IsReshapeOf z y) (g : IsReshapeOf y x) : IsReshapeOf z x := by
  refine ⟨h.1.trans g.1, h.2.1, fun i hi => ?_, fun i j hi hj e => ?_⟩
  · obtain ⟨j, hj, e⟩ := h.2.2.1 i hi
    obtain ⟨k, hk, e'⟩ := g.2.2.1 j hj
    exact ⟨k, hk, e'.trans e⟩
  · obtain ⟨k, hk, e'⟩ := h.2.2.1 i hi
    rw [h.2.2.2 i k hi hk e'.symm, g.2.2.2 k j hk hj (e'.trans e)]

/-- A tensor that reads `x` at the index of the same position. -/
theorem reshape_of {t x : Tensor E} (f : List Int → List Int) (hp : t.sizes.prod = x.sizes.prod) (hn : ∀ n ∈ t.sizes, 0 ≤ n)
    (hf : ∀ i, inRange t.sizes i = true → inRange x.sizes (f i) = true ∧ position x.sizes (f i) = position t.sizes i)
    (he : ∀ i, inRange t.sizes i = true → t.elem i = x.get (f i)) : IsReshapeOf t x := by
  refine ⟨hp, hn, fun i hi => ⟨f i, hf i hi⟩, fun i j hi hj e => ?_⟩
  obtain ⟨a, b⟩ := hf i hi
  have : f i = j := by rw [← delinearize_position a, b, e, delinearize_position hj]
  rw [he i hi, Tensor.get, if_pos a, this]

theorem group_prods : ∀ {S : List (List Int)}, (∀ n ∈ S.flatten, 0 ≤ n) → ∀ {i : List Int}, inRange (S.map List.prod) i = true →
    inRange S.flatten (List.zipWith delinearize S i).flatten = true ∧
      position S.flatten (List.zipWith delinearize S i).flatten = position (S.map List.prod) i := by
  intro S
  induction S with
  | nil => intro _ i h; cases i with
    | nil => exact ⟨rfl, rfl⟩
    | cons => simp [inRange] at h
  | cons s S ih => intro hn i h; cases i with
    | nil => simp [inRange] at h
    | cons v i =>
      simp only [List.map_cons, inRange, Bool.and_eq_true, decide_eq_true_eq] at h
      obtain ⟨a, b⟩ := ih (fun n h => hn n (by simp only [List.flatten_cons, List.mem_append]; exact Or.inr h)) h.2
      obtain ⟨c, d⟩ := delinearize_spec (ns := s) (fun n h => hn n (by simp only [List.flatten_cons, List.mem_append]; exact Or.inl h)) h.1.1 h.1.2
      rw [List.zipWith_cons_cons, List.flatten_cons, List.flatten_cons, inRange_split _ _ _ _ (delinearize_length s v).symm,
        position_append _ _ _ _ (delinearize_length s v).symm, List.map_cons, position, a, b, c, d, prod_flatten]
      exact ⟨rfl, rfl⟩

theorem map_group {f : Nat → Int} (groups : List (List Nat)) : (groups.map fun g => g.map f).flatten = groups.flatten.map f := by
  rw [List.map_flatten]

theorem collapse_reshape {x : Tensor E} (hx : ∀ n ∈ x.sizes, 0 ≤ n) {groups : List (List Nat)} (hg : groups.flatten = List.range x.sizes.length) :
    IsReshapeOf (collapseShape x groups) x := by
  have hS : (groups.map fun g => g.map fun d => x.sizes.getD d 0).flatten = x.sizes := by
    rw [map_group, hg, range_getD]
  generalize hSd : (groups.map fun g => g.map fun d => x.sizes.getD d 0) = S at hS
  have hz : (collapseShape x groups).sizes = S.map List.prod := by rw [← hSd]; rfl
  refine reshape_of (fun i => (List.zipWith delinearize S i).flatten) (by rw [hz, prod_flatten, hS]) ?_ ?_ ?_
  · rw [hz]
    intro n hn
    obtain ⟨s, hs, rfl⟩ := List.mem_map.mp hn
    exact prod_nonneg fun m hm => hx m (by rw [← hS]; exact List.mem_flatten.mpr ⟨s, hs, hm⟩)
  · intro i hi
    rw [hz] at hi ⊢
    have := group_prods (S := S) (by rw [hS]; exact hx) hi
    rwa [hS] at this
  · intro i hi
    show (if groups.isEmpty then x.get (x.sizes.map fun _ => 0) else x.get ((List.zipWith delinearize (groups.map fun g => g.map fun d => x.sizes.getD d 0) i).flatten)) = _
    rw [hSd]
    cases groups with
    | nil =>
      have : x.sizes = [] := by rw [← hS, ← hSd]; rfl
      rw [this, ← hSd]
      rfl
    | cons => rfl

theorem group_positions : ∀ {S I : List (List Int)}, List.Forall₂ (fun s i => s.length = i.length) S I → inRange S.flatten I.flatten = true →
    inRange (S.map List.prod) (List.zipWith position S I) = true ∧ position (S.map List.prod) (List.zipWith position S I) = position S.flatten I.flatten := by
  intro S I h
  induction h with
  | nil => intro _; exact ⟨rfl, rfl⟩
  | @cons s i S I h1 h2 ih =>
    intro hr
    rw [List.flatten_cons, List.flatten_cons, inRange_split _ _ _ _ h1, Bool.and_eq_true] at hr
    obtain ⟨a, b⟩ := ih hr.2
    obtain ⟨c, d⟩ := position_bound hr.1
    rw [List.flatten_cons, List.flatten_cons, position_append _ _ _ _ h1, List.map_cons, List.zipWith_cons_cons, position, inRange, a, b, prod_flatten]
    simp [c, d]

theorem expand_reshape {x t : Tensor E} {outs : List Int} {groups : List (List Nat)} (hx : ∀ n ∈ x.sizes, 0 ≤ n)
    (hg : groups.flatten = List.range outs.length) (hl : groups.length = x.sizes.length) (hn : ∀ n ∈ outs, -1 ≤ n)
    (h : expandShape x outs groups = .ok t) : IsReshapeOf t x := by
  unfold expandShape at h
  dsimp only at h
  generalize hS : (List.zipWith (fun n g => g.map (expandedSize outs n g)) x.sizes groups) = S at h
  split at h
  case isFalse => cases h
  case isTrue hc =>
    injection h with h
    have hSl : S.length = groups.length := by rw [← hS]; simp [hl]
    have hS1 : ∀ k (hk : k < S.length), (S[k]'hk) = (groups[k]'(by omega)).map (expandedSize outs (x.sizes[k]'(by omega)) (groups[k]'(by omega))) := by
      intro k hk
      subst hS
      simp
    have hprod : x.sizes = S.map List.prod := by
      apply List.ext_getElem (by simp [hSl, hl])
      intro k h1 h2
      have := hc.1
      rw [List.all_eq_true] at this
      have := this (decide (x.sizes[k] = (S[k]'(by omega)).prod)) (by
        apply List.mem_iff_getElem.mpr
        exact ⟨k, by simp; omega, by simp⟩)
      simpa using this
    have hnn : ∀ n ∈ S.flatten, 0 ≤ n := by
      intro n hmem
      obtain ⟨s, hs, hns⟩ := List.mem_flatten.mp hmem
      obtain ⟨k, hk, rfl⟩ := List.mem_iff_getElem.mp hs
      rw [hS1 k hk] at hns
      obtain ⟨d, hd, rfl⟩ := List.mem_map.mp hns
      unfold expandedSize
      have hget : ∀ e : Nat, -1 ≤ outs.getD e 0 := by
        intro e
        rw [List.getD_eq_getElem?_getD]
        cases he : outs[e]? with
        | none => simp
        | some m => exact hn m (List.mem_of_getElem? he)
      split
      · rename_i hne
        have := hget d
        unfold unknown at hne
        omega
      · rename_i heq
        refine Int.ediv_nonneg (hx _ (List.getElem_mem _)) (prod_nonneg ?_)
        intro m hm
        obtain ⟨e, he, rfl⟩ := List.mem_map.mp hm
        rw [List.mem_filter] at he
        have hcount := hc.2
        rw [List.all_eq_true] at hcount
        have hcount := hcount _ (List.getElem_mem (by omega : k < groups.length))
        rw [decide_eq_true_eq] at hcount
        by_cases hu : outs.getD e 0 = unknown
        · exfalso
          -- two unknown dimensions in a group
          have hd' : d ∈ (groups[k]'(by omega)).filter (fun d => decide (outs.getD d 0 = unknown)) := by
            rw [List.mem_filter]; exact ⟨hd, by simpa using heq⟩
          have he' : e ∈ (groups[k]'(by omega)).filter (fun d => decide (outs.getD d 0 = unknown)) := by
            rw [List.mem_filter]; exact ⟨he.1, by simpa using hu⟩
          generalize (groups[k]'(by omega)).filter (fun d => decide (outs.getD d 0 = unknown)) = L at *
          match L with
          | [] => cases hd'
          | [a] =>
            simp at hd' he'
            have := he.2
            simp at this
            omega
          | a :: b :: L => simp at hcount
        · have := hget e
          unfold unknown at hu
          omega
    subst h
    have hlen : S.flatten.length = outs.length := by
      have : S.flatten.length = groups.flatten.length := by
        rw [List.length_flatten, List.length_flatten]
        congr 1
        apply List.ext_getElem (by simp [hSl])
        intro k h1 h2
        simp only [List.getElem_map]
        simp only [List.length_map] at h1
        rw [hS1 k h1, List.length_map]
      rw [this, hg, List.length_range]
    have hfor : ∀ idx : List Int, List.Forall₂ (fun s i => s.length = i.length) S (groups.map fun g => g.map fun d => idx.getD d 0) := by
      intro idx
      rw [List.forall₂_iff_get]
      refine ⟨by simp [hSl], fun k h1 h2 => ?_⟩
      simp only [List.get_eq_getElem, List.getElem_map, List.length_map]
      rw [hS1 k h1, List.length_map]
    refine reshape_of (fun idx => List.zipWith position S (groups.map fun g => g.map fun d => idx.getD d 0)) ?_ hnn ?_ ?_
    · show S.flatten.prod = _
      rw [hprod, prod_flatten]
    · intro i hi
      show inRange x.sizes _ = true ∧ position x.sizes _ = position S.flatten i
      have hil : (groups.map fun g => g.map fun d => i.getD d 0).flatten = i := by
        rw [map_group, hg, ← hlen, ← inRange_length hi, range_getD]
      have := group_positions (hfor i) (by rw [hil]; exact hi)
      rw [hil, ← hprod] at this
      exact this
    · intro i hi
      show x.get _ = x.get _
      congr 1
      apply List.ext_getElem (by simp [hSl])
      intro k h1 h2
      simp [linearize_eq]

end Verif.Lin
