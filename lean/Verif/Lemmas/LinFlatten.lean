import Verif.Lemmas.LinViewMain
import Verif.Spec.Reshape

namespace Verif.Lin

variable {E : Type}

/-! ## Flattening -/

/-- The body of the loop. -/
def flattenStep (start end_ : Int) (st : List (List Nat) × Nat) (i : Nat) : List (List Nat) × Nat :=
  (st.1.modify st.2 (· ++ [i]), if (i : Int) < start ∨ (i : Int) ≥ end_ then st.2 + 1 else st.2)

theorem flatten_singles (start end_ : Int) : ∀ (n i m : Nat) (A : List (List Nat)), (∀ k, i ≤ k → k < i + n → (k : Int) < start ∨ (k : Int) ≥ end_) →
    (List.range' i n).foldl (flattenStep start end_) (A ++ List.replicate (n + m) [], A.length) =
      (A ++ (List.range' i n).map (fun d => [d]) ++ List.replicate m [], A.length + n) := by
  intro n
  induction n with
  | zero => intro i m A _; simp
  | succ n ih =>
    intro i m A h
    rw [List.range'_succ, List.foldl_cons, flattenStep, if_pos (h i (by omega) (by omega)), show n + 1 + m = (n + m) + 1 by omega, List.replicate_succ, modify_at]
    have := ih (i + 1) m (A ++ [[i]]) (fun k a b => h k (by omega) (by omega))
    rw [List.length_append, List.length_singleton, List.append_assoc] at this
    rw [show [] ++ [i] = [i] from rfl]
    refine this.trans ?_
    rw [List.map_cons]
    congr 1
    · simp
    · omega

theorem flatten_merge (start end_ : Int) : ∀ (n i : Nat) (A : List (List Nat)) (c : List Nat) (R : List (List Nat)),
    (∀ k, i ≤ k → k < i + n → ¬((k : Int) < start ∨ (k : Int) ≥ end_)) →
    (List.range' i n).foldl (flattenStep start end_) (A ++ c :: R, A.length) = (A ++ (c ++ List.range' i n) :: R, A.length) := by
  intro n
  induction n with
  | zero => intro i A c R _; simp
  | succ n ih =>
    intro i A c R h
    rw [List.range'_succ, List.foldl_cons, flattenStep, if_neg (h i (by omega) (by omega)), modify_at]
    refine (ih (i + 1) A (c ++ [i]) R (fun k a b => h k (by omega) (by omega))).trans ?_
    simp

/-- The groups made. -/
def flattenGroups (s e r : Nat) : List (List Nat) :=
  (List.range' 0 s).map (fun d => [d]) ++ List.range' s (e + 1 - s) :: (List.range' (e + 1) (r - (e + 1))).map fun d => [d]

theorem flatten_fold (s e r : Nat) (hse : s ≤ e) (her : e < r) :
    ((List.range r).foldl (flattenStep s e) (List.replicate (r - ((e : Int) - s).toNat) [], 0)).1 = flattenGroups s e r := by
  have e1 : List.range r = List.range' 0 s ++ (List.range' s (e - s) ++ (e :: List.range' (e + 1) (r - (e + 1)))) := by
    rw [List.range_eq_range']
    have h1 : List.range' 0 r = List.range' 0 s ++ List.range' s (r - s) := by
      have := List.range'_append (s := 0) (m := s) (n := r - s) (step := 1)
      rw [Nat.one_mul, Nat.zero_add] at this
      rw [this]
      congr 1
      omega
    have h2 : List.range' s (r - s) = List.range' s (e - s) ++ List.range' e (r - e) := by
      have := List.range'_append (s := s) (m := e - s) (n := r - e) (step := 1)
      rw [Nat.one_mul, show s + (e - s) = e by omega] at this
      rw [this]
      congr 1
      omega
    have h3 : List.range' e (r - e) = e :: List.range' (e + 1) (r - (e + 1)) := by
      rw [show r - e = (r - (e + 1)) + 1 by omega, List.range'_succ]
    rw [h1, h2, h3]
  rw [e1, List.foldl_append, List.foldl_append, List.foldl_cons]
  rw [show r - ((e : Int) - s).toNat = s + (1 + (r - (e + 1))) by omega]
  have f1 := flatten_singles (s : Int) (e : Int) s 0 (1 + (r - (e + 1))) [] (fun k _ h => by omega)
  rw [List.nil_append, List.nil_append, List.length_nil, Nat.zero_add] at f1
  rw [f1, Nat.add_comm 1, List.replicate_succ]
  have hl : ((List.range' 0 s).map fun d => [d]).length = s := by simp
  have f2 := flatten_merge (s : Int) (e : Int) (e - s) s ((List.range' 0 s).map fun d => [d]) [] (List.replicate (r - (e + 1)) []) (fun k _ h => by omega)
  rw [hl] at f2
  rw [f2]
  have f3 : flattenStep s e ((List.range' 0 s).map (fun d => [d]) ++ ([] ++ List.range' s (e - s)) :: List.replicate (r - (e + 1)) [], s) e =
      ((List.range' 0 s).map (fun d => [d]) ++ [List.range' s (e + 1 - s)] ++ List.replicate (r - (e + 1)) [], s + 1) := by
    unfold flattenStep
    rw [if_pos (Or.inr (by omega))]
    have := modify_at ((List.range' 0 s).map fun d => [d]) ([] ++ List.range' s (e - s)) (List.replicate (r - (e + 1)) []) (· ++ [e])
    rw [hl] at this
    dsimp only
    rw [this, show e + 1 - s = (e - s) + 1 by omega, List.range'_1_concat, show s + (e - s) = e by omega]
    simp
  rw [f3]
  have f4 := flatten_singles (s : Int) (e : Int) (r - (e + 1)) (e + 1) 0 ((List.range' 0 s).map (fun d => [d]) ++ [List.range' s (e + 1 - s)]) (fun k _ h => by omega)
  rw [List.length_append, hl, List.length_singleton, show r - (e + 1) + 0 = r - (e + 1) from rfl] at f4
  rw [f4]
  unfold flattenGroups
  simp

theorem flattenGroups_flatten (s e r : Nat) (hse : s ≤ e) (her : e < r) : (flattenGroups s e r).flatten = List.range r := by
  have sing : ∀ l : List Nat, (l.map fun d => [d]).flatten = l := by
    intro l
    induction l with
    | nil => rfl
    | cons a l ih => rw [List.map_cons, List.flatten_cons, ih]; rfl
  unfold flattenGroups
  rw [List.flatten_append, List.flatten_cons, sing, sing, ← List.range_eq_range', ← List.append_assoc, range_add, show s + (e + 1 - s) = e + 1 by omega, range_add]
  congr 1
  omega

theorem flatten_sizes (pre mid post : List Int) (x : Int) :
    ((flattenGroups pre.length (pre.length + mid.length) (pre ++ (x :: mid) ++ post).length).map fun g => (at_ (pre ++ (x :: mid) ++ post) g).prod) =
      pre ++ [(x :: mid).prod] ++ post := by
  have sing : ∀ (l : List Int) (i n : Nat), i + n ≤ l.length → ((List.range' i n).map fun d => [d]).map (fun g => (at_ l g).prod) = (l.drop i).take n := by
    intro l i n h
    rw [List.map_map, ← at_range l i n h]
    unfold at_
    apply List.map_congr_left
    intro d _
    simp
  unfold flattenGroups
  rw [List.map_append, List.map_cons, sing _ _ _ (by simp), sing _ _ _ (by simp; omega), at_range _ _ _ (by simp; omega)]
  have h1 : ((pre ++ (x :: mid) ++ post).drop 0).take pre.length = pre := by simp
  have h2 : ((pre ++ (x :: mid) ++ post).drop pre.length).take (pre.length + mid.length + 1 - pre.length) = x :: mid := by
    rw [List.append_assoc, List.drop_left, show pre.length + mid.length + 1 - pre.length = (x :: mid).length by simp; omega, List.take_left]
  have h3 : ((pre ++ (x :: mid) ++ post).drop (pre.length + mid.length + 1)).take ((pre ++ (x :: mid) ++ post).length - (pre.length + mid.length + 1)) = post := by
    have : pre.length + mid.length + 1 = (pre ++ (x :: mid)).length := by simp; omega
    rw [this, List.drop_left, List.take_of_length_le (by simp; omega)]
  rw [h1, h2, h3]
  simp

theorem numel_prod : ∀ l : List Int, Shape.numel l = l.prod := by
  intro l
  induction l with
  | nil => rfl
  | cons a l ih => rw [Shape.numel, List.prod_cons, ih]

theorem lowerFlatten_eq (x : Tensor E) (start end_ : Int) : lowerFlatten x start end_ =
    (if x.sizes.length = 1 then .ok x else
    let start := if start < 0 then start + x.sizes.length else start
    let end_ := if end_ < 0 then end_ + x.sizes.length else end_
    if x.sizes.length = 0 then
      if ¬(-1 ≤ start ∧ start ≤ 0 ∧ -1 ≤ end_ ∧ end_ ≤ 0) then .unmatched else .ok ⟨[1], fun _ => x.get []⟩
    else if start < 0 ∨ start ≥ x.sizes.length ∨ end_ < 0 ∨ end_ ≥ x.sizes.length ∨ start > end_ then .unmatched else
    .ok (collapseShape x ((List.range x.sizes.length).foldl (flattenStep start end_) (List.replicate (x.sizes.length - (end_ - start).toNat) [], 0)).1)) := rfl

theorem lowerFlatten_spec {x : Tensor E} (hx : ∀ n ∈ x.sizes, 0 ≤ n) {start end_ : Int} {c : List Int} (h : Shape.IsFlatten x.sizes start end_ c) :
    ∃ t, lowerFlatten x start end_ = .ok t ∧ t.sizes = c ∧ IsReshapeOf t x := by
  rcases h with ⟨h0, h1, h2, rfl⟩ | ⟨pre, y, mid, post, hs, h1, h2, rfl⟩
  · rw [lowerFlatten_eq]
    unfold Shape.IsDim at h1 h2
    rw [h0]
    dsimp only [List.length_nil]
    simp at h1 h2
    rw [if_neg (by omega), if_pos rfl, if_neg (by
      have c1 : -1 ≤ (if start < 0 then start + ((0 : Nat) : Int) else start) ∧ (if start < 0 then start + ((0 : Nat) : Int) else start) ≤ 0 := by split <;> omega
      have c2 : -1 ≤ (if end_ < 0 then end_ + ((0 : Nat) : Int) else end_) ∧ (if end_ < 0 then end_ + ((0 : Nat) : Int) else end_) ≤ 0 := by split <;> omega
      intro hc
      exact hc ⟨c1.1, c1.2, c2.1, c2.2⟩)]
    refine ⟨_, rfl, rfl, reshape_of (fun _ => []) (by rw [h0]; rfl) (by simp) (fun i hi => ?_) (fun i hi => rfl)⟩
    rw [h0]
    refine ⟨rfl, ?_⟩
    have := position_bound hi
    simp at this
    show 0 = position [1] i
    omega
  · rw [numel_prod]
    have hlen : x.sizes.length = pre.length + mid.length + 1 + post.length := by rw [hs]; simp; omega
    have hnn : Shape.NonNeg x.sizes := hx
    rw [lowerFlatten_eq]
    by_cases hr : x.sizes.length = 1
    · rw [if_pos hr]
      refine ⟨x, rfl, ?_, IsReshapeOf.refl hx⟩
      have p0 : pre = [] := List.eq_nil_of_length_eq_zero (by omega)
      have m0 : mid = [] := List.eq_nil_of_length_eq_zero (by omega)
      have q0 : post = [] := List.eq_nil_of_length_eq_zero (by omega)
      subst p0 m0 q0
      rw [hs]
      simp
    · rw [if_neg hr]
      dsimp only
      unfold Shape.IsDim at h1 h2
      have e1 : (if start < 0 then start + (x.sizes.length : Int) else start) = (pre.length : Int) := by split <;> omega
      have e2 : (if end_ < 0 then end_ + (x.sizes.length : Int) else end_) = ((pre.length + mid.length : Nat) : Int) := by split <;> omega
      rw [e1, e2, if_neg (by omega), if_neg (by omega), flatten_fold _ _ _ (by omega) (by omega)]
      refine ⟨_, rfl, ?_, collapse_reshape hx (flattenGroups_flatten _ _ _ (by omega) (by omega))⟩
      show (List.map _ _).map List.prod = _
      rw [List.map_map]
      have := flatten_sizes pre mid post y
      rw [← hs] at this
      exact this

/-! ## `tensor.reshape` -/

theorem reshape_ok {x : Tensor E} (hx : ∀ n ∈ x.sizes, 0 ≤ n) {sizes : List Int} {t : Tensor E} (h : reshape x sizes = .ok t) : t.sizes = sizes ∧ IsReshapeOf t x := by
  unfold reshape at h
  split at h
  · rename_i hc
    injection h with h
    subst h
    refine ⟨rfl, reshape_of (fun idx => delinearize x.sizes (linearize sizes idx)) hc.2 (by simpa using hc.1) (fun i hi => ?_) (fun i hi => rfl)⟩
    rw [linearize_eq]
    obtain ⟨a, b⟩ := position_bound hi
    exact delinearize_spec hx a (by rw [← hc.2]; exact b)
  · cases h

theorem known_fold : ∀ (size : List Int) (p : Int), size.foldl (fun p s => if s < 0 then p else p * s) p = p * (size.filter fun s => decide (0 ≤ s)).prod := by
  intro size
  induction size with
  | nil => intro p; simp
  | cons s size ih =>
    intro p
    rw [List.foldl_cons, ih, List.filter_cons]
    by_cases h : s < 0
    · rw [if_pos h, if_neg (by simpa using h)]
    · rw [if_neg h, if_pos (by simpa using h), List.prod_cons, Int.mul_assoc]

theorem count_fold : ∀ (size : List Int) (c : Nat), size.foldl (fun c s => if s < 0 then c + 1 else c) c = c + size.countP fun s => decide (s < 0) := by
  intro size
  induction size with
  | nil => intro c; simp
  | cons s size ih =>
    intro c
    rw [List.foldl_cons, ih, List.countP_cons]
    by_cases h : s < 0
    · rw [if_pos h, if_pos (by simpa using h)]; omega
    · rw [if_neg h, if_neg (by simpa using h)]; omega

/-- The sizes asked for are those of the target, or -1 in one place. -/
theorem fills_cases : ∀ {size target : List Int}, Fills size target → (∀ n ∈ target, 0 ≤ n) →
    (size = target) ∨ ∃ a b u, size = a ++ -1 :: b ∧ target = a ++ u :: b ∧ (∀ n ∈ a ++ b, 0 ≤ n) := by
  intro size target ⟨h, hc⟩ hn
  induction h with
  | nil => exact Or.inl rfl
  | @cons s n size target h1 h2 ih =>
    rw [List.count_cons] at hc
    by_cases hs : s = -1
    · rw [if_pos (by simpa using hs)] at hc
      right
      have key : size = target := by
        have hc : size.count (-1) = 0 := by omega
        clear ih hn
        induction h2 with
        | nil => rfl
        | @cons s' n' size target h1' _ ih' =>
          rw [List.count_cons] at hc
          by_cases hs' : s' = -1
          · rw [if_pos (by simpa using hs')] at hc; omega
          · rw [h1'.resolve_right hs', ih' (by omega) (by omega)]
      exact ⟨[], size, n, by rw [hs]; rfl, by rw [key]; rfl, fun m hm => hn m (by rw [List.nil_append, key] at hm; simp [hm])⟩
    · rw [if_neg (by simpa using hs)] at hc
      rcases ih (by omega) (fun m hm => hn m (by simp [hm])) with e | ⟨a, b, u, e1, e2, e3⟩
      · left; rw [h1.resolve_right hs, e]
      · right
        refine ⟨s :: a, b, u, by rw [e1]; rfl, by rw [e2, h1.resolve_right hs]; rfl, fun m hm => ?_⟩
        rcases List.mem_cons.mp hm with rfl | hm
        · exact hn m (by simp [h1.resolve_right hs])
        · exact e3 m hm

theorem lowerViewToReshape_spec {x : Tensor E} (strict : Bool) (hx : ∀ n ∈ x.sizes, 0 ≤ n) {size target : List Int} (hne : size ≠ []) (hf : Fills size target)
    (hn : ∀ n ∈ target, 0 ≤ n) (hp : target.prod = x.sizes.prod) (h0 : ∀ s ∈ size, s ≠ 0) :
    ∃ t, lowerViewToReshape strict x size = .ok t ∧ t.sizes = target ∧ IsReshapeOf t x := by
  have fin : ∀ {o : Outcome (Tensor E)}, o = reshape x target → ∃ t, o = .ok t ∧ t.sizes = target ∧ IsReshapeOf t x := by
    intro o ho
    have : reshape x target = .ok ⟨target, fun idx => x.get (delinearize x.sizes (linearize target idx))⟩ := by
      unfold reshape
      rw [if_pos ⟨by simpa using hn, hp⟩]
    exact ⟨_, ho.trans this, reshape_ok hx this⟩
  apply fin
  unfold lowerViewToReshape
  rw [if_neg (by simpa using hne)]
  clear hne
  dsimp only
  rw [known_fold, count_fold, Int.one_mul, Nat.zero_add]
  rcases fills_cases hf hn with e | ⟨a, b, u, e1, e2, e3⟩
  · subst e
    have hc : size.countP (fun s => decide (s < 0)) = 0 := by
      rw [List.countP_eq_zero]
      intro s hs
      have := hn s hs
      simp
      omega
    have hfil : (size.filter fun s => decide (0 ≤ s)) = size := by
      rw [List.filter_eq_self]
      intro s hs
      simpa using hn s hs
    have hne : size.prod ≠ 0 := by
      have : 1 ≤ size.prod := (le_prod_of_mem fun n hm => by have := hn n hm; have := h0 n hm; omega).1
      omega
    rw [hc, hfil, if_neg (by simp), if_neg hne]
    congr 1
    rw [List.map_congr_left (g := id), List.map_id]
    intro s hs
    have := hn s hs
    rw [if_neg (by omega)]
    rfl
  · have filt : ∀ l : List Int, (∀ n ∈ l, 0 ≤ n) → (l.filter fun s => decide (0 ≤ s)) = l ∧ l.countP (fun s => decide (s < 0)) = 0 ∧
        ∀ m : Int, (l.map fun s => if s < 0 then m else s) = l := by
      intro l hl
      refine ⟨?_, ?_, fun m => ?_⟩
      · rw [List.filter_eq_self]; intro s hs; simpa using hl s hs
      · rw [List.countP_eq_zero]; intro s hs; have := hl s hs; simp; omega
      · rw [List.map_congr_left (g := id), List.map_id]
        intro s hs
        have := hl s hs
        rw [if_neg (by omega)]
        rfl
    obtain ⟨fa, ca, ma⟩ := filt a fun n hm => e3 n (by simp [hm])
    obtain ⟨fb, cb, mb⟩ := filt b fun n hm => e3 n (by simp [hm])
    subst e1 e2
    have pos : ∀ l : List Int, (∀ n ∈ l, 0 ≤ n) → (∀ n ∈ l, n ≠ 0) → 1 ≤ l.prod := by
      intro l h1 h2
      exact (le_prod_of_mem fun n hm => by have := h1 n hm; have := h2 n hm; omega).1
    have pa := pos a (fun n hm => e3 n (by simp [hm])) (fun n hm => h0 n (by simp [hm]))
    have pb := pos b (fun n hm => e3 n (by simp [hm])) (fun n hm => h0 n (by simp [hm]))
    have pab := Int.mul_pos (a := a.prod) (b := b.prod) (by omega) (by omega)
    rw [List.countP_append, List.countP_cons, ca, cb, List.filter_append, List.filter_cons, if_neg (show ¬(decide ((0 : Int) ≤ -1) = true) by decide), fa, fb, List.prod_append,
      if_neg (show ¬((!strict && decide (0 + (0 + if decide ((-1 : Int) < 0) = true then 1 else 0) > 1)) = true) by cases strict <;> decide),
      if_neg (show ¬(a.prod * b.prod = 0) by omega)]
    congr 1
    rw [List.map_append, List.map_cons, ma, mb, if_pos (by decide), ← hp, List.prod_append, List.prod_cons, Int.mul_left_comm, Int.mul_tdiv_cancel _ (by omega)]

end Verif.Lin
