import Verif.Model.ShapeReshape
import Verif.Spec.Reshape
import Verif.Lemmas.Dims

/-! # Lemmas about reshaping -/

namespace Verif.Shape

theorem numel_append (a b : List Int) : numel (a ++ b) = numel a * numel b := by
  induction a with
  | nil => simp [numel]
  | cons x xs ih => simp [numel, ih, Int.mul_assoc]

theorem numel_nonneg {l : List Int} (h : NonNeg l) : 0 ≤ numel l := by
  induction l with
  | nil => simp [numel]
  | cons x xs ih =>
    have h1 := h x (by simp)
    have h2 := ih (fun y hy => h y (by simp [hy]))
    exact Int.mul_nonneg h1 h2

theorem foldl_mul (l : List Int) (a : Int) : l.foldl (· * ·) a = a * numel l := by
  induction l generalizing a with
  | nil => simp [numel]
  | cons x xs ih => simp [numel, ih, Int.mul_assoc]

theorem multiplyIntegers_eq (l : List Int) : multiplyIntegers l = numel l := by
  unfold multiplyIntegers
  rw [foldl_mul]
  simp

/-- The loop once a -1 has been seen. -/
theorem viewFold_some (size : List Int) (k i : Nat) (n m : Int) (inf : Option Nat) :
    pyFold viewStep (n, some i) (size.zipIdx k) = .ok (m, inf) ↔
      NonNeg size ∧ m = n * numel size ∧ inf = some i := by
  induction size generalizing k n with
  | nil => simp [pyFold, NonNeg, numel, eq_comm]
  | cons x xs ih =>
    simp only [List.zipIdx_cons, pyFold, viewStep]
    by_cases h1 : x = -1
    · rw [if_pos h1]
      simp only [reduceCtorEq, false_iff]
      rintro ⟨h, _⟩
      have := h x (by simp)
      omega
    · rw [if_neg h1]
      by_cases h2 : x ≥ 0
      · rw [if_pos h2]
        simp only [ih, numel, Int.mul_assoc]
        constructor
        · rintro ⟨h3, h4, h5⟩
          exact ⟨fun y hy => by rcases List.mem_cons.mp hy with rfl | hy; exacts [h2, h3 y hy], h4, h5⟩
        · rintro ⟨h3, h4, h5⟩
          exact ⟨fun y hy => h3 y (by simp [hy]), h4, h5⟩
      · rw [if_neg h2]
        simp only [reduceCtorEq, false_iff]
        rintro ⟨h, _⟩
        have := h x (by simp)
        omega

theorem viewFold_iff (size : List Int) (k : Nat) (n m : Int) (inf : Option Nat) :
    pyFold viewStep (n, none) (size.zipIdx k) = .ok (m, inf) ↔
      (NonNeg size ∧ m = n * numel size ∧ inf = none) ∨
      ∃ pre post, size = pre ++ -1 :: post ∧ NonNeg pre ∧ NonNeg post ∧ m = n * (numel pre * numel post) ∧
        inf = some (k + pre.length) := by
  induction size generalizing k n with
  | nil =>
    simp only [List.zipIdx_nil, pyFold, Except.ok.injEq, Prod.mk.injEq, numel, Int.mul_one]
    constructor
    · rintro ⟨rfl, rfl⟩; exact Or.inl ⟨by simp [NonNeg], rfl, rfl⟩
    · rintro (⟨_, h1, h2⟩ | ⟨pre, post, h1, _⟩)
      · exact ⟨h1.symm, h2.symm⟩
      · simp at h1
  | cons x xs ih =>
    simp only [List.zipIdx_cons, pyFold, viewStep]
    by_cases h1 : x = -1
    · subst h1
      simp only [if_true, viewFold_some]
      constructor
      · rintro ⟨h2, h3, h4⟩
        exact Or.inr ⟨[], xs, rfl, by simp [NonNeg], h2, by simp [numel, h3], by simp [h4]⟩
      · rintro (⟨h2, _⟩ | ⟨pre, post, h2, h3, h4, h5, h6⟩)
        · have := h2 (-1) (by simp); omega
        · match pre, h2, h3, h5, h6 with
          | [], h2, _, h5, h6 =>
            simp only [List.nil_append, List.cons.injEq, true_and] at h2
            subst h2
            exact ⟨h4, by simpa [numel] using h5, by simpa using h6⟩
          | y :: ys, h2, h3, _, _ =>
            simp only [List.cons_append, List.cons.injEq] at h2
            have := h3 y (by simp)
            omega
    · rw [if_neg h1]
      by_cases h2 : x ≥ 0
      · rw [if_pos h2]
        simp only [ih, numel]
        apply or_congr
        · constructor
          · rintro ⟨h3, h4, h5⟩
            exact ⟨fun y hy => by rcases List.mem_cons.mp hy with rfl | hy; exacts [h2, h3 y hy],
              by rw [h4, Int.mul_assoc], h5⟩
          · rintro ⟨h3, h4, h5⟩
            exact ⟨fun y hy => h3 y (by simp [hy]), by rw [h4, Int.mul_assoc], h5⟩
        · constructor
          · rintro ⟨pre, post, h3, h4, h5, h6, h7⟩
            refine ⟨x :: pre, post, by simp [h3], ?_, h5, ?_, ?_⟩
            · intro y hy
              rcases List.mem_cons.mp hy with rfl | hy
              exacts [h2, h4 y hy]
            · rw [h6]; simp only [numel, Int.mul_assoc]
            · rw [h7]; simp only [List.length_cons, Option.some.injEq]; omega
          · rintro ⟨pre, post, h3, h4, h5, h6, h7⟩
            match pre, h3, h4, h6, h7 with
            | [], h3, _, _, _ =>
              simp only [List.nil_append, List.cons.injEq] at h3
              exact absurd h3.1 h1
            | y :: ys, h3, h4, h6, h7 =>
              simp only [List.cons_append, List.cons.injEq] at h3
              obtain ⟨rfl, h3⟩ := h3
              refine ⟨ys, post, h3, fun z hz => h4 z (by simp [hz]), h5, ?_, ?_⟩
              · rw [h6]; simp only [numel, Int.mul_assoc]
              · rw [h7]; simp only [List.length_cons, Option.some.injEq]; omega
      · rw [if_neg h2]
        simp only [reduceCtorEq, false_iff]
        rintro (⟨h, _⟩ | ⟨pre, post, h3, h4, h5, _⟩)
        · have := h x (by simp); omega
        · match pre, h3, h4 with
          | [], h3, _ =>
            simp only [List.nil_append, List.cons.injEq] at h3
            exact h1 h3.1
          | y :: ys, h3, h4 =>
            simp only [List.cons_append, List.cons.injEq] at h3
            have := h4 y (by simp)
            omega

theorem split_minus_one {pre post pre' post' : List Int} (h : pre ++ -1 :: post = pre' ++ -1 :: post')
    (h1 : NonNeg pre) (h2 : NonNeg pre') : pre = pre' ∧ post = post' := by
  induction pre generalizing pre' with
  | nil =>
    match pre', h, h2 with
    | [], h, _ => exact ⟨rfl, by simpa using h⟩
    | y :: _, h, h2 =>
      simp only [List.nil_append, List.cons_append, List.cons.injEq] at h
      have := h2 y (by simp)
      omega
  | cons x xs ih =>
    match pre', h, h2 with
    | [], h, _ =>
      simp only [List.nil_append, List.cons_append, List.cons.injEq] at h
      have := h1 x (by simp)
      omega
    | y :: ys, h, h2 =>
      simp only [List.cons_append, List.cons.injEq] at h
      obtain ⟨h3, h4⟩ := ih h.2 (fun z hz => h1 z (by simp [hz])) (fun z hz => h2 z (by simp [hz]))
      rw [h.1, h3, h4]
      exact ⟨rfl, rfl⟩

theorem numel_mid (pre post : List Int) (x : Int) :
    numel (pre ++ x :: post) = (numel pre * numel post) * x := by
  rw [numel_append, numel, Int.mul_left_comm, Int.mul_comm]

theorem inferSize_iff (size c : List Int) (n : Int) : inferSize size n = .ok c ↔ IsView n size c := by
  unfold inferSize
  constructor
  · intro h
    cases hf : pyFold viewStep (1, none) size.zipIdx with
    | error e => rw [hf] at h; cases h
    | ok r =>
      obtain ⟨m, inf⟩ := r
      rw [hf] at h
      simp only [] at h
      rcases (viewFold_iff size 0 1 m inf).mp hf with ⟨h1, h2, h3⟩ | ⟨pre, post, h1, h2, h3, h4, h5⟩
      · subst h3
        simp only [Option.isSome_none, Bool.false_eq_true, false_and, or_false] at h
        split at h
        · rename_i hn
          have := Except.ok.inj h
          subst this
          exact Or.inl ⟨h1, rfl, by rw [hn, h2, Int.one_mul]⟩
        · cases h
      · subst h5
        rw [Int.one_mul] at h4
        split at h
        · rename_i hc
          simp only [] at h
          split at h
          · cases h
          rename_i hm
          have h6 := Except.ok.inj h
          right
          have hdvd : m * Int.fdiv n m = n := by
            rcases hc with hc | ⟨_, _, hc⟩
            · rw [hc, Int.fdiv_self hm, Int.mul_one]
            · exact Int.mul_fdiv_cancel' (Int.dvd_of_fmod_eq_zero hc)
          refine ⟨pre, Int.fdiv n m, post, h1, h2, h3, ?_, ?_, by rw [← h4]; exact hm⟩
          · rw [← h6, h1]; simp
          · rw [← h6, h1]
            simp only [Nat.zero_add, List.set_append_right _ _ (Nat.le_refl pre.length), Nat.sub_self,
              List.set_cons_zero]
            rw [numel_mid, ← h4, hdvd]
        · cases h
  · rintro (⟨h1, rfl, h2⟩ | ⟨pre, x, post, h1, h2, h3, h4, h5, h6⟩)
    · rw [(viewFold_iff c 0 1 (numel c) none).mpr (Or.inl ⟨h1, by simp, rfl⟩)]
      simp [h2]
    · rw [(viewFold_iff size 0 1 (numel pre * numel post) (some pre.length)).mpr
        (Or.inr ⟨pre, post, h1, h2, h3, by simp, by simp⟩)]
      simp only []
      rw [h4, numel_mid] at h5
      have hpos : 0 ≤ numel pre * numel post := Int.mul_nonneg (numel_nonneg h2) (numel_nonneg h3)
      have hmod : Int.fmod n (numel pre * numel post) = 0 := by
        rw [← h5, Int.mul_fmod_right]
      rw [if_pos (Or.inr ⟨rfl, by omega, hmod⟩), if_neg h6, ← h5, Int.mul_fdiv_cancel_left _ h6, h1, h4]
      simp

theorem view_iff (self size c : List Int) : view self size = .ok c ↔ IsView (numel self) size c := by
  unfold view
  rw [multiplyIntegers_eq, inferSize_iff]

theorem IsView.unique {n : Int} {size c c' : List Int} (h : IsView n size c) (h' : IsView n size c') :
    c = c' := by
  have h1 := (inferSize_iff size c n).mpr h
  have h2 := (inferSize_iff size c' n).mpr h'
  rw [h1] at h2
  exact Except.ok.inj h2

theorem IsView.numel {n : Int} {size c : List Int} (h : IsView n size c) : numel c = n := by
  rcases h with ⟨_, _, h⟩ | ⟨_, _, _, _, _, _, _, h, _⟩ <;> exact h

/-- `take`, `drop` and product in terms of a split. -/
theorem merge_split (l : List Int) (s e : Nat) (hse : s ≤ e) (he : e < l.length) :
    ∃ pre x mid post, l = pre ++ (x :: mid) ++ post ∧ pre.length = s ∧ pre.length + mid.length = e ∧
      l.take s ++ multiplyIntegers ((l.take (e + 1)).drop s) :: l.drop (e + 1) =
        pre ++ [numel (x :: mid)] ++ post := by
  have hlen : ((l.take (e + 1)).drop s).length = e + 1 - s := by
    rw [List.length_drop, List.length_take]; omega
  obtain ⟨x, mid, hm⟩ : ∃ x mid, (l.take (e + 1)).drop s = x :: mid := by
    match h : (l.take (e + 1)).drop s with
    | [] => rw [h] at hlen; simp at hlen; omega
    | x :: mid => exact ⟨x, mid, rfl⟩
  refine ⟨l.take s, x, mid, l.drop (e + 1), ?_, by rw [List.length_take]; omega, ?_, ?_⟩
  · rw [← hm]
    have h1 : l.take s = (l.take (e + 1)).take s := by rw [List.take_take, Nat.min_eq_left (by omega)]
    rw [h1, List.take_append_drop, List.take_append_drop]
  · rw [hm] at hlen
    simp only [List.length_cons] at hlen
    rw [List.length_take]; omega
  · rw [hm, multiplyIntegers_eq]
    simp

theorem merge_of_split (pre mid post : List Int) (x : Int) :
    (pre ++ (x :: mid) ++ post).take pre.length ++
      multiplyIntegers (((pre ++ (x :: mid) ++ post).take (pre.length + mid.length + 1)).drop pre.length) ::
      (pre ++ (x :: mid) ++ post).drop (pre.length + mid.length + 1) =
    pre ++ [numel (x :: mid)] ++ post := by
  have h1 : (pre ++ (x :: mid) ++ post).take pre.length = pre := by
    rw [List.append_assoc, List.take_left]
  have hl : (pre ++ (x :: mid)).length = pre.length + mid.length + 1 := by simp; omega
  have h2 : (pre ++ (x :: mid) ++ post).take (pre.length + mid.length + 1) = pre ++ (x :: mid) :=
    List.take_left' hl
  have h3 : (pre ++ (x :: mid) ++ post).drop (pre.length + mid.length + 1) = post :=
    List.drop_left' hl
  rw [h1, h2, h3, List.drop_left, multiplyIntegers_eq]
  simp

theorem flatten_iff (self : List Int) (start end_ : Int) (c : List Int) :
    flatten self start end_ = .ok c ↔ IsFlatten self start end_ c := by
  have hz : ∀ d dim, IsDim 0 dim d → d = 0 := by
    intro d dim h
    have := h.1
    omega
  unfold flatten
  constructor
  · intro h
    cases hs : maybeWrapDim start self.length with
    | error e => rw [hs] at h; cases h
    | ok s =>
      cases he : maybeWrapDim end_ self.length with
      | error e => rw [hs, he] at h; cases h
      | ok e =>
        rw [hs, he] at h
        obtain ⟨s, rfl, hs'⟩ := maybeWrapDim_iff.mp hs
        obtain ⟨e, rfl, he'⟩ := maybeWrapDim_iff.mp he
        clear hs he
        rename' hs' => hs, he' => he
        simp only [] at h
        split at h
        · cases h
        rename_i hse
        split at h
        · rename_i h0
          have := List.length_eq_zero_iff.mp h0
          subst this
          left
          refine ⟨rfl, ?_, ?_, (Except.ok.inj h).symm⟩
          · rw [hz s start hs] at hs; exact hs
          · rw [hz e end_ he] at he; exact he
        · rename_i h0
          have hel : e < self.length := by have := he.1; omega
          obtain ⟨pre, x, mid, post, h1, h2, h3, h4⟩ := merge_split self s e (by omega) hel
          right
          refine ⟨pre, x, mid, post, h1, by rw [h2]; exact hs, by rw [h3]; exact he, ?_⟩
          split at h
          · rename_i heq
            have heq : s = e := Int.ofNat.inj heq
            have hmid : mid = [] := List.length_eq_zero_iff.mp (by omega)
            subst hmid
            rw [← Except.ok.inj h, h1]
            simp [numel]
          · simp only [Int.toNat_natCast] at h
            rw [← Except.ok.inj h, h4]
  · rintro (⟨rfl, hs, he, rfl⟩ | ⟨pre, x, mid, post, h1, hs, he, rfl⟩)
    · rw [List.length_nil, maybeWrapDim_iff.mpr ⟨0, rfl, hs⟩, maybeWrapDim_iff.mpr ⟨0, rfl, he⟩]
      rfl
    · rw [maybeWrapDim_iff.mpr ⟨_, rfl, hs⟩, maybeWrapDim_iff.mpr ⟨_, rfl, he⟩]
      simp only []
      rw [if_neg (by omega), if_neg (by rw [h1]; simp)]
      split
      · rename_i heq
        have heq := Int.ofNat.inj heq
        have hmid : mid = [] := List.length_eq_zero_iff.mp (by omega)
        subst hmid
        rw [h1]
        simp [numel]
      · simp only [Int.toNat_natCast]
        rw [h1, merge_of_split]

theorem IsFlatten.numel {self : List Int} {start end_ : Int} {c : List Int} (h : IsFlatten self start end_ c) :
    numel c = numel self := by
  rcases h with ⟨rfl, _, _, rfl⟩ | ⟨pre, x, mid, post, rfl, _, _, rfl⟩
  · rfl
  · simp only [numel_append, Shape.numel, Int.mul_one]

theorem pyTake_nat {α : Type} (l : List α) (d : Nat) (h : d ≤ l.length) : pyTake l (d : Int) = l.take d := by
  unfold pyTake pySliceBound
  have h1 : ¬ ((d : Int) < 0) := by omega
  simp only [h1, if_false]
  congr 1
  omega

theorem pyDrop_nat {α : Type} (l : List α) (d : Nat) (h : d ≤ l.length) : pyDrop l (d : Int) = l.drop d := by
  unfold pyDrop pySliceBound
  have h1 : ¬ ((d : Int) < 0) := by omega
  simp only [h1, if_false]
  congr 1
  omega

theorem split_at {l : List Int} {d : Nat} (h : d < l.length) :
    ∃ pre post, l = pre ++ l[d] :: post ∧ pre.length = d ∧ pre = l.take d ∧ post = l.drop (d + 1) :=
  ⟨l.take d, l.drop (d + 1), by rw [List.getElem_cons_drop, List.take_append_drop],
    by rw [List.length_take]; omega, rfl, rfl⟩

theorem unflatten_iff (self : List Int) (dim : Int) (sizes c : List Int) (hd : -(self.length : Int) ≤ dim) :
    unflatten self dim sizes = .ok c ↔ IsUnflatten self dim sizes c := by
  by_cases hlt : dim < self.length
  · obtain ⟨d, hdd, hlt', hdim⟩ : ∃ d : Nat, (if dim < 0 then dim + self.length else dim) = (d : Int) ∧
        d < self.length ∧ IsDim self.length dim d := by
      by_cases hn : dim < 0
      · refine ⟨(dim + self.length).toNat, by rw [if_pos hn]; omega, by omega, ?_⟩
        unfold IsDim
        omega
      · refine ⟨dim.toNat, by rw [if_neg hn]; omega, by omega, ?_⟩
        unfold IsDim
        omega
    unfold unflatten
    simp only [hdd]
    rw [pyGet_nonneg self d hlt', pyTake_nat self d (by omega),
      show ((d : Int) + 1) = ((d + 1 : Nat) : Int) by rfl, pyDrop_nat self (d + 1) (by omega)]
    simp only []
    obtain ⟨pre, post, h1, h2, h3, h4⟩ := split_at hlt'
    rw [← h3, ← h4]
    have hn1 : numel [self[d]] = self[d] := by simp [numel]
    have huniq : ∀ pre' x' post', self = pre' ++ x' :: post' → IsDim self.length dim pre'.length →
        pre' = pre ∧ x' = self[d] ∧ post' = post := by
      intro pre' x' post' h5 h6
      have h7 : pre'.length = pre.length := by rw [h2]; exact h6.unique hdim
      have h8 := List.append_inj (h5.symm.trans h1) h7
      refine ⟨h8.1, ?_⟩
      simpa using h8.2
    cases hv : view [self[d]] sizes with
    | error e =>
      simp only [reduceCtorEq, false_iff]
      rintro ⟨pre', x', post', v, h5, h6, h7, _⟩
      obtain ⟨_, rfl, _⟩ := huniq pre' x' post' h5 h6
      rw [(view_iff [self[d]] sizes v).mpr (by rw [hn1]; exact h7)] at hv
      cases hv
    | ok v =>
      have hv' := (view_iff [self[d]] sizes v).mp hv
      rw [hn1] at hv'
      simp only []
      constructor
      · intro h
        exact ⟨pre, self[d], post, v, h1, by rw [h2]; exact hdim, hv', (Except.ok.inj h).symm⟩
      · rintro ⟨pre', x', post', v', h5, h6, h7, rfl⟩
        obtain ⟨rfl, rfl, rfl⟩ := huniq pre' x' post' h5 h6
        rw [hv'.unique h7]
  · constructor
    · intro h
      unfold unflatten at h
      simp only [if_neg (show ¬ dim < 0 by omega)] at h
      cases hg : pyGet self dim with
      | error e => rw [hg] at h; cases h
      | ok x =>
        obtain ⟨n, hn, h1 | h1⟩ := pyGet_ok_iff.mp hg
        · have := (List.getElem?_eq_some_iff.mp hn).1
          omega
        · omega
    · rintro ⟨pre, x, post, v, h1, h2, _⟩
      have h3 : pre.length < self.length := by rw [h1]; simp
      unfold IsDim at h2
      omega

theorem IsUnflatten.numel {self : List Int} {dim : Int} {sizes c : List Int}
    (h : IsUnflatten self dim sizes c) : numel c = numel self := by
  obtain ⟨pre, x, post, v, rfl, _, hv, rfl⟩ := h
  rw [numel_append, numel_append, hv.numel, numel_append, Shape.numel, Int.mul_assoc]

theorem lastThree_iff (l lead : List Int) (c h w : Int) :
    lastThree l = some (lead, c, h, w) ↔ l = lead ++ [c, h, w] := by
  unfold lastThree
  constructor
  · intro h
    split at h
    · rename_i w' h' c' rest hr
      simp only [Option.some.injEq, Prod.mk.injEq] at h
      obtain ⟨rfl, rfl, rfl, rfl⟩ := h
      rw [← List.reverse_reverse l, hr]
      simp
    · cases h
  · rintro rfl
    simp

theorem lastThree_none (l : List Int) : lastThree l = none ↔ l.length < 3 := by
  unfold lastThree
  split
  · rename_i w h c rest hr
    have := congrArg List.length hr
    simp at this
    simp only [reduceCtorEq, false_iff]
    omega
  · rename_i h
    simp only [true_iff]
    have hl : l.length = l.reverse.length := by simp
    match hm : l.reverse, h with
    | [], _ => rw [hl, hm]; simp
    | [_], _ => rw [hl, hm]; simp
    | [_, _], _ => rw [hl, hm]; simp
    | w :: h :: c :: rest, h' => exact (h' w h c rest rfl).elim

end Verif.Shape
