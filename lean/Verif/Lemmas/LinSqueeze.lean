import Verif.Lemmas.LinGroups

namespace Verif.Lin

variable {E : Type}

/-! ## Groups of one dimension -/

def units (l : List Int) : List (List Int) := l.map fun n => [n]

theorem units_flatten (l : List Int) : (units l).flatten = l := by
  induction l with
  | nil => rfl
  | cons a l ih => unfold units at ih ⊢; rw [List.map_cons, List.flatten_cons, ih]; rfl

theorem units_prod (l : List Int) : (units l).map List.prod = l := by
  unfold units
  rw [List.map_map, List.map_congr_left (g := id), List.map_id]
  intro a _
  simp

theorem units_length (l : List Int) : (units l).map List.length = List.replicate l.length 1 := by
  induction l with
  | nil => rfl
  | cons a l ih => unfold units at ih ⊢; rw [List.map_cons, List.map_cons, ih]; rfl

theorem units_verify (l : List Int) : List.Forall₂ Verifies l (units l) := by
  induction l with
  | nil => exact List.Forall₂.nil
  | cons a l ih =>
    refine List.Forall₂.cons ?_ ih
    by_cases h : a = unknown
    · exact Or.inl ⟨by simp [h], h⟩
    · exact Or.inr ⟨by simpa using fun e => h e.symm, by simp⟩

theorem piece_one {v n : Int} (h : v = unknown ∨ v = n) (hn : 0 ≤ n) : Piece [v] [n] := by
  refine ⟨List.Forall₂.cons h List.Forall₂.nil, by simpa using hn, ?_, fun hu => ?_⟩
  · rw [List.count_cons]; split <;> simp
  · have : v = unknown := (List.mem_singleton.mp hu).symm
    subst this
    decide

theorem units_piece {l m : List Int} (h : List.Forall₂ (fun v n => v = unknown ∨ v = n) l m) (hm : ∀ n ∈ m, 0 ≤ n) : List.Forall₂ Piece (units l) (units m) := by
  induction h with
  | nil => exact List.Forall₂.nil
  | cons h1 _ ih => exact List.Forall₂.cons (piece_one h1 (hm _ (by simp))) (ih fun n hn => hm n (by simp [hn]))

theorem verify_pair (v : Int) : Verifies v [1, v] ∧ Verifies v [v, 1] := by
  by_cases h : v = unknown
  · subst h; exact ⟨Or.inl ⟨by simp, rfl⟩, Or.inl ⟨by simp, rfl⟩⟩
  · have : unknown ≠ v := fun e => h e.symm
    exact ⟨Or.inr ⟨by simp [this]; decide, by simp⟩, Or.inr ⟨by simp [this]; decide, by simp⟩⟩

theorem piece_pair {v n : Int} (h : v = unknown ∨ v = n) (hn : 0 ≤ n) : Piece [1, v] [1, n] ∧ Piece [v, 1] [n, 1] := by
  refine ⟨⟨.cons (Or.inr rfl) (.cons h .nil), by simp [hn], ?_, fun hu => ?_⟩, ⟨.cons h (.cons (Or.inr rfl) .nil), by simp [hn], ?_, fun hu => ?_⟩⟩
  · rw [List.count_cons, List.count_cons]; split <;> split <;> simp_all [unknown]
  · have : v = unknown := by simp [unknown] at hu ⊢; omega
    subst this
    decide
  · rw [List.count_cons, List.count_cons]; split <;> split <;> simp_all [unknown]
  · have : v = unknown := by simp [unknown] at hu ⊢; omega
    subst this
    decide

theorem getD_right' {l m : List Int} {i : Nat} {d : Int} (h : l.length ≤ i) : (l ++ m).getD i d = m.getD (i - l.length) d := by
  rw [List.getD_eq_getElem?_getD, List.getElem?_append_right h, List.getD_eq_getElem?_getD]

theorem toPositiveDim_of {dim : Int} {r d : Nat} (h : Shape.IsDim r dim d) (hr : 1 ≤ r) : toPositiveDim dim r = d ∧ isValidDim d r = true := by
  unfold Shape.IsDim at h
  rw [Nat.max_eq_left hr] at h
  unfold toPositiveDim isValidDim
  refine ⟨?_, by rw [decide_eq_true_eq]; omega⟩
  split <;> omega

/-! ## `unsqueeze` -/

theorem unsqueezeLoop_crossed (dim : Int) : ∀ (n i : Nat), unsqueezeLoop dim n i true = groupsOf (i + 1) (List.replicate n 1) := by
  intro n
  induction n with
  | zero => intro i; rfl
  | succ n ih => intro i; rw [unsqueezeLoop, if_pos rfl, ih]; rfl

theorem unsqueezeLoop_eq (dim : Int) : ∀ (k n i : Nat), dim = ((i + k : Nat) : Int) → unsqueezeLoop dim (k + 1 + n) i false = groupsOf i (List.replicate k 1 ++ 2 :: List.replicate n 1) := by
  intro k
  induction k with
  | zero =>
    intro n i h
    rw [show 0 + 1 + n = n + 1 by omega, unsqueezeLoop, if_neg (by simp), if_pos (by omega), unsqueezeLoop_crossed]
    rfl
  | succ k ih =>
    intro n i h
    rw [show k + 1 + 1 + n = (k + 1 + n) + 1 by omega, unsqueezeLoop, if_neg (by simp), if_neg (by omega), ih n (i + 1) (by rw [h]; push_cast; omega)]
    rfl

theorem forall2_append {α β : Type} {R : α → β → Prop} {a b : List α} {c d : List β} (h1 : List.Forall₂ R a c) (h2 : List.Forall₂ R b d) :
    List.Forall₂ R (a ++ b) (c ++ d) := by
  induction h1 with
  | nil => exact h2
  | cons h _ ih => exact List.Forall₂.cons h ih

theorem lowerUnsqueeze_spec {x : Operand E} (ht : x.Typed) (hx : ∀ n ∈ x.tensor.sizes, 0 ≤ n) {dim : Int} {c : List Int} (h : IsUnsqueeze x.tensor.sizes dim c) :
    ∃ t, lowerUnsqueeze x dim = .ok t ∧ t.sizes = c ∧ IsReshapeOf t x.tensor := by
  obtain ⟨pre, post, hs, hd, rfl⟩ := h
  obtain ⟨p1, p2⟩ := toPositiveDim_of hd (by omega)
  have hl : x.type.length = x.tensor.sizes.length := ht.1
  have hag := typed_agree ht
  unfold lowerUnsqueeze
  dsimp only
  rw [show ((x.type.length : Int) + 1) = ((x.tensor.sizes.length + 1 : Nat) : Int) by rw [hl]; rfl, p1, p2, if_neg (by simp), Int.toNat_natCast]
  have hlen : x.tensor.sizes.length = pre.length + post.length := by rw [hs, List.length_append]
  by_cases h0 : x.type.length = 0
  · -- a scalar
    have e1 : pre = [] := List.eq_nil_of_length_eq_zero (by omega)
    have e2 : post = [] := List.eq_nil_of_length_eq_zero (by omega)
    subst e1 e2
    have e3 : x.type = [] := List.eq_nil_of_length_eq_zero h0
    unfold expandTo
    rw [e3]
    refine ⟨_, rfl, rfl, reshape_of (fun _ => []) (by rw [hs]; rfl) (by simp [typeSizes]) (fun i hi => ?_) (fun i hi => rfl)⟩
    rw [hs]
    refine ⟨rfl, ?_⟩
    have := position_bound hi
    simp [typeSizes] at this
    show 0 = position [1] i
    omega
  · have hx' : ∀ l, l ⊆ x.tensor.sizes → ∀ n ∈ l, 0 ≤ n := fun l hl n hn => hx n (hl hn)
    rw [hs] at hag
    cases hp : post with
    | cons n post' =>
      subst hp
      have htk : ∃ a v b, typeSizes x.type = a ++ v :: b ∧ List.Forall₂ (fun v n => v = unknown ∨ v = n) a pre ∧ (v = unknown ∨ v = n) ∧
          List.Forall₂ (fun v n => v = unknown ∨ v = n) b post' := by
        obtain ⟨a, r, e, h1, h2⟩ := forall2_split (R := fun n v => v = unknown ∨ v = n) pre hag.flip
        obtain ⟨v, b, h3, h4, rfl⟩ := List.forall₂_cons_left_iff.mp h2
        exact ⟨a, v, b, e, h1.flip, h3, h4.flip⟩
      obtain ⟨a, v, b, ety, h1, h2, h3⟩ := htk
      have hal : a.length = pre.length := h1.length_eq
      have hbl : b.length = post'.length := h3.length_eq
      rw [if_neg (show ¬((pre.length : Int) = x.type.length ∧ x.type.length ≠ 0) by rw [hl]; simp at hlen; omega)]
      have hloop := unsqueezeLoop_eq (pre.length : Int) pre.length post'.length 0 (by omega)
      rw [show pre.length + 1 + post'.length = x.type.length by simp at hlen; omega] at hloop
      have := expandTo_ok hx ht h0 (O := units a ++ [1, v] :: units b) (S := units pre ++ [1, n] :: units post') ?_ ?_ ?_
      · have e1 : (units a ++ [1, v] :: units b).flatten = (typeSizes x.type).take pre.length ++ 1 :: (typeSizes x.type).drop pre.length := by
          rw [ety, ← hal, List.take_left, List.drop_left, List.flatten_append, List.flatten_cons, units_flatten, units_flatten]
          rfl
        have e2 : (units a ++ [1, v] :: units b).map List.length = List.replicate pre.length 1 ++ 2 :: List.replicate post'.length 1 := by
          rw [List.map_append, List.map_cons, units_length, units_length, hal, hbl]
          rfl
        have e3 : (units pre ++ [1, n] :: units post').flatten = pre ++ 1 :: n :: post' := by
          rw [List.flatten_append, List.flatten_cons, units_flatten, units_flatten]
          rfl
        rw [e1, e2, e3, ← hloop] at this
        exact this
      · rw [ety]
        exact forall2_append (units_verify a) (List.Forall₂.cons (verify_pair v).1 (units_verify b))
      · rw [hs, List.map_append, List.map_cons, units_prod, units_prod]
        simp
      · exact forall2_append (units_piece h1 (fun m hm => hx m (by rw [hs]; simp [hm]))) (List.Forall₂.cons (piece_pair h2 (hx n (by rw [hs]; simp))).1
          (units_piece h3 (fun m hm => hx m (by rw [hs]; simp [hm]))))
    | nil =>
      subst hp
      rw [List.append_nil] at hs hag
      obtain ⟨pre', n, rfl⟩ := snoc_of_ne (l := pre) (by rintro rfl; rw [hs] at hl; exact h0 hl)
      have htk : ∃ a v, typeSizes x.type = a ++ [v] ∧ List.Forall₂ (fun v n => v = unknown ∨ v = n) a pre' ∧ (v = unknown ∨ v = n) := by
        obtain ⟨a, r, e, h1, h2⟩ := forall2_split (R := fun n v => v = unknown ∨ v = n) pre' hag.flip
        obtain ⟨v, b, h3, h4, rfl⟩ := List.forall₂_cons_left_iff.mp h2
        cases h4
        exact ⟨a, v, e, h1.flip, h3⟩
      obtain ⟨a, v, ety, h1, h2⟩ := htk
      have hal : a.length = pre'.length := h1.length_eq
      simp only [List.length_append, List.length_singleton, List.length_nil] at hlen
      rw [if_pos (show (((pre' ++ [n]).length : Int) = x.type.length ∧ x.type.length ≠ 0) by rw [hl, hs]; simp)]
      have hloop := unsqueezeLoop_eq ((x.type.length : Int) - 1) pre'.length 0 0 (by omega)
      rw [show pre'.length + 1 + 0 = x.type.length by omega] at hloop
      have := expandTo_ok hx ht h0 (O := units a ++ [[v, 1]]) (S := units pre' ++ [[n, 1]]) ?_ ?_ ?_
      · have e1 : (units a ++ [[v, 1]]).flatten = (typeSizes x.type).take (pre' ++ [n]).length ++ 1 :: (typeSizes x.type).drop (pre' ++ [n]).length := by
          rw [ety, List.take_of_length_le (by simp [hal]), List.drop_of_length_le (by simp [hal]), List.flatten_append, units_flatten]
          simp
        have e2 : (units a ++ [[v, 1]]).map List.length = List.replicate pre'.length 1 ++ 2 :: List.replicate 0 1 := by
          rw [List.map_append, units_length, hal]
          rfl
        have e3 : (units pre' ++ [[n, 1]]).flatten = pre' ++ [n] ++ [1] := by
          rw [List.flatten_append, units_flatten]
          simp
        rw [e1, e2, e3, ← hloop] at this
        exact this
      · rw [ety]
        exact forall2_append (units_verify a) (List.Forall₂.cons (verify_pair v).2 List.Forall₂.nil)
      · rw [hs, List.map_append, units_prod]
        simp
      · exact forall2_append (units_piece h1 (fun m hm => hx m (by rw [hs]; simp [hm]))) (List.Forall₂.cons (piece_pair h2 (hx n (by rw [hs]; simp))).2 List.Forall₂.nil)

/-! ## `squeeze.dim` -/

theorem squeezeLoop_crossed (dim : Int) : ∀ (n i : Nat), squeezeLoop dim n i true = groupsOf (i + 1) (List.replicate n 1) := by
  intro n
  induction n with
  | zero => intro i; rfl
  | succ n ih => intro i; rw [squeezeLoop, if_pos rfl, ih]; rfl

theorem squeezeLoop_eq (dim : Int) : ∀ (k n i : Nat), dim = ((i + k + 1 : Nat) : Int) → squeezeLoop dim (k + 1 + n) i false = groupsOf i (List.replicate k 1 ++ 2 :: List.replicate n 1) := by
  intro k
  induction k with
  | zero =>
    intro n i h
    rw [show 0 + 1 + n = n + 1 by omega, squeezeLoop, if_neg (by simp), if_neg (by omega), squeezeLoop_crossed, if_neg (by omega), if_pos (by omega), h,
      Int.toNat_natCast]
    rfl
  | succ k ih =>
    intro n i h
    rw [show k + 1 + 1 + n = (k + 1 + n) + 1 by omega, squeezeLoop, if_neg (by simp), if_pos (by omega), ih n (i + 1) (by rw [h]; push_cast; omega)]
    rfl

theorem squeezeLoop_zero (n : Nat) : squeezeLoop 0 (n + 1) 0 false = groupsOf 0 (2 :: List.replicate n 1) := by
  rw [squeezeLoop, if_neg (by simp), if_neg (by simp), squeezeLoop_crossed, if_pos rfl, if_neg (by simp)]
  rfl

theorem verify_pair' {v w : Int} (h : v = 1 ∨ v = unknown ∧ w = unknown) : Verifies w [v, w] ∧ Verifies w [w, v] := by
  rcases h with rfl | ⟨rfl, rfl⟩
  · exact verify_pair w
  · exact ⟨Or.inl ⟨by simp, rfl⟩, Or.inl ⟨by simp, rfl⟩⟩

theorem lowerSqueezeDim_one {x : Operand E} (ht : x.Typed) (hx : ∀ n ∈ x.tensor.sizes, 0 ≤ n) {dim : Int} {pre post : List Int} (hs : x.tensor.sizes = pre ++ 1 :: post)
    (hd : Shape.IsDim x.tensor.sizes.length dim pre.length)
    (hc : x.type.getD pre.length none = some 1 ∨ 2 ≤ x.type.length ∧ x.type.getD (if pre.length = 0 then 1 else pre.length - 1) none = none) :
    ∃ t, lowerSqueezeDim x dim = .ok t ∧ t.sizes = pre ++ post ∧ IsReshapeOf t x.tensor := by
  have hlen : x.tensor.sizes.length = pre.length + post.length + 1 := by rw [hs]; simp; omega
  obtain ⟨p1, p2⟩ := toPositiveDim_of hd (by omega)
  have hl : x.type.length = x.tensor.sizes.length := ht.1
  have hag := typed_agree ht
  obtain ⟨a, v, b, ety, h1, h2, h3⟩ : ∃ a v b, typeSizes x.type = a ++ v :: b ∧ List.Forall₂ (fun v n => v = unknown ∨ v = n) a pre ∧ (v = unknown ∨ v = 1) ∧
      List.Forall₂ (fun v n => v = unknown ∨ v = n) b post := by
    rw [hs] at hag
    obtain ⟨a, r, e, h1, h2⟩ := forall2_split (R := fun n v => v = unknown ∨ v = n) pre hag.flip
    obtain ⟨v, b, h3, h4, rfl⟩ := List.forall₂_cons_left_iff.mp h2
    exact ⟨a, v, b, e, h1.flip, h3, h4.flip⟩
  have hal : a.length = pre.length := h1.length_eq
  have hbl : b.length = post.length := h3.length_eq
  have htg : ∀ (i : Nat), (typeSizes x.type).getD i unknown = (x.type.getD i none).getD unknown := by
    intro i
    unfold typeSizes
    rw [List.getD_eq_getElem?_getD, List.getElem?_map, List.getD_eq_getElem?_getD]
    cases x.type[i]? <;> rfl
  have hvt : v = (x.type.getD pre.length none).getD unknown := by
    rw [← htg, ety, getD_right' (by omega), hal, Nat.sub_self]
    rfl
  have hcv : v = 1 ∨ v = unknown ∧ 2 ≤ x.type.length ∧ (typeSizes x.type).getD (if pre.length = 0 then 1 else pre.length - 1) unknown = unknown := by
    rcases h2 with h | h
    · rcases hc with h' | ⟨h', h''⟩
      · rw [h'] at hvt; exact Or.inl hvt
      · rw [htg, h'']; exact Or.inr ⟨h, h', rfl⟩
    · exact Or.inl h
  unfold lowerSqueezeDim
  dsimp only
  rw [if_neg (by omega), hl, p1, p2, if_neg (by simp), Int.toNat_natCast, ety]
  have hsz : x.tensor.sizes.getD pre.length 0 = 1 := by rw [hs, getD_right (Nat.le_refl _)]; simp
  have hty : x.type.getD pre.length none = none ∨ x.type.getD pre.length none = some 1 := by
    cases hg : x.type.getD pre.length none with
    | none => exact Or.inl rfl
    | some m =>
      right
      have := ht.2 pre.length m (by
        rw [List.getD_eq_getElem?_getD] at hg
        cases hq : x.type[pre.length]? with
        | none => rw [hq] at hg; cases hg
        | some o => rw [hq] at hg; simp at hg; rw [hg])
      rw [List.getD_eq_getElem?_getD, this] at hsz
      simp at hsz
      rw [hsz]
  rw [if_neg (by rw [hsz]; simp), if_neg (by rcases hty with h | h <;> rw [h] <;> simp)]
  rw [← hal, List.take_left, ← List.drop_drop, List.drop_left, List.drop_succ_cons, List.drop_zero, hlen, Nat.add_sub_cancel]
  -- what is collapsed with the neighbour
  have fin : ∀ (O S : List (List Int)), squeezeLoop (a.length : Int) (pre.length + post.length) 0 false = groupsOf 0 (O.map List.length) →
      O.flatten = a ++ v :: b → S.flatten = x.tensor.sizes → O.map List.length = S.map List.length → S.map List.prod = pre ++ post →
      List.Forall₂ Verifies (a ++ b) O → a ++ b ≠ [] →
      ∃ t, collapseTo x (a ++ b) (squeezeLoop (a.length : Int) (pre.length + post.length) 0 false) = .ok t ∧ t.sizes = pre ++ post ∧ IsReshapeOf t x.tensor := by
    intro O S e1 e2 e3 e4 e5 e6 e7
    rw [e1, ← e5]
    exact collapseTo_ok hx (fun h => e7 (List.eq_nil_of_length_eq_zero h)) (by rw [ety, e2]) e6 e3.symm e4
  by_cases ha : pre = []
  · subst ha
    have ha' : a = [] := List.eq_nil_of_length_eq_zero hal
    subst ha'
    cases hp : post with
    | nil =>
      subst hp
      have hb' : b = [] := List.eq_nil_of_length_eq_zero hbl
      subst hb'
      have hv1 : v = 1 := by
        rcases hcv with h | ⟨_, h, _⟩
        · exact h
        · simp at hlen; omega
      subst hv1
      unfold collapseTo
      rw [ety]
      refine ⟨_, rfl, rfl, reshape_of (fun _ => x.type.map fun _ => 0) (by rw [hs]; rfl) (by simp) (fun i hi => ?_) (fun i hi => rfl)⟩
      have hl1 : x.type.length = 1 := by simp at hlen; omega
      obtain ⟨y, hy⟩ := List.length_eq_one_iff.mp hl1
      rw [hs, hy]
      cases i with
      | nil => exact ⟨rfl, rfl⟩
      | cons => simp [inRange] at hi
    | cons n post' =>
      subst hp
      cases hb : b with
      | nil => rw [hb] at hbl; simp at hbl
      | cons w b' =>
        subst hb
        cases h3 with
        | cons h3 h4 =>
        have hbl' : b'.length = post'.length := h4.length_eq
        apply fin ([v, w] :: units b') ([1, n] :: units post')
        · have := squeezeLoop_zero post'.length
          rw [show ([] : List Int).length + (n :: post').length = post'.length + 1 by simp]
          refine this.trans ?_
          rw [List.map_cons, units_length, hbl']
          rfl
        · rw [List.flatten_cons, units_flatten]; rfl
        · rw [List.flatten_cons, units_flatten, hs]; rfl
        · rw [List.map_cons, List.map_cons, units_length, units_length, hbl']; rfl
        · rw [List.map_cons, units_prod]; simp
        · rw [List.nil_append]
          refine List.Forall₂.cons (verify_pair' ?_).1 (units_verify _)
          rcases hcv with h | ⟨h, _, h'⟩
          · exact Or.inl h
          · rw [ety] at h'; exact Or.inr ⟨h, by simpa using h'⟩
        · simp
  · obtain ⟨pre', n, rfl⟩ := snoc_of_ne ha
    obtain ⟨a', w, rfl⟩ := snoc_of_ne (l := a) (by rintro rfl; simp at hal)
    have hal' : a'.length = pre'.length := by simpa using hal
    apply fin (units a' ++ [w, v] :: units b) (units pre' ++ [n, 1] :: units post)
    · have := squeezeLoop_eq ((a' ++ [w]).length : Int) pre'.length post.length 0 (by simp [hal'])
      rw [show (pre' ++ [n]).length + post.length = pre'.length + 1 + post.length by simp]
      refine this.trans ?_
      rw [List.map_append, List.map_cons, units_length, units_length, hbl, hal']
      rfl
    · rw [List.flatten_append, List.flatten_cons, units_flatten, units_flatten]; simp
    · rw [List.flatten_append, List.flatten_cons, units_flatten, units_flatten, hs]; simp
    · rw [List.map_append, List.map_append, List.map_cons, List.map_cons, units_length, units_length, units_length, units_length, hbl, hal']; rfl
    · rw [List.map_append, List.map_cons, units_prod, units_prod]; simp
    · rw [List.append_assoc, List.singleton_append]
      refine forall2_append (units_verify _) (List.Forall₂.cons (verify_pair' ?_).2 (units_verify _))
      rcases hcv with h | ⟨h, _, h'⟩
      · exact Or.inl h
      · refine Or.inr ⟨h, ?_⟩
        rw [ety, if_neg (by simp), List.append_assoc, List.length_append, List.length_singleton, Nat.add_sub_cancel, getD_right' (by omega), hal', Nat.sub_self] at h'
        simpa using h'
    · simp

/-- A dimension known not to be of size one stays. -/
theorem lowerSqueezeDim_other {x : Operand E} {dim : Int} {d : Nat} {m : Int} (h1 : x.type[d]? = some (some m)) (hm : m ≠ 1)
    (hd : Shape.IsDim x.type.length dim d) : lowerSqueezeDim x dim = .ok x.tensor := by
  have hlt : d < x.type.length := (List.getElem?_eq_some_iff.mp h1).1
  obtain ⟨p1, p2⟩ := toPositiveDim_of hd (by omega)
  unfold lowerSqueezeDim
  dsimp only
  rw [if_neg (by omega), p1, p2, if_neg (by simp), Int.toNat_natCast, List.getD_eq_getElem?_getD, h1]
  simp [hm]

end Verif.Lin
