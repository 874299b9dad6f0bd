import Verif.Lemmas.DecRepeat

/-! # Tiles and interleaved repetition -/

namespace Verif.Dec

open Lin

variable {E : Type}

theorem typeOf_forall₂ : ∀ {type : List (Option Int)} {sizes : List Int}, TypeOf type sizes →
    List.Forall₂ (fun (o : Option Int) n => ∀ k, o = some k → n = k) type sizes := by
  intro type
  induction type with
  | nil => intro sizes h; cases sizes with
    | nil => exact .nil
    | cons => cases h.1
  | cons o os ih => intro sizes h; cases sizes with
    | nil => cases h.1
    | cons n ns =>
      refine .cons ?_ (ih ⟨by simpa using h.1, fun d k hk => ?_⟩)
      · intro k hk
        have := h.2 0 k (by rw [hk]; rfl)
        simpa using this
      · simpa using h.2 (d + 1) k (by simpa using hk)

theorem tile_ok {x : Tensor E} {type : List (Option Int)} {reps : List Rep} (ht : TypeOf type x.sizes)
    (hx : ∀ n ∈ x.sizes, 0 ≤ n) (hr : ∀ r ∈ reps, 0 ≤ r.value) :
    ∃ t, decTile x type reps = .ok t ∧ IsTileOf t x (reps.map (·.value)) := by
  unfold decTile IsTileOf
  rw [List.length_map]
  by_cases h : reps.length < x.sizes.length
  · rw [if_pos h]
    obtain ⟨t, h1, h2⟩ := repeat_ok (x := x) (type := type) (reps := List.replicate (x.sizes.length - reps.length) ⟨1, true⟩ ++ reps) (typeOf_forall₂ ht) hx
      (by
        intro r hr'
        rcases List.mem_append.1 hr' with h' | h'
        · rw [List.eq_of_mem_replicate h']; decide
        · exact hr r h') (by rw [List.length_append, List.length_replicate]; omega)
    rw [List.map_append, List.map_replicate] at h2
    exact ⟨t, h1, h2⟩
  · rw [if_neg h, show x.sizes.length - reps.length = 0 by omega]
    exact repeat_ok (typeOf_forall₂ ht) hx hr (by omega)

theorem oneIdx_inRange : ∀ {ns is : List Int}, inRange ns is = true → oneIdx ns is = is := by
  intro ns
  induction ns with
  | nil => intro is h; cases is with
    | nil => rfl
    | cons => simp [inRange] at h
  | cons n ns ih => intro is h; cases is with
    | nil => rfl
    | cons i is =>
      rw [inRange, Bool.and_eq_true, decide_eq_true_eq] at h
      have := ih h.2
      unfold oneIdx at this ⊢
      rw [List.zipWith_cons_cons, this]
      by_cases hn : n = 1
      · rw [if_pos hn]; congr 1; omega
      · rw [if_neg hn]

theorem expandSizes_minus : ∀ (l : List Int), expandSizes l (List.replicate l.length (-1)) = l := by
  intro l
  induction l with
  | nil => rfl
  | cons n l ih =>
    unfold expandSizes at ih ⊢
    rw [List.length_cons, List.replicate_succ, List.zipWith_cons_cons, ih, if_pos rfl]

theorem expand_one {u : Tensor E} {pre post : List Int} {reps : Int} (hs : u.sizes = pre ++ 1 :: post) (hr : 0 ≤ reps) (hx : ∀ n ∈ pre ++ post, 0 ≤ n) :
    ∃ e, expand u ((List.replicate (pre.length + post.length + 1) (-1)).set pre.length reps) = some e ∧ e.sizes = pre ++ reps :: post ∧
      ∀ a z c, inRange pre a = true → inRange post c = true → e.elem (a ++ z :: c) = u.elem (a ++ 0 :: c) := by
  have hset : (List.replicate (pre.length + post.length + 1) (-1 : Int)).set pre.length reps =
      List.replicate pre.length (-1) ++ reps :: List.replicate post.length (-1) := by
    rw [show pre.length + post.length + 1 = pre.length + (post.length + 1) by omega, ← List.replicate_append_replicate, List.set_append_right _ _ (by simp),
      List.length_replicate, Nat.sub_self, List.replicate_succ, List.set_cons_zero]
  have hsz : expandSizes u.sizes (List.replicate pre.length (-1) ++ reps :: List.replicate post.length (-1)) = pre ++ reps :: post := by
    have h1 := expandSizes_minus pre
    have h2 := expandSizes_minus post
    unfold expandSizes at h1 h2 ⊢
    rw [hs, List.zipWith_append (by simp), h1, List.zipWith_cons_cons, h2, if_neg (by omega)]
  have := expand_of (x := u) (size := List.replicate pre.length (-1) ++ reps :: List.replicate post.length (-1)) (by rw [hs]; simp) (by
    rw [hsz, hs, List.zip_append rfl]
    intro q hq
    have diag : ∀ (l : List Int), q ∈ l.zip l → q.1 = q.2 ∧ q.2 ∈ l := by
      intro l hq
      obtain ⟨i, hi, he⟩ := List.mem_iff_getElem.1 hq
      rw [List.getElem_zip] at he
      rw [← he]
      exact ⟨rfl, List.getElem_mem _⟩
    rcases List.mem_append.1 hq with hq | hq
    · have := diag _ hq
      exact ⟨hx _ (List.mem_append_left _ this.2), .inr this.1⟩
    · rw [List.zip_cons_cons] at hq
      rcases List.mem_cons.1 hq with hq | hq
      · rw [hq]; exact ⟨hr, .inl rfl⟩
      · have := diag _ hq
        exact ⟨hx _ (List.mem_append_right _ this.2), .inr this.1⟩)
  rw [hset, this]
  refine ⟨_, rfl, hsz, ?_⟩
  intro a z c ha hc
  show u.elem (oneIdx u.sizes (a ++ z :: c)) = _
  have h1 := oneIdx_inRange ha
  have h2 := oneIdx_inRange hc
  unfold oneIdx at h1 h2 ⊢
  rw [hs, List.zipWith_append (inRange_length ha).symm, h1, List.zipWith_cons_cons, h2, if_pos rfl]

theorem interleave_ok {x : Tensor E} {reps dim : Int} {d : Nat} (hd : Dim x.sizes.length dim d) (hr : 0 ≤ reps) (hx : ∀ n ∈ x.sizes, 0 ≤ n) :
    ∃ t, decRepeatInterleave x reps dim = some t ∧ IsInterleaveOf t x d reps := by
  have hlt := hd.1
  have hsplit : x.sizes = x.sizes.take d ++ x.sizes.getD d 0 :: x.sizes.drop (d + 1) := by
    conv_lhs => rw [← List.take_append_drop d x.sizes, List.drop_eq_getElem_cons hlt]
    rw [List.getD_eq_getElem?_getD, List.getElem?_eq_getElem hlt, Option.getD_some]
  generalize hpre : x.sizes.take d = pre at hsplit
  generalize hn : x.sizes.getD d 0 = n at hsplit
  generalize hpost : x.sizes.drop (d + 1) = post at hsplit
  have hpl : d = pre.length := by rw [← hpre, List.length_take]; omega
  have hlen : x.sizes.length = pre.length + post.length + 1 := by rw [hsplit]; simp; omega
  have hdim : (if dim ≥ 0 then dim else dim + (x.sizes.length : Int)) = d := by
    rcases hd.2 with h | h
    · rw [if_pos (by omega)]; omega
    · by_cases h0 : dim ≥ 0
      · omega
      · rw [if_neg h0]; omega
  obtain ⟨u, u1, u2, u3⟩ := unsqueeze_at (x := x) (pre := pre ++ [n]) (post := post) (d := d + 1) (by rw [hsplit]; simp) (by simp [hpl])
  obtain ⟨e, e1, e2, e3⟩ := expand_one (u := u) (pre := pre ++ [n]) (post := post) (reps := reps) u2 hr
    (by intro m hm; exact hx m (by rw [hsplit]; simpa using hm))
  obtain ⟨t, t1, t2, t3⟩ := collapse_of (x := e) (pre := pre) (mid := [n, reps]) (post := post) (s := d) (e := d + 1) (by rw [e2]; simp) hpl (by simp [hpl]) (by simp)
  refine ⟨t, ?_, ?_, ?_⟩
  · unfold decRepeatInterleave
    simp only [hdim]
    have c1 : ((d : Int) + 1) = ((d + 1 : Nat) : Int) := by omega
    rw [c1, u1]
    simp only [Option.bind_eq_bind, Option.bind_some, Int.toNat_natCast]
    have hq : (pre ++ [n]).length = d + 1 := by simp [hpl]
    rw [hq, show d + 1 + post.length + 1 = x.sizes.length + 1 by omega] at e1
    rw [e1]
    simp only [Option.bind_some, t1]
  · rw [t2, hsplit, hpl]
    simp
  · intro idx hidx
    rw [t2] at hidx
    have hil := inRange_length hidx
    simp only [List.length_append, List.length_cons] at hil
    obtain ⟨a, v, c, rfl, hal⟩ : ∃ a v c, idx = a ++ v :: c ∧ a.length = pre.length := by
      refine ⟨idx.take d, idx[d]'(by omega), idx.drop (d + 1), ?_, by rw [List.length_take]; omega⟩
      rw [← List.drop_eq_getElem_cons, List.take_append_drop]
    rw [inRange_split _ _ _ _ hal.symm, Bool.and_eq_true, inRange, Bool.and_eq_true, decide_eq_true_eq] at hidx
    obtain ⟨ha, hv, hc⟩ := hidx
    have hv' : 0 ≤ v ∧ v < n * reps := by simpa using hv
    have hrp : 0 < reps := by
      rcases Int.lt_or_eq_of_le hr with h | h
      · exact h
      · rw [← h, Int.mul_zero] at hv'; omega
    have hq : 0 ≤ v / reps ∧ v / reps < n := ⟨Int.ediv_nonneg hv'.1 hr, Int.ediv_lt_of_lt_mul hrp hv'.2⟩
    have t' := t3 a v c hal
    rw [delinearize_pair] at t'
    have e' := e3 (a ++ [v / reps]) (v % reps) c (by rw [inRange_split _ _ _ _ hal.symm, ha]; simp [inRange, hq]) hc
    have u' := u3 (a ++ [v / reps]) 0 c (by simp [hal])
    simp only [List.append_assoc, List.cons_append, List.nil_append] at t' e' u'
    rw [t', e', u', getD_pre (hpl.trans hal.symm), hpl, ← hal]
    simp

theorem interleaveAll_ok {x : Tensor E} {reps : Int} (hr : 0 ≤ reps) (hx : ∀ n ∈ x.sizes, 0 ≤ n) :
    ∃ t, decRepeatInterleaveAll x reps = some t ∧ IsInterleaveAll t x reps := by
  obtain ⟨u, u1, u2, u3⟩ := unsqueeze_at (x := x) (pre := x.sizes) (post := []) (d := x.sizes.length) (by simp) rfl
  obtain ⟨e, e1, e2, e3⟩ := expand_one (u := u) (pre := x.sizes) (post := []) (reps := reps) u2 hr (by simpa using hx)
  obtain ⟨t, t1, t2, t3⟩ := collapse_of (x := e) (pre := []) (mid := x.sizes ++ [reps]) (post := []) (s := 0) (e := x.sizes.length) (by rw [e2]; simp) rfl (by simp) (by simp)
  refine ⟨t, ?_, ?_, ?_⟩
  · unfold decRepeatInterleaveAll
    have c1 : ((x.sizes.length : Int) - 1 + 1) = (x.sizes.length : Int) := by omega
    simp only [c1, u1, Option.bind_eq_bind, Option.bind_some, Int.toNat_natCast]
    simp only [List.length_nil, Nat.add_zero] at e1
    rw [e1]
    simp only [Option.bind_some]
    unfold flattenAll
    rw [if_neg (by rw [e2]; simp), e2]
    simpa using t1
  · rw [t2]; simp
  · intro j k hj hk
    have hl := inRange_length hj
    have hpos : position x.sizes j * reps + k = position (x.sizes ++ [reps]) (j ++ [k]) := by
      rw [position_append _ _ _ _ hl.symm]; simp [position]
    have t' := t3 [] (position (x.sizes ++ [reps]) (j ++ [k])) [] rfl
    rw [delinearize_position (by rw [inRange_split _ _ _ _ hl.symm, hj]; simp [inRange, hk])] at t'
    simp only [List.nil_append, List.append_nil] at t'
    have u' := u3 j 0 [] hl
    rw [List.append_nil] at u'
    rw [hpos, t', e3 j k [] hj rfl, u']

end Verif.Dec
