import Verif.Model.ShapeMatmul
import Verif.Spec.Matmul
import Verif.Lemmas.Broadcast

/-! # Lemmas about matrix products -/

namespace Verif.Shape

theorem mm_iff (a b c : List Int) :
    mm a b = .ok c ↔ ∃ n k p, a = [n, k] ∧ b = [k, p] ∧ c = [n, p] := by
  unfold mm
  split
  · rename_i n k k' p
    split
    · rename_i h
      simp only [reduceCtorEq, false_iff]
      rintro ⟨n1, k1, p1, ha, hb, _⟩
      simp only [List.cons.injEq] at ha hb
      exact h (ha.2.1.trans hb.1.symm)
    · rename_i h
      have h : k = k' := by simpa using h
      subst h
      constructor
      · intro h; exact ⟨n, k, p, rfl, rfl, (Except.ok.inj h).symm⟩
      · rintro ⟨n1, k1, p1, ha, hb, rfl⟩
        simp only [List.cons.injEq] at ha hb
        rw [ha.1, hb.2.1]
  · rename_i h
    simp only [reduceCtorEq, false_iff]
    rintro ⟨n1, k1, p1, ha, hb, _⟩
    exact h n1 k1 k1 p1 ha hb

theorem bmm_iff (a b c : List Int) :
    bmm a b = .ok c ↔ ∃ x n k p, a = [x, n, k] ∧ b = [x, k, p] ∧ c = [x, n, p] := by
  unfold bmm
  split
  · rename_i x n k x' k' p
    split
    · rename_i h
      simp only [reduceCtorEq, false_iff]
      rintro ⟨x1, n1, k1, p1, ha, hb, _⟩
      simp only [List.cons.injEq] at ha hb
      exact h (ha.1.trans hb.1.symm)
    · rename_i h
      split
      · rename_i h
        simp only [reduceCtorEq, false_iff]
        rintro ⟨x1, n1, k1, p1, ha, hb, _⟩
        simp only [List.cons.injEq] at ha hb
        exact h (ha.2.2.1.trans hb.2.1.symm)
      · rename_i h2
        have h : x = x' := by simpa using h
        have h2 : k = k' := by simpa using h2
        subst h h2
        constructor
        · intro h; exact ⟨x, n, k, p, rfl, rfl, (Except.ok.inj h).symm⟩
        · rintro ⟨x1, n1, k1, p1, ha, hb, rfl⟩
          simp only [List.cons.injEq] at ha hb
          rw [ha.1, ha.2.1, hb.2.2.1]
  · rename_i h
    simp only [reduceCtorEq, false_iff]
    rintro ⟨x1, n1, k1, p1, ha, hb, _⟩
    exact h x1 n1 k1 x1 k1 p1 ha hb

theorem mat_split {l : List Int} (h : 2 ≤ l.length) : ∃ batch n k, l = batch ++ [n, k] := by
  refine ⟨l.take (l.length - 2), l[l.length - 2], l[l.length - 1], ?_⟩
  conv => lhs; rw [← List.take_append_drop (l.length - 2) l]
  congr 1
  apply List.ext_getElem (by simp; omega)
  intro i h1 h2
  simp only [List.length_cons, List.length_nil] at h2
  rcases Nat.lt_or_ge i 1 with h3 | h3
  · have : i = 0 := by omega
    subst this
    simp
  · have : i = 1 := by omega
    subst this
    simp only [List.getElem_drop, List.getElem_cons_succ, List.getElem_cons_zero]
    congr 1
    omega

theorem mat_inj {b1 b2 : List Int} {n1 k1 n2 k2 : Int} (h : b1 ++ [n1, k1] = b2 ++ [n2, k2]) :
    b1 = b2 ∧ n1 = n2 ∧ k1 = k2 := by
  have := List.append_inj' h rfl
  refine ⟨this.1, ?_⟩
  simpa using this.2

theorem Left.exists {a : List Int} (h : 1 ≤ a.length) : ∃ ba rows k, Left a ba rows k := by
  by_cases h2 : 2 ≤ a.length
  · obtain ⟨b, n, k, rfl⟩ := mat_split h2
    exact ⟨b, [n], k, Left.mat b n k⟩
  · match a, h, h2 with
    | [k], _, _ => exact ⟨[], [], k, Left.vec k⟩
    | _ :: _ :: _, _, h2 => simp at h2

theorem Right.exists {a : List Int} (h : 1 ≤ a.length) : ∃ ba k cols, Right a ba k cols := by
  by_cases h2 : 2 ≤ a.length
  · obtain ⟨b, n, k, rfl⟩ := mat_split h2
    exact ⟨b, n, [k], Right.mat b n k⟩
  · match a, h, h2 with
    | [k], _, _ => exact ⟨[], k, [], Right.vec k⟩
    | _ :: _ :: _, _, h2 => simp at h2

theorem not_vec_mat {k : Int} {batch : List Int} {n k' : Int} (h : [k] = batch ++ [n, k']) : False := by
  have := congrArg List.length h
  simp at this

theorem Left.unique {a ba rows ba' rows' : List Int} {k k' : Int} (h : Left a ba rows k)
    (h' : Left a ba' rows' k') : ba = ba' ∧ rows = rows' ∧ k = k' := by
  cases h with
  | vec =>
    generalize hx : [k] = x at h'
    cases h' with
    | vec => exact ⟨rfl, rfl, by simpa using hx⟩
    | mat => exact (not_vec_mat hx).elim
  | mat b n =>
    generalize hx : ba ++ [n, k] = x at h'
    cases h' with
    | vec => exact (not_vec_mat hx.symm).elim
    | mat b' n' => obtain ⟨h1, h2, h3⟩ := mat_inj hx; exact ⟨h1, by rw [h2], h3⟩

theorem Right.unique {a ba cols ba' cols' : List Int} {k k' : Int} (h : Right a ba k cols)
    (h' : Right a ba' k' cols') : ba = ba' ∧ k = k' ∧ cols = cols' := by
  cases h with
  | vec =>
    generalize hx : [k] = x at h'
    cases h' with
    | vec => exact ⟨rfl, by simpa using hx, rfl⟩
    | mat => exact (not_vec_mat hx).elim
  | mat b _ n =>
    generalize hx : ba ++ [k, n] = x at h'
    cases h' with
    | vec => exact (not_vec_mat hx.symm).elim
    | mat b' _ n' => obtain ⟨h1, h2, h3⟩ := mat_inj hx; exact ⟨h1, h2, by rw [h3]⟩

theorem Left.pos {a ba rows : List Int} {k : Int} (h : Left a ba rows k) : 1 ≤ a.length := by
  cases h <;> simp

theorem Right.pos {a ba cols : List Int} {k : Int} (h : Right a ba k cols) : 1 ≤ a.length := by
  cases h <;> simp

/-- The general branch computes the product shape without looking at the inner sizes. -/
theorem matmulGeneral_iff {a b ba bb rows cols : List Int} {k k' : Int} (hl : Left a ba rows k)
    (hr : Right b bb k' cols) (c : List Int) :
    matmulGeneral a b = .ok c ↔ ∃ batch, IsBroadcast ba bb batch ∧ c = batch ++ rows ++ cols := by
  have hL : (if a.length > 1 then pyGet a (-2) else (.ok 1 : Py Int)) = .ok (rows.headD 1) ∧
      a.take (a.length - 2) = ba ∧ ∀ n : Int, n = rows.headD 1 → (if a.length > 1 then [n] else []) = rows := by
    cases hl with
    | vec => refine ⟨by simp, by simp, ?_⟩; intro n _; simp
    | mat _ n =>
      have hlen : (ba ++ [n, k]).length > 1 := by simp
      refine ⟨?_, by simp, ?_⟩
      · rw [if_pos hlen]
        have := pyGet_neg (ba ++ [n, k]) 2 (by omega) (by simp)
        rw [show (-2 : Int) = -((2 : Nat) : Int) by rfl, this]
        simp
      · intro m hm
        rw [if_pos hlen, hm]; rfl
  have hR : ∃ p, pyGet b (-1) = .ok p ∧ b.take (b.length - 2) = bb ∧
      (if b.length > 1 then [p] else []) = cols := by
    cases hr with
    | vec => exact ⟨k', rfl, rfl, rfl⟩
    | mat _ _ p =>
      have hlen : (bb ++ [k', p]).length > 1 := by simp
      refine ⟨p, ?_, by simp, if_pos hlen⟩
      have := pyGet_neg (bb ++ [k', p]) 1 (by omega) (by simp)
      rw [show (-1 : Int) = -((1 : Nat) : Int) by rfl, this]
      simp
  obtain ⟨hL1, hL2, hL3⟩ := hL
  obtain ⟨p, hR1, hR2, hR3⟩ := hR
  unfold matmulGeneral
  rw [hL1, hR1, hL2, hR2]
  simp only []
  cases hb : broadcast ba bb with
  | error e =>
    simp only [reduceCtorEq, false_iff]
    rintro ⟨batch, h, _⟩
    rw [(broadcast_iff ba bb batch).mpr h] at hb
    cases hb
  | ok batch =>
    simp only []
    rw [hL3 _ rfl, hR3]
    have hbr := (broadcast_iff ba bb batch).mp hb
    constructor
    · intro h; exact ⟨batch, hbr, (Except.ok.inj h).symm⟩
    · rintro ⟨batch', h, rfl⟩
      rw [hbr.unique h]

theorem isBroadcast_nil {c : List Int} : IsBroadcast [] [] c ↔ c = [] := by
  rw [← broadcast_iff, broadcast_nil]
  constructor
  · intro h; exact (Except.ok.inj h).symm
  · rintro rfl; rfl

theorem isMatmul_iff {a b ba bb rows cols : List Int} {k k' : Int} (hl : Left a ba rows k)
    (hr : Right b bb k' cols) (c : List Int) :
    IsMatmul a b c ↔ k = k' ∧ ∃ batch, IsBroadcast ba bb batch ∧ c = batch ++ rows ++ cols := by
  constructor
  · rintro ⟨ba', rows', k1, bb', cols', batch, hl', hr', hb, hc⟩
    obtain ⟨rfl, rfl, rfl⟩ := hl.unique hl'
    obtain ⟨rfl, rfl, rfl⟩ := hr.unique hr'
    exact ⟨rfl, batch, hb, hc⟩
  · rintro ⟨rfl, batch, hb, hc⟩
    exact ⟨ba, rows, k, bb, cols, batch, hl, hr, hb, hc⟩

theorem sameInner_iff {a b ba bb rows cols : List Int} {k k' : Int} (hl : Left a ba rows k)
    (hr : Right b bb k' cols) : SameInner a b ↔ k = k' := by
  constructor
  · intro h; exact h _ _ _ _ _ _ hl hr
  · rintro rfl ba' rows' k1 bb' k2 cols' hl' hr'
    rw [(hl'.unique hl).2.2, (hr'.unique hr).2.1]

theorem Left.mat2 (n k : Int) : Left [n, k] [] [n] k := Left.mat [] n k

theorem Right.mat2 (k p : Int) : Right [k, p] [] k [p] := Right.mat [] k p

/-- Vectors and matrices are checked. -/
theorem matmul_small {a b : List Int} (ha : a.length ≤ 2) (hb : b.length ≤ 2) (c : List Int) :
    matmul a b = .ok c ↔ IsMatmul a b c := by
  match a, b with
  | [], b =>
    unfold matmul
    simp
    rintro ⟨_, _, _, _, _, _, hl, _⟩
    exact absurd hl.pos (by simp)
  | a :: as, [] =>
    unfold matmul
    simp
    rintro ⟨_, _, _, _, _, _, _, hr, _⟩
    exact absurd hr.pos (by simp)
  | [k], [k'] =>
    rw [isMatmul_iff (Left.vec k) (Right.vec k')]
    simp only [isBroadcast_nil, exists_eq_left, List.append_nil]
    by_cases hk : k = k' <;> simp [matmul, dot, hk, eq_comm]
  | [n, k], [k'] =>
    rw [isMatmul_iff (Left.mat2 n k) (Right.vec k')]
    simp only [isBroadcast_nil, exists_eq_left, List.append_nil]
    by_cases hk : k = k' <;> simp [matmul, mv, hk, eq_comm]
  | [k], [k', p] =>
    rw [isMatmul_iff (Left.vec k) (Right.mat2 k' p)]
    simp only [isBroadcast_nil, exists_eq_left, List.append_nil]
    have h1 : unsqueeze [k] 0 = .ok [1, k] := rfl
    have h2 : squeeze [1, p] 0 = .ok [p] := by simp [squeeze, maybeWrapDim, wrapRange, squeezeLoop]
    simp only [matmul, List.length_cons, List.length_nil, h1, mm]
    by_cases hk : k = k'
    · simp [hk, h2, eq_comm]
    · simp [hk]
  | [n, k], [k', p] =>
    rw [isMatmul_iff (Left.mat2 n k) (Right.mat2 k' p)]
    simp only [isBroadcast_nil, exists_eq_left]
    by_cases hk : k = k' <;> simp [matmul, mm, hk, eq_comm]
  | _ :: _ :: _ :: _, _ => simp at ha
  | _, _ :: _ :: _ :: _ => simp at hb

theorem matmul_big {a b : List Int} (h : 2 < a.length ∨ 2 < b.length) :
    matmul a b = if a.length ≥ 1 ∧ b.length ≥ 1 then matmulGeneral a b else .error .assertion := by
  unfold matmul
  rw [if_neg (by omega), if_neg (by omega), if_neg (by omega), if_neg (by omega)]

/-- With equal inner sizes the shape is right. -/
theorem matmul_sameInner {a b : List Int} (h : SameInner a b) (c : List Int) :
    matmul a b = .ok c ↔ IsMatmul a b c := by
  by_cases hs : a.length ≤ 2 ∧ b.length ≤ 2
  · exact matmul_small hs.1 hs.2 c
  · rw [matmul_big (by omega)]
    split
    · rename_i hp
      obtain ⟨ba, rows, k, hl⟩ := Left.exists hp.1
      obtain ⟨bb, k', cols, hr⟩ := Right.exists hp.2
      rw [matmulGeneral_iff hl hr, isMatmul_iff hl hr, (sameInner_iff hl hr).mp h]
      simp
    · rename_i hp
      simp only [reduceCtorEq, false_iff]
      rintro ⟨_, _, _, _, _, _, hl, hr, _⟩
      exact hp ⟨hl.pos, hr.pos⟩

theorem IsMatmul.sameInner {a b c : List Int} (h : IsMatmul a b c) : SameInner a b := by
  obtain ⟨ba, rows, k, bb, cols, batch, hl, hr, _⟩ := h
  exact (sameInner_iff hl hr).mpr rfl

theorem broadcast_expands_iff (b c : List Int) : broadcast b c = .ok c ↔ ExpandsTo b c := by
  rw [broadcast_iff]
  unfold IsBroadcast ExpandsTo Common
  constructor
  · rintro ⟨h1, h2⟩
    refine ⟨by omega, fun k => ?_⟩
    have := h2 k
    omega
  · rintro ⟨h1, h2⟩
    refine ⟨by omega, fun k => ?_⟩
    have := h2 k
    omega

/-- `linear` once the product of input and transposed weight is known to be right. -/
theorem linear_of {input weight : List Int} {bias : Option (List Int)} {c : List Int}
    (hm : ∀ wt, t weight = .ok wt → ∀ c, matmul input wt = .ok c ↔ IsMatmul input wt c) :
    linear input weight bias = .ok c ↔ IsLinear input weight bias c := by
  have hw : (∃ wt, t weight = .ok wt ∧ IsMatmul input wt c) ↔
      ((∃ k, weight = [k] ∧ IsMatmul input [k] c) ∨ (∃ m k, weight = [m, k] ∧ IsMatmul input [k, m] c)) := by
    match weight with
    | [] =>
      simp only [t, Except.ok.injEq, exists_eq_left']
      simp only [List.nil_eq, reduceCtorEq, false_and, exists_false, or_self, iff_false]
      rintro ⟨_, _, _, _, _, _, _, hr, _⟩
      exact absurd hr.pos (by simp)
    | [k] => simp [t]
    | [m, k] =>
      simp only [t, Except.ok.injEq, exists_eq_left']
      constructor
      · intro h; exact Or.inr ⟨m, k, rfl, h⟩
      · rintro (⟨_, h, _⟩ | ⟨m', k', h, h'⟩)
        · simp at h
        · simp only [List.cons.injEq, and_true] at h
          obtain ⟨rfl, rfl⟩ := h
          exact h'
    | _ :: _ :: _ :: _ => simp [t]
  unfold IsLinear
  rw [← hw]
  unfold linear
  cases ht : t weight with
  | error e => simp
  | ok wt =>
    simp only [Except.ok.injEq, exists_eq_left']
    cases hmm : matmul input wt with
    | error e =>
      simp only [reduceCtorEq, false_iff]
      rintro ⟨h, _⟩
      rw [(hm wt ht c).mpr h] at hmm
      cases hmm
    | ok out =>
      have hout := (hm wt ht out).mp hmm
      have huniq : IsMatmul input wt c ↔ c = out := by
        constructor
        · intro h
          have := (hm wt ht c).mpr h
          rw [hmm] at this
          exact (Except.ok.inj this).symm
        · rintro rfl; exact hout
      rw [huniq]
      simp only []
      cases bias with
      | none => simp [eq_comm]
      | some b =>
        simp only [Option.some.injEq, forall_eq']
        cases hb : broadcast b out with
        | error e =>
          simp only [reduceCtorEq, false_iff]
          rintro ⟨rfl, h⟩
          rw [(broadcast_expands_iff b c).mpr h] at hb
          cases hb
        | ok d =>
          simp only []
          by_cases hd : d = out
          · rw [if_neg (by simpa using hd)]
            subst hd
            have := (broadcast_expands_iff b d).mp hb
            constructor
            · intro h
              have := Except.ok.inj h
              subst this
              exact ⟨rfl, by assumption⟩
            · rintro ⟨rfl, _⟩; rfl
          · rw [if_pos hd]
            simp only [reduceCtorEq, false_iff]
            rintro ⟨rfl, h⟩
            rw [(broadcast_expands_iff b c).mpr h] at hb
            exact hd (Except.ok.inj hb).symm

theorem trail_append_last (l : List Int) (x : Int) (k : Nat) :
    trail (l ++ [x]) k = if k = 0 then x else trail l (k - 1) := by
  unfold trail
  rw [List.reverse_append]
  cases k <;> simp

theorem broadcast_last (l : List Int) (x : Int) : broadcast (l ++ [x]) [x] = .ok (l ++ [x]) := by
  rw [broadcast_comm, broadcast_expands_iff]
  refine ⟨by simp, fun k => ?_⟩
  rw [trail_append_last]
  cases k with
  | zero => left; rfl
  | succ k => right; simp [trail]

end Verif.Shape
