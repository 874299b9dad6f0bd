import Verif.Lemmas.Matmul
import Verif.Props.Expand

/-!
# C41: matrix product shapes

The shape computed for matmul/mm/bmm/mv/dot/linear exists exactly when inner sizes match and batch sizes
broadcast, and equals batch ++ rows ++ cols with vectors' unit dimensions removed.  This fails for
operands of rank above two, whose inner sizes are not compared.
-/

namespace Verif

open Shape

/-- `mm`: matrices with equal inner sizes. -/
theorem C41_mm (a b c : List Int) :
    mm a b = .ok c ↔ ∃ n k p, a = [n, k] ∧ b = [k, p] ∧ c = [n, p] := mm_iff a b c

/-- `bmm`: batches of matrices of equal number. -/
theorem C41_bmm (a b c : List Int) :
    bmm a b = .ok c ↔ ∃ x n k p, a = [x, n, k] ∧ b = [x, k, p] ∧ c = [x, n, p] := bmm_iff a b c

/-- `mv`: a matrix and a vector. -/
theorem C41_mv (a b c : List Int) :
    mv a b = .ok c ↔ ∃ n k, a = [n, k] ∧ b = [k] ∧ c = [n] := by
  unfold mv
  split
  · rename_i n k k'
    by_cases h : k = k'
    · subst h
      simp only [ne_eq, not_true_eq_false, if_false, Except.ok.injEq, List.cons.injEq, and_true]
      constructor
      · rintro rfl; exact ⟨n, k, ⟨rfl, rfl⟩, rfl, rfl⟩
      · rintro ⟨n1, k1, ⟨rfl, _⟩, _, rfl⟩; rfl
    · simp only [ne_eq, h, not_false_eq_true, if_true, reduceCtorEq, List.cons.injEq, and_true, false_iff]
      rintro ⟨n1, k1, ⟨_, h1⟩, h2, _⟩
      exact h (h1.trans h2.symm)
  · rename_i h
    simp only [reduceCtorEq, false_iff]
    rintro ⟨n1, k1, ha, hb, _⟩
    exact h n1 k1 k1 ha hb

/-- `matmul` of vectors and matrices. -/
theorem C41_matmul_small (a b c : List Int) (ha : a.length ≤ 2) (hb : b.length ≤ 2) :
    matmul a b = .ok c ↔ IsMatmul a b c := matmul_small ha hb c

/-- `matmul` of operands of any rank whose inner sizes are equal. -/
theorem C41_matmul_partial (a b c : List Int) (h : SameInner a b) :
    matmul a b = .ok c ↔ IsMatmul a b c := matmul_sameInner h c

/-- In particular every product that exists has its shape computed. -/
theorem C41_matmul_complete (a b c : List Int) (h : IsMatmul a b c) : matmul a b = .ok c :=
  (matmul_sameInner h.sameInner c).mpr h

/-- Inner sizes of batches of matrices are not compared: 4 against 5 is accepted. -/
theorem C41_matmul_violated : matmul [2, 3, 4] [2, 5, 6] = .ok [2, 3, 6] ∧
    ¬ ∃ c, IsMatmul [2, 3, 4] [2, 5, 6] c := by
  refine ⟨by decide +kernel, ?_⟩
  rintro ⟨c, h⟩
  exact absurd ((isMatmul_iff (Left.mat [2] 3 4) (Right.mat [2] 5 6) c).mp h).1 (by decide)

/-- `linear` of vectors and matrices. -/
theorem C41_linear_small (input weight : List Int) (bias : Option (List Int)) (c : List Int)
    (hi : input.length ≤ 2) :
    linear input weight bias = .ok c ↔ IsLinear input weight bias c := by
  apply linear_of
  intro wt ht c
  apply matmul_small hi
  match weight with
  | [] => simp only [t, Except.ok.injEq] at ht; subst ht; simp
  | [k] => simp only [t, Except.ok.injEq] at ht; subst ht; simp
  | [m, k] => simp only [t, Except.ok.injEq] at ht; subst ht; simp
  | _ :: _ :: _ :: _ => simp [t] at ht

/-- `linear` of an input of any rank whose last size is the weight's. -/
theorem C41_linear_partial (input weight : List Int) (bias : Option (List Int)) (c : List Int) (k : Int)
    (hw : weight.getLast? = some k) (hi : input.getLast? = some k) :
    linear input weight bias = .ok c ↔ IsLinear input weight bias c := by
  apply linear_of
  intro wt ht c
  apply matmul_sameInner
  intro ba rows k1 bb k2 cols hl hr
  have h1 : k1 = k := by
    cases hl with
    | vec => simpa using hi
    | mat _ n => simpa [List.getLast?_append] using hi
  have h2 : k2 = k := by
    match weight, hw, ht with
    | [x], hw, ht =>
      simp only [t, Except.ok.injEq] at ht
      subst ht
      rw [(hr.unique (Right.vec x)).2.1]
      simpa using hw
    | [m, x], hw, ht =>
      simp only [t, Except.ok.injEq] at ht
      subst ht
      rw [(hr.unique (Right.mat [] x m)).2.1]
      simpa using hw
    | _ :: _ :: _ :: _, _, ht => simp [t] at ht
  rw [h1, h2]

/-- Otherwise the mismatch goes unnoticed. -/
theorem C41_linear_violated : linear [2, 3, 4] [5, 6] none = .ok [2, 3, 5] ∧
    ¬ ∃ c, IsLinear [2, 3, 4] [5, 6] none c := by
  refine ⟨by decide +kernel, ?_⟩
  rintro ⟨c, h | h, _⟩
  · obtain ⟨k, hk, _⟩ := h
    simp at hk
  · obtain ⟨m, k, hk, h⟩ := h
    simp only [List.cons.injEq, and_true] at hk
    obtain ⟨rfl, rfl⟩ := hk
    exact absurd ((isMatmul_iff (Left.mat [2] 3 4) (Right.mat [] 6 5) c).mp h).1 (by decide)

/-- `addmm`: if `self` expands to the product's shape, that is the result. -/
theorem C41_addmm_partial (self a b c : List Int) (h : mm a b = .ok c) :
    ExpandsTo self c ↔ addmm self a b = .ok c := by
  unfold addmm
  rw [h]
  exact (broadcast_expands_iff self c).symm

/-- But a `self` the product would have to be expanded for is accepted too. -/
theorem C41_addmm_violated : addmm [3, 2, 2] [2, 5] [5, 2] = .ok [3, 2, 2] ∧
    ¬ ExpandsTo [3, 2, 2] [2, 2] := by
  refine ⟨by decide +kernel, ?_⟩
  rintro ⟨h, _⟩
  exact absurd h (by decide)

/-- `addbmm`: batches of matrices of equal number, summed; `self` is expanded to one matrix. -/
theorem C41_addbmm (self a b c : List Int) :
    addbmm self a b = .ok c ↔
      ∃ x n k p, a = [x, n, k] ∧ b = [x, k, p] ∧ IsExpand self [n, p] c := by
  unfold addbmm
  constructor
  · intro h
    split at h
    · cases h
    · rename_i m hm
      obtain ⟨x, n, k, p, rfl, rfl, rfl⟩ := (C41_bmm a b m).mp hm
      exact ⟨x, n, k, p, rfl, rfl, (C59_expand _ _ _).mp h⟩
  · rintro ⟨x, n, k, p, rfl, rfl, h⟩
    rw [(C41_bmm _ _ _).mpr ⟨x, n, k, p, rfl, rfl, rfl⟩]
    exact (C59_expand _ _ _).mpr h

example : addbmm [5] [2, 3, 4] [2, 4, 5] = .ok [3, 5] ∧
    addbmm [2, 3, 5] [2, 3, 4] [2, 4, 5] = .error .assertion := by decide +kernel

/-- `baddbmm` is `bmm` of the batches. -/
theorem C41_baddbmm_partial (self a b c : List Int) :
    baddbmm self a b = .ok c ↔ ∃ x n k p, a = [x, n, k] ∧ b = [x, k, p] ∧ c = [x, n, p] :=
  C41_bmm a b c

/-- `baddbmm` does not look at `self`; for a `self` that expands the result is right. -/
theorem C41_baddbmm_violated : baddbmm [7] [2, 3, 4] [2, 4, 5] = .ok [2, 3, 5] ∧
    ¬ ExpandsTo [7] [2, 3, 5] := by
  refine ⟨by decide +kernel, ?_⟩
  rintro ⟨_, h⟩
  have := h 0
  simp [trail] at this

/-- `aten.dot` does not look at its operands; the library's own `dot` does. -/
theorem C41_dot_violated : atenDot [2] [3] = .ok [] ∧ ¬ ∃ c, IsMatmul [2] [3] c := by
  refine ⟨rfl, ?_⟩
  rintro ⟨c, h⟩
  exact absurd ((isMatmul_iff (Left.vec 2) (Right.vec 3) c).mp h).1 (by decide)

/-- For vectors of equal size it is right. -/
theorem C41_dot_partial (k : Int) (c : List Int) : atenDot [k] [k] = .ok c ↔ IsMatmul [k] [k] c := by
  rw [isMatmul_iff (Left.vec k) (Right.vec k)]
  simp only [isBroadcast_nil, exists_eq_left, List.append_nil]
  simp [atenDot, eq_comm]

/-- `outer` of two vectors. -/
theorem C41_outer (x y : Int) : outer [x] [y] = .ok [x, y] := rfl

/-- `bilinear`: equal leading sizes, and last sizes that match the weight. -/
theorem C41_bilinear (x y weight : List Int) (bias : Option (List Int)) (c : List Int) :
    bilinear x y weight bias = .ok c ↔ ∃ lead m i j, weight = [m, i, j] ∧ x = lead ++ [i] ∧ y = lead ++ [j] ∧
      (bias = none ∨ bias = some [m]) ∧ c = lead ++ [m] := by
  constructor
  · intro h
    unfold bilinear at h
    split at h
    · cases h
    rename_i hlen
    have hlen : x.length = y.length := by simpa using hlen
    split at h
    · rename_i w0 w1 w2
      cases hx : pyGet x ((x.length : Int) - 1) with
      | error e => rw [hx] at h; cases h
      | ok xl =>
        rw [hx] at h
        simp only [] at h
        split at h
        · cases h
        rename_i h1
        have h1 : xl = w1 := by simpa using h1
        cases hy : pyGet y ((y.length : Int) - 1) with
        | error e => rw [hy] at h; cases h
        | ok yl =>
          rw [hy] at h
          simp only [] at h
          split at h
          · cases h
          rename_i h2
          have h2 : yl = w2 := by simpa using h2
          split at h
          · cases h
          rename_i h3
          have h3 : x.take (x.length - 1) = y.take (x.length - 1) := by simpa using h3
          have hlast : ∀ (l : List Int) (v : Int), pyGet l ((l.length : Int) - 1) = .ok v →
              l = l.take (l.length - 1) ++ [v] := by
            intro l v hv
            match l with
            | [] => simp [pyGet] at hv
            | a :: as =>
              have e : (((a :: as).length : Int) - 1) = ((a :: as).length - 1 : Nat) := by
                simp
              rw [e, pyGet_nonneg _ _ (by simp)] at hv
              have := Except.ok.inj hv
              subst this
              rw [List.take_append_getElem, List.take_of_length_le (by simp)]
          have hx' := hlast x xl hx
          have hy' := hlast y yl hy
          rw [← hlen, ← h3] at hy'
          refine ⟨x.take (x.length - 1), w0, w1, w2, rfl, h1 ▸ hx', h2 ▸ hy', ?_⟩
          cases bias with
          | none => exact ⟨Or.inl rfl, (Except.ok.inj h).symm⟩
          | some b =>
            simp only [] at h
            split at h
            · cases h
            rename_i hb
            have hb : b = [w0] := by simpa using hb
            subst hb
            rw [broadcast_last] at h
            exact ⟨Or.inr rfl, (Except.ok.inj h).symm⟩
    · cases h
  · rintro ⟨lead, m, i, j, rfl, rfl, rfl, hb, rfl⟩
    have hl : ∀ v : Int, pyGet (lead ++ [v]) (((lead ++ [v]).length : Int) - 1) = .ok v := by
      intro v
      have e : (((lead ++ [v]).length : Int) - 1) = (lead.length : Nat) := by simp
      rw [e, pyGet_nonneg _ _ (by simp)]
      simp
    unfold bilinear
    rw [if_neg (by simp)]
    simp only [hl, ne_eq, not_true_eq_false, if_false]
    have e1 : (lead ++ [i]).take ((lead ++ [i]).length - 1) = lead := by simp
    have e2 : (lead ++ [j]).take ((lead ++ [i]).length - 1) = lead := by simp
    rw [e1, e2]
    simp only [not_true_eq_false, if_false]
    rcases hb with rfl | rfl
    · rfl
    · simp only [not_true_eq_false, if_false]
      exact broadcast_last lead m

/-- Products of every kind of operands. -/
example : matmul [4] [4] = .ok [] ∧ matmul [3, 4] [4] = .ok [3] ∧ matmul [4] [4, 5] = .ok [5] ∧
    matmul [3, 4] [4, 5] = .ok [3, 5] ∧ matmul [7, 1, 3, 4] [2, 4, 5] = .ok [7, 2, 3, 5] ∧
    matmul [4] [2, 4, 5] = .ok [2, 5] ∧ matmul [3, 4] [5, 4] = .error .assertion ∧
    matmul [7, 3, 4] [2, 4, 5] = .error .assertion ∧ linear [7, 3, 4] [5, 4] (some [5]) = .ok [7, 3, 5] ∧
    linear [3, 4] [5, 4] (some [2]) = .error .assertion := by
  refine ⟨?_, ?_, ?_, ?_, ?_, ?_, ?_, ?_, ?_, ?_⟩ <;> decide +kernel

end Verif
