import Verif.Lemmas.Broadcast
import Verif.Model.ShapeElementwise
import Verif.Spec.Expand

/-!
# C59: expanding and tiling

The shape computed for expand/broadcast_to is the requested one with -1 standing for the existing size
and exists exactly when the tensor can be expanded to it; repeat and tile multiply the sizes, aligned at
the last dimension.
-/

namespace Verif

open Shape

namespace Shape

theorem expandAt_eq {self sizes : List Int} {i : Nat} (hi : i < sizes.length)
    (hl : self.length ≤ sizes.length) :
    expandAt self sizes i =
      let k := sizes.length - 1 - i
      if trail sizes k = -1 then (if self.length ≤ k then .error .assertion else .ok (trail self k))
      else if trail self k ≠ trail sizes k then
        (if trail self k ≠ 1 then .error .assertion else .ok (trail sizes k))
      else .ok (trail self k) := by
  unfold expandAt
  simp only [sizeOrOne_eq hi hl, pyGet_nonneg sizes i hi]
  have e : trail sizes (sizes.length - 1 - i) = sizes[i] := by
    rw [trail_lt (by omega)]
    congr 1
    omega
  rw [e]
  have e2 : (self.length : Int) - 1 - ((sizes.length : Int) - 1 - i) < 0 ↔
      self.length ≤ sizes.length - 1 - i := by omega
  simp only [e2]

end Shape

/-- `expand` (also `broadcast_to`) computes the requested shape, exactly when there is one. -/
theorem C59_expand (self sizes c : List Int) : expand self sizes = .ok c ↔ IsExpand self sizes c := by
  unfold expand IsExpand ExpandsTo
  split
  · rename_i h
    simp only [reduceCtorEq, false_iff]
    rintro ⟨h1, ⟨h2, _⟩, _⟩
    omega
  · rename_i hl
    rw [pyMap_ok_iff]
    simp only [List.length_range, List.getElem_range]
    constructor
    · rintro ⟨hc, h⟩
      have key : ∀ k < sizes.length, expandAt self sizes (sizes.length - 1 - k) = .ok (trail c k) := by
        intro k hk
        rw [h (sizes.length - 1 - k) (by omega) (by omega), trail_lt (by omega)]
        simp only [hc]
      refine ⟨hc, ⟨by omega, fun k => ?_⟩, fun k hk => ?_⟩
      · by_cases hk : k < sizes.length
        · have := key k hk
          rw [expandAt_eq (by omega) (by omega)] at this
          have e : sizes.length - 1 - (sizes.length - 1 - k) = k := by omega
          simp only [e] at this
          split at this
          · split at this
            · cases this
            · exact Or.inl (Except.ok.inj this)
          · split at this
            · split at this
              · cases this
              · right; omega
            · left; exact Except.ok.inj this
        · rw [trail_ge (by omega), trail_ge (by omega)]; exact Or.inl rfl
      · have := key k hk
        rw [expandAt_eq (by omega) (by omega)] at this
        have e : sizes.length - 1 - (sizes.length - 1 - k) = k := by omega
        simp only [e] at this
        split at this
        · rename_i h1
          rw [if_pos h1]
          split at this
          · cases this
          · exact ⟨by omega, (Except.ok.inj this).symm⟩
        · rename_i h1
          rw [if_neg h1]
          split at this
          · split at this
            · cases this
            · exact (Except.ok.inj this).symm
          · have := Except.ok.inj this
            omega
    · rintro ⟨hc, ⟨_, h1⟩, h2⟩
      refine ⟨hc, fun i hi hi' => ?_⟩
      rw [expandAt_eq hi (by omega)]
      have a := h1 (sizes.length - 1 - i)
      have b := h2 (sizes.length - 1 - i) (by omega)
      have e : trail c (sizes.length - 1 - i) = c[i] := by
        rw [trail_lt (by omega)]
        congr 1
        omega
      rw [e] at a b
      simp only []
      split
      · rename_i h
        rw [if_pos h] at b
        rw [if_neg (by omega), b.2]
      · rename_i h
        rw [if_neg h] at b
        split
        · rw [if_neg (by omega), b]
        · rename_i h'
          rw [b]
          congr 1
          omega

namespace Shape

theorem repeat_iff (s r c : List Int) :
    repeat_ s r = .ok c ↔ s.length ≤ r.length ∧ IsRepeat s r c := by
  unfold repeat_
  split
  · simp only [reduceCtorEq, false_iff]
    rintro ⟨h, _⟩
    omega
  · rename_i hl
    have hfront : pyMap (fun i : Nat => pyGet r (i : Int)) (List.range (r.length - s.length)) =
        .ok (r.take (r.length - s.length)) := by
      rw [pyMap_ok_iff]
      refine ⟨by simp, fun i h1 h2 => ?_⟩
      simp only [List.getElem_range, List.getElem_take]
      simp only [List.length_range] at h1
      exact pyGet_nonneg _ _ (by omega)
    have hback : pyMap (repeatAt s r (r.length - s.length)) (List.range s.length) =
        .ok (List.zipWith (· * ·) s (r.drop (r.length - s.length))) := by
      rw [pyMap_ok_iff]
      refine ⟨by simp; omega, fun i h1 h2 => ?_⟩
      simp only [List.length_range] at h1
      simp only [List.getElem_range, List.getElem_zipWith, List.getElem_drop]
      unfold repeatAt
      rw [pyGet_nonneg s i h1]
      have e : (i : Int) + ((r.length - s.length : Nat) : Int) = ((i + (r.length - s.length) : Nat) : Int) := by
        omega
      simp only [e]
      rw [pyGet_nonneg r _ (by omega)]
      simp only []
      congr 3
      omega
    simp only [hfront, hback, Except.ok.injEq]
    have hrep : IsRepeat s r (r.take (r.length - s.length) ++
        List.zipWith (· * ·) s (r.drop (r.length - s.length))) := by
      refine ⟨by simp; omega, fun k => ?_⟩
      by_cases hk : k < r.length
      · rw [trail_lt (by simp; omega), trail_lt hk]
        by_cases hk' : k < s.length
        · rw [trail_lt hk', List.getElem_append_right (by simp; omega)]
          simp only [List.getElem_zipWith, List.getElem_drop, List.length_append, List.length_take,
            List.length_zipWith, List.length_drop]
          congr 2 <;> omega
        · rw [trail_ge (by omega), List.getElem_append_left (by simp; omega)]
          simp only [List.getElem_take, List.length_append, List.length_take,
            List.length_zipWith, List.length_drop, Int.one_mul]
          congr 1
          omega
      · rw [trail_ge (by simp; omega), trail_ge (by omega), trail_ge (by omega)]
        rfl
    constructor
    · rintro rfl
      exact ⟨by omega, hrep⟩
    · rintro ⟨_, h⟩
      exact trail_ext (hrep.1.trans h.1.symm) (fun k => (hrep.2 k).trans (h.2 k).symm)

theorem trail_replicate_one (n : Nat) (l : List Int) (k : Nat) :
    trail (List.replicate n 1 ++ l) k = trail l k := by
  by_cases h : k < l.length
  · rw [trail_lt h, trail_lt (by simp; omega), List.getElem_append_right (by simp; omega)]
    congr 1
    simp
    omega
  · rw [trail_ge (s := l) (by omega)]
    by_cases h' : k < n + l.length
    · rw [trail_lt (by simpa using h'), List.getElem_append_left (by simp; omega)]
      simp
    · rw [trail_ge (by simp; omega)]

end Shape

/-- `repeat` multiplies sizes aligned at the end; it needs a count for every dimension. -/
theorem C59_repeat (self repeats c : List Int) :
    repeat_ self repeats = .ok c ↔ self.length ≤ repeats.length ∧ IsRepeat self repeats c :=
  repeat_iff self repeats c

/-- `tile` does so for any number of counts. -/
theorem C59_tile (self dims c : List Int) : tile self dims = .ok c ↔ IsRepeat self dims c := by
  unfold tile
  simp only []
  split
  · rw [repeat_iff]
    unfold IsRepeat
    simp only [trail_replicate_one, List.length_append, List.length_replicate]
    constructor
    · rintro ⟨h1, h2, h3⟩
      exact ⟨by omega, h3⟩
    · rintro ⟨h2, h3⟩
      exact ⟨by omega, by omega, h3⟩
  · rw [repeat_iff]
    constructor
    · exact And.right
    · exact fun h => ⟨by omega, h⟩

/-- `expand_as` computes the other tensor's shape without looking at the tensor's own: right when the
tensor can be expanded to it. -/
theorem C59_expand_as_partial (self other : List Int) (h : ExpandsTo self other)
    (hn : ∀ s ∈ other, 0 ≤ s) :
    ∃ c, expandAs self other = .ok c ∧ IsExpand self other c := by
  refine ⟨other, rfl, rfl, h, fun k hk => ?_⟩
  have : 0 ≤ trail other k := by
    rw [trail_lt hk]
    exact hn _ (List.getElem_mem _)
  rw [if_neg (by omega)]

/-- A shape is computed for `expand_as` of [3] to [2], which cannot be expanded. -/
theorem C59_expand_as_violated : expandAs [3] [2] = .ok [2] ∧ ¬ ∃ c, IsExpand [3] [2] c := by
  refine ⟨rfl, ?_⟩
  rintro ⟨c, h⟩
  have : expand [3] [2] = .ok c := (C59_expand _ _ _).mpr h
  revert this
  have : expand [3] [2] = .error .assertion := by decide +kernel
  rw [this]
  simp

/-- Negative requests other than -1 are accepted for a dimension of size one, giving a negative size. -/
theorem C59_negative_violated : expand [1] [-5] = .ok [-5] := by decide +kernel

example : expand [3, 1] [2, -1, 4] = .ok [2, 3, 4] ∧ expand [3] [-1, 3] = .error .assertion ∧
    expand [3] [2] = .error .assertion ∧ repeat_ [3, 5] [2, 1, 4] = .ok [2, 3, 20] ∧
    tile [3, 5, 2] [2, 2] = .ok [3, 10, 4] ∧ repeat_ [3, 5] [2] = .error .assertion := by
  refine ⟨?_, ?_, ?_, ?_, ?_, ?_⟩ <;> decide +kernel

end Verif
