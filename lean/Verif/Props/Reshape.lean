import Verif.Lemmas.Reshape

/-!
# C33: reshape preserves the number of elements

A shape computed for view/reshape/flatten/unflatten has the same number of elements as the input and
agrees with the requested sizes except for a single inferred one; requests that cannot be met are errors.
-/

namespace Verif

open Shape

/-- `view`, `reshape`, `reshape_as`, `_reshape_alias`. -/
theorem C33_view (self size c : List Int) : view self size = .ok c ↔ IsView (numel self) size c :=
  view_iff self size c

/-- The number of elements stays. -/
theorem C33_view_numel (self size c : List Int) (h : view self size = .ok c) : numel c = numel self :=
  ((view_iff self size c).mp h).numel

/-- A tensor can always be viewed back as its old shape. -/
theorem C33_view_back (self size c : List Int) (hs : NonNeg self) (h : view self size = .ok c) :
    view c self = .ok self :=
  (view_iff c self self).mpr (Or.inl ⟨hs, rfl, (C33_view_numel self size c h).symm⟩)

/-- `flatten`. -/
theorem C33_flatten (self : List Int) (start end_ : Int) (c : List Int) :
    (flatten self start end_ = .ok c ↔ IsFlatten self start end_ c) ∧
    (flatten self start end_ = .ok c → numel c = numel self) :=
  ⟨flatten_iff self start end_ c, fun h => ((flatten_iff self start end_ c).mp h).numel⟩

/-- `prims.collapse` is `flatten` of dimensions counted from the front. -/
theorem C33_collapse (a : List Int) (start end_ : Int) (c : List Int) :
    collapse a start end_ = .ok c ↔ 0 ≤ start ∧ 0 ≤ end_ ∧ a ≠ [] ∧ IsFlatten a start end_ c := by
  unfold collapse
  constructor
  · intro h
    split at h
    · cases h
    · rename_i hc
      have hc : start < a.length ∧ end_ < a.length ∧ start ≥ 0 ∧ end_ ≥ 0 ∧ start ≤ end_ := by omega
      refine ⟨hc.2.2.1, hc.2.2.2.1, ?_, ?_⟩
      · rintro rfl
        have := hc.1
        have := hc.2.2.1
        simp at *
        omega
      · obtain ⟨pre, x, mid, post, h1, h2, h3, h4⟩ :=
          merge_split a start.toNat end_.toNat (by omega) (by omega)
        right
        refine ⟨pre, x, mid, post, h1, ?_, ?_, by rw [← Except.ok.inj h, h4]⟩
        · rw [h2]; unfold IsDim; omega
        · rw [h3]; unfold IsDim; omega
  · rintro ⟨hs, he, hne, ⟨rfl, _⟩ | ⟨pre, x, mid, post, h1, h2, h3, rfl⟩⟩
    · exact absurd rfl hne
    · have hl : pre.length + mid.length < a.length := by rw [h1]; simp; omega
      have hs' : start = pre.length := by unfold IsDim at h2; omega
      have he' : end_ = (pre.length + mid.length : Nat) := by unfold IsDim at h3; omega
      rw [if_neg (by omega), hs', he']
      simp only [Int.toNat_natCast]
      rw [h1, merge_of_split]

/-- `unflatten` with a dimension not below `-rank`. -/
theorem C33_unflatten_partial (self : List Int) (dim : Int) (sizes c : List Int)
    (hd : -(self.length : Int) ≤ dim) :
    (unflatten self dim sizes = .ok c ↔ IsUnflatten self dim sizes c) ∧
    (unflatten self dim sizes = .ok c → numel c = numel self) :=
  ⟨unflatten_iff self dim sizes c hd, fun h => ((unflatten_iff self dim sizes c hd).mp h).numel⟩

/-- Below `-rank` a nonsensical shape is computed instead of an error. -/
theorem C33_unflatten_violated : unflatten [2, 3, 4] (-4) [2, 2] = .ok [2, 3, 2, 2, 2, 3, 4] ∧
    numel [2, 3, 2, 2, 2, 3, 4] ≠ numel [2, 3, 4] := by
  refine ⟨?_, ?_⟩ <;> decide +kernel

/-- `flatten` undoes `unflatten`. -/
theorem C33_flatten_unflatten (pre post v : List Int) (x y : Int) (sizes : List Int)
    (h : unflatten (pre ++ x :: post) pre.length sizes = .ok (pre ++ (y :: v) ++ post)) :
    flatten (pre ++ (y :: v) ++ post) pre.length (pre.length + v.length : Nat) = .ok (pre ++ x :: post) := by
  have hn := ((unflatten_iff _ _ _ _ (by omega)).mp h)
  obtain ⟨pre', x', post', v', h1, h2, hv, h4⟩ := hn
  have h5 : pre'.length = pre.length := by
    apply h2.unique
    unfold IsDim
    simp
    omega
  have h6 := List.append_inj h1 h5.symm
  obtain ⟨rfl, h7⟩ := h6
  simp only [List.cons.injEq] at h7
  obtain ⟨rfl, rfl⟩ := h7
  have h8 : y :: v = v' := by
    rw [List.append_assoc, List.append_assoc] at h4
    exact List.append_cancel_right (List.append_cancel_left h4)
  rw [flatten_iff]
  right
  refine ⟨pre, y, v, post, rfl, ?_, ?_, ?_⟩
  · unfold IsDim; simp; omega
  · unfold IsDim; simp; omega
  · rw [h8, hv.numel]
    simp

/-- `split_dim` keeps the number of elements, and `collapse` undoes it. -/
theorem C33_split_dim (a : List Int) (dim outer : Int) (c : List Int) (h : splitDim a dim outer = .ok c) :
    numel c = numel a ∧ collapse c dim (dim + 1) = .ok a := by
  unfold splitDim at h
  split at h
  · cases h
  rename_i hc
  have hc : dim ≥ 0 ∧ dim < a.length ∧ outer > 0 := by omega
  obtain ⟨d, rfl⟩ : ∃ d : Nat, dim = d := ⟨dim.toNat, by omega⟩
  have hd : d < a.length := by omega
  rw [pyGet_nonneg a d hd] at h
  simp only [Int.toNat_natCast] at h
  split at h
  · cases h
  rename_i hm
  have hm : Int.fmod a[d] outer = 0 := by simpa using hm
  have hx : outer * Int.fdiv a[d] outer = a[d] := Int.mul_fdiv_cancel' (Int.dvd_of_fmod_eq_zero hm)
  obtain ⟨pre, post, h1, h2, h3, h4⟩ := split_at hd
  rw [← h3, ← h4] at h
  have hcc := (Except.ok.inj h).symm
  generalize Int.fdiv a[d] outer = q at *
  generalize a[d] = x at *
  subst h1
  have key : collapse c (d : Int) ((d : Int) + 1) = .ok (pre ++ x :: post) := by
    rw [C33_collapse, hcc]
    refine ⟨by omega, by omega, by simp, Or.inr ⟨pre, outer, [q], post, by simp, ?_, ?_, ?_⟩⟩
    · unfold IsDim; simp; omega
    · unfold IsDim; simp; omega
    · simp [numel, hx]
  refine ⟨?_, key⟩
  rw [hcc, numel_append, numel_append]
  simp only [numel]
  rw [← Int.mul_assoc outer, hx]

/-- `pixel_shuffle`: the shape, for a positive factor; the number of elements stays. -/
theorem C33_pixel_shuffle (self : List Int) (r : Int) (c : List Int) (hr : 0 < r) :
    (pixelShuffle self r = .ok c ↔ ∃ lead k h w, self = lead ++ [k * (r * r), h, w] ∧
      c = lead ++ [k, h * r, w * r]) ∧
    (pixelShuffle self r = .ok c → numel c = numel self ∧ pixelUnshuffle c r = .ok self) := by
  have hrr : r * r ≠ 0 := by
    have := Int.mul_pos hr hr
    omega
  have key : pixelShuffle self r = .ok c ↔ ∃ lead k h w, self = lead ++ [k * (r * r), h, w] ∧
      c = lead ++ [k, h * r, w * r] := by
    unfold pixelShuffle
    constructor
    · intro hp
      split at hp
      · cases hp
      · rename_i lead ch h w hl
        rw [if_neg hrr] at hp
        split at hp
        · cases hp
        rename_i hm
        have hm : Int.fmod ch (r * r) = 0 := by simpa using hm
        refine ⟨lead, Int.fdiv ch (r * r), h, w, ?_, (Except.ok.inj hp).symm⟩
        rw [Int.mul_comm, Int.mul_fdiv_cancel' (Int.dvd_of_fmod_eq_zero hm)]
        exact (lastThree_iff self lead ch h w).mp hl
    · rintro ⟨lead, k, h, w, h1, rfl⟩
      rw [(lastThree_iff self lead (k * (r * r)) h w).mpr h1]
      simp only []
      rw [if_neg hrr, Int.mul_fmod_left, if_neg (by simp), Int.mul_fdiv_cancel _ hrr]
  refine ⟨key, fun hp => ?_⟩
  obtain ⟨lead, k, h, w, rfl, rfl⟩ := key.mp hp
  refine ⟨?_, ?_⟩
  · simp only [numel_append, numel]
    congr 1
    simp only [Int.mul_one]
    rw [Int.mul_assoc k (r * r), ← Int.mul_assoc (r * r) h w, Int.mul_comm (r * r) h]
    congr 1
    rw [Int.mul_comm w r, Int.mul_assoc, Int.mul_assoc, Int.mul_assoc]
  · unfold pixelUnshuffle
    rw [(lastThree_iff _ lead k (h * r) (w * r)).mpr rfl]
    simp only []
    have hr0 : r ≠ 0 := by omega
    rw [if_neg hr0, Int.mul_fmod_left, Int.mul_fmod_left, if_neg (by simp), if_neg (by simp),
      Int.mul_fdiv_cancel _ hr0, Int.mul_fdiv_cancel _ hr0]

/-- `_unsafe_view` returns the request as it stands: an inferred size is not computed and the number of
elements is not compared. -/
theorem C33_unsafe_view_violated : unsafeView [2, 3] [-1] = .ok [-1] ∧ view [2, 3] [-1] = .ok [6] ∧
    unsafeView [2, 3] [7] = .ok [7] ∧ view [2, 3] [7] = .error .assertion := by
  refine ⟨?_, ?_, ?_, ?_⟩ <;> decide +kernel

/-- For requests without -1 that fit it is `view`. -/
theorem C33_unsafe_view_partial (self size : List Int) (h : NonNeg size) (hn : numel size = numel self) :
    unsafeView self size = view self size := by
  rw [(view_iff self size size).mpr (Or.inl ⟨h, rfl, hn⟩)]
  rfl

/-- Requests with and without an inferred size. -/
example : view [2, 3, 4] [4, -1] = .ok [4, 6] ∧ view [2, 3, 4] [24] = .ok [24] ∧
    view [2, 3, 4] [5, -1] = .error .assertion ∧ view [0, 3] [0, -1] = .error .zeroDivision ∧
    view [2, 3] [-1, -1] = .error .assertion ∧ flatten [2, 3, 4, 5] 1 (-2) = .ok [2, 12, 5] ∧
    flatten [] 0 (-1) = .ok [1] ∧ unflatten [2, 12, 5] 1 [3, -1] = .ok [2, 3, 4, 5] ∧
    pixelShuffle [1, 9, 4, 4] 3 = .ok [1, 1, 12, 12] := by
  refine ⟨?_, ?_, ?_, ?_, ?_, ?_, ?_, ?_, ?_⟩ <;> decide +kernel

end Verif
