import Verif.Model.ShapeCore
import Verif.Spec.Dims
import Mathlib.Data.List.Nodup
import Mathlib.Data.List.Perm.Subperm

/-! # Lemmas about dimension arguments and permutations -/

namespace Verif.Shape

theorem wrapRange_eq (rank : Nat) : wrapRange rank = ((max rank 1 : Nat) : Int) := by
  unfold wrapRange; split <;> omega

theorem maybeWrapDim_iff {dim : Int} {rank : Nat} {w : Int} :
    maybeWrapDim dim rank = .ok w ↔ ∃ d : Nat, w = d ∧ IsDim rank dim d := by
  unfold maybeWrapDim IsDim
  rw [wrapRange_eq]
  constructor
  · intro h
    split at h
    · cases h
    · refine ⟨w.toNat, ?_⟩
      have := Except.ok.inj h
      split at this <;> omega
  · rintro ⟨d, rfl, h⟩
    rw [if_neg (by omega)]
    congr 1
    split <;> omega

theorem maybeWrapDim_error {dim : Int} {rank : Nat} {e : PyErr} (h : maybeWrapDim dim rank = .error e) :
    e = .assertion := by
  unfold maybeWrapDim at h
  split at h
  · cases h; rfl
  · cases h

theorem IsDim.unique {rank : Nat} {dim : Int} {d d' : Nat} (h : IsDim rank dim d) (h' : IsDim rank dim d') :
    d = d' := by
  unfold IsDim at *; omega

theorem isDim_self {rank d : Nat} (h : d < rank) : IsDim rank d d := ⟨by omega, Or.inl rfl⟩

theorem IsDim.lt {rank : Nat} {dim : Int} {d : Nat} (h : IsDim rank dim d) (hr : 0 < rank) : d < rank := by
  have := h.1; omega

/-- A negative dimension and the wrapped one name the same dimension. -/
theorem isDim_neg {rank k : Nat} (hk : 0 < k) (hr : k ≤ rank) (d : Nat) :
    IsDim rank (-(k : Int)) d ↔ IsDim rank ((rank : Int) - k) d := by
  unfold IsDim; omega

theorem maybeWrapDim_neg {rank k : Nat} (hk : 0 < k) (hr : k ≤ rank) :
    maybeWrapDim (-(k : Int)) rank = maybeWrapDim ((rank : Int) - k) rank := by
  rw [maybeWrapDim_iff.mpr ⟨rank - k, rfl, by unfold IsDim; omega⟩,
    maybeWrapDim_iff.mpr ⟨rank - k, rfl, by unfold IsDim; omega⟩]

theorem noRepeats_iff (l : List Int) : noRepeats l = true ↔ l.Nodup := by
  unfold noRepeats
  simp only [List.all_eq_true, List.mem_range, decide_eq_true_eq]
  rw [List.nodup_iff_injective_getElem]
  constructor
  · intro h a b hab
    rcases Nat.lt_trichotomy a.1 b.1 with hlt | heq | hgt
    · exact absurd (by rw [List.getElem?_eq_getElem b.2, List.getElem?_eq_getElem a.2]; simpa using hab.symm)
        (h b.1 b.2 a.1 hlt)
    · exact Fin.ext heq
    · exact absurd (by rw [List.getElem?_eq_getElem b.2, List.getElem?_eq_getElem a.2]; simpa using hab)
        (h a.1 a.2 b.1 hgt)
  · intro h i hi j hj hij
    rw [List.getElem?_eq_getElem hi, List.getElem?_eq_getElem (by omega)] at hij
    have := @h ⟨i, hi⟩ ⟨j, by omega⟩ (by simpa using hij)
    have := congrArg Fin.val this
    simp at this
    omega

theorem perm_range_of_nodup {p : List Nat} {n : Nat} (hl : p.length = n) (hn : p.Nodup)
    (hlt : ∀ x ∈ p, x < n) : p.Perm (List.range n) := by
  apply List.Subperm.perm_of_length_le
  · exact hn.subperm (fun x hx => List.mem_range.mpr (hlt x hx))
  · simp [hl]

theorem Picks.perm {self c : List Int} {p : List Nat} (h : Picks self p c)
    (hp : p.Perm (List.range self.length)) : c.Perm self := by
  have h1 : (c.map some).Perm ((List.range self.length).map (self[·]?)) := by
    rw [h]; exact hp.map _
  have h2 : (List.range self.length).map (self[·]?) = self.map some := by
    apply List.ext_getElem (by simp)
    intro i h1 h2
    simp at h1
    simp [h1]
  rw [h2] at h1
  have := h1.filterMap id
  simpa [List.filterMap_map] using this

theorem Picks.length {self c : List Int} {p : List Nat} (h : Picks self p c) : c.length = p.length := by
  have := congrArg List.length h
  simpa using this

theorem Picks.get {self c : List Int} {p : List Nat} (h : Picks self p c) {i : Nat} (hi : i < c.length)
    (hp : i < p.length) : self[p[i]]? = some c[i] := by
  have := congrArg (·[i]?) h
  simpa [hi, hp] using this.symm

theorem Picks.unique {self c c' : List Int} {p : List Nat} (h : Picks self p c) (h' : Picks self p c') :
    c = c' := by
  have := h.trans h'.symm
  exact (List.map_inj_right (fun _ _ => Option.some.inj)).mp this

/-- What `permute` looks up for one dimension. -/
theorem permute_at {self : List Int} {n : Nat} (hn : n = self.length) {d : Int} {wx : Int × Int} :
    permuteAt self n d = .ok wx ↔
      ∃ k : Nat, IsDim self.length d k ∧ wx.1 = k ∧ self[k]? = some wx.2 := by
  unfold permuteAt
  constructor
  · intro h
    split at h
    · cases h
    · rename_i w hw
      obtain ⟨k, rfl, hk⟩ := maybeWrapDim_iff.mp hw
      split at h
      · cases h
      · rename_i x hx
        cases h
        refine ⟨k, hn ▸ hk, rfl, ?_⟩
        obtain ⟨m, hm, h1 | h1⟩ := pyGet_ok_iff.mp hx
        · have : m = k := by omega
          exact this ▸ hm
        · omega
  · rintro ⟨k, hk, h1, h2⟩
    rw [maybeWrapDim_iff.mpr ⟨k, rfl, hn ▸ hk⟩]
    simp only []
    rw [pyGet_ok_iff.mpr ⟨k, h2, Or.inl rfl⟩]
    simp only []
    rw [← h1]

theorem permute_iff (self dims c : List Int) : permute self dims = .ok c ↔ IsPermute self dims c := by
  unfold permute IsPermute IsDims
  split
  · rename_i h
    simp only [reduceCtorEq, false_iff, not_exists]
    rintro p ⟨⟨h1, _⟩, h2, _⟩
    have := h2.length_eq
    simp at this
    omega
  · rename_i hl
    have hl : self.length = dims.length := by omega
    split
    · rename_i e he
      simp only [reduceCtorEq, false_iff, not_exists]
      rintro p ⟨⟨h1, h1'⟩, h2, h3⟩
      obtain ⟨d, hd, hde⟩ := pyMap_error he
      obtain ⟨i, hi, rfl⟩ := List.mem_iff_getElem.mp hd
      have hc := h3.length
      have := (permute_at (self := self) hl.symm (d := dims[i]) (wx := ((p[i]'(by omega) : Nat), c[i]'(by omega)))).mpr
        ⟨p[i]'(by omega), h1' i hi (by omega), rfl, h3.get (by omega) (by omega)⟩
      rw [this] at hde
      cases hde
    · rename_i wx hwx
      obtain ⟨hlen, hwx⟩ := pyMap_ok_iff.mp hwx
      simp only [permute_at hl.symm] at hwx
      -- the dimensions, as naturals
      let p : List Nat := wx.map (fun y => y.1.toNat)
      have hp : ∀ i (h : i < dims.length) (h' : i < p.length), IsDim self.length dims[i] p[i] ∧
          self[p[i]]? = some (wx[i]'(by omega)).2 ∧ (wx[i]'(by omega)).1 = (p[i] : Int) := by
        intro i h h'
        obtain ⟨k, a, b, c⟩ := hwx i h (by omega)
        have : p[i] = k := by simp [p, b]
        rw [this]
        exact ⟨a, c, b⟩
      have hpl : p.length = dims.length := by simp [p, hlen]
      have hmap : wx.map Prod.fst = p.map Int.ofNat := by
        apply List.ext_getElem (by simp [p])
        intro i h1 h2
        simp only [List.getElem_map]
        simp at h1
        exact (hp i (by omega) (by omega)).2.2
      have hnodup : noRepeats (wx.map Prod.fst) = true ↔ p.Nodup := by
        rw [noRepeats_iff, hmap]
        exact List.nodup_map_iff (fun a b h => Int.ofNat.inj h)
      have hpicks : Picks self p (wx.map Prod.snd) := by
        unfold Picks
        apply List.ext_getElem (by simp [p])
        intro i h1 h2
        simp only [List.getElem_map]
        simp at h1
        exact (hp i (by omega) (by omega)).2.1.symm
      split
      · rename_i hr
        have hr := hnodup.mp hr
        simp only [Except.ok.injEq]
        constructor
        · rintro rfl
          refine ⟨p, ⟨hpl, fun i h h' => (hp i h h').1⟩, ?_, hpicks⟩
          apply perm_range_of_nodup (by omega) hr
          intro x hx
          obtain ⟨i, hi, rfl⟩ := List.mem_iff_getElem.mp hx
          exact (hp i (by omega) hi).1.lt (by omega)
        · rintro ⟨p', ⟨h1, h2⟩, h3, h4⟩
          have : p = p' := by
            apply List.ext_getElem (by omega)
            intro i ha hb
            exact (hp i (by omega) ha).1.unique (h2 i (by omega) hb)
          subst this
          exact hpicks.unique h4
      · rename_i hr
        simp only [reduceCtorEq, false_iff, not_exists]
        rintro p' ⟨⟨h1, h2⟩, h3, h4⟩
        have : p = p' := by
          apply List.ext_getElem (by omega)
          intro i ha hb
          exact (hp i (by omega) ha).1.unique (h2 i (by omega) hb)
        subst this
        exact hr (hnodup.mpr (h3.nodup_iff.mpr List.nodup_range))

theorem isDims_exists_unique {rank : Nat} {dims : List Int} {p p' : List Nat} (h : IsDims rank dims p)
    (h' : IsDims rank dims p') : p = p' := by
  apply List.ext_getElem (h.1.trans h'.1.symm)
  intro i ha hb
  exact (h.2 i (by have := h.1; omega) ha).unique (h'.2 i (by have := h.1; omega) hb)

theorem transpose_at {self : List Int} {d0 d1 : Nat} (h0 : d0 < self.length) (h1 : d1 < self.length)
    (hne : d0 ≠ d1) (c : List Int) :
    pyMap (fun i : Nat =>
        if (i : Int) = (d0 : Int) then pyGet self (d1 : Int)
        else if (i : Int) = (d1 : Int) then pyGet self (d0 : Int)
        else pyGet self (i : Int)) (List.range self.length) = .ok c ↔ IsSwap self d0 d1 c := by
  rw [pyMap_ok_iff]
  simp only [List.length_range, List.getElem_range, pyGet_nonneg self d0 h0, pyGet_nonneg self d1 h1]
  unfold IsSwap
  constructor
  · rintro ⟨hl, h⟩
    refine ⟨hl, ?_, ?_, ?_⟩
    · have := h d0 h0 (by omega)
      rw [if_pos rfl] at this
      rw [List.getElem?_eq_getElem (by omega), List.getElem?_eq_getElem h1, Except.ok.inj this]
    · have := h d1 h1 (by omega)
      rw [if_neg (by omega), if_pos rfl] at this
      rw [List.getElem?_eq_getElem (by omega), List.getElem?_eq_getElem h0, Except.ok.inj this]
    · intro i hi0 hi1
      by_cases hi : i < self.length
      · have := h i hi (by omega)
        rw [if_neg (by omega), if_neg (by omega), pyGet_nonneg _ _ hi] at this
        rw [List.getElem?_eq_getElem (by omega), List.getElem?_eq_getElem hi, Except.ok.inj this]
      · rw [List.getElem?_eq_none (by omega), List.getElem?_eq_none (by omega)]
  · rintro ⟨hl, ha, hb, hc⟩
    rw [List.getElem?_eq_getElem (by omega), List.getElem?_eq_getElem (by omega)] at ha hb
    refine ⟨hl, fun i hi hi' => ?_⟩
    split
    · have : i = d0 := by omega
      subst this
      rw [Option.some.inj ha]
    · split
      · have : i = d1 := by omega
        subst this
        rw [Option.some.inj hb]
      · have := hc i (by omega) (by omega)
        rw [List.getElem?_eq_getElem (by omega), List.getElem?_eq_getElem (by omega)] at this
        rw [pyGet_nonneg _ _ hi, Option.some.inj this]

theorem isSwap_self (self : List Int) (d : Nat) : IsSwap self d d self :=
  ⟨rfl, rfl, rfl, fun _ _ _ => rfl⟩

theorem IsSwap.unique {self c c' : List Int} {d0 d1 : Nat} (h : IsSwap self d0 d1 c)
    (h' : IsSwap self d0 d1 c') : c = c' := by
  apply List.ext_getElem?
  intro i
  by_cases h0 : i = d0
  · subst h0; exact h.2.1.trans h'.2.1.symm
  · by_cases h1 : i = d1
    · subst h1; exact h.2.2.1.trans h'.2.2.1.symm
    · exact (h.2.2.2 i h0 h1).trans (h'.2.2.2 i h0 h1).symm

theorem IsSwap.back {self c : List Int} {d0 d1 : Nat} (h : IsSwap self d0 d1 c) :
    IsSwap c d0 d1 self :=
  ⟨h.1.symm, h.2.2.1.symm, h.2.1.symm, fun i a b => (h.2.2.2 i a b).symm⟩

theorem IsSwap.symm {self c : List Int} {d0 d1 : Nat} (h : IsSwap self d0 d1 c) :
    IsSwap self d1 d0 c :=
  ⟨h.1, h.2.2.1, h.2.1, fun i a b => h.2.2.2 i b a⟩

theorem transpose_iff (self : List Int) (dim0 dim1 : Int) (c : List Int) :
    transpose self dim0 dim1 = .ok c ↔
      ∃ d0 d1, IsDim self.length dim0 d0 ∧ IsDim self.length dim1 d1 ∧ IsSwap self d0 d1 c := by
  unfold transpose
  split
  · rename_i e he
    simp only [reduceCtorEq, false_iff, not_exists]
    rintro d0 d1 ⟨h, _⟩
    rw [maybeWrapDim_iff.mpr ⟨d0, rfl, h⟩] at he
    cases he
  · rename_i w0 hw0
    obtain ⟨d0, rfl, h0⟩ := maybeWrapDim_iff.mp hw0
    split
    · rename_i e he
      simp only [reduceCtorEq, false_iff, not_exists]
      rintro d0 d1 ⟨_, h, _⟩
      rw [maybeWrapDim_iff.mpr ⟨d1, rfl, h⟩] at he
      cases he
    · rename_i w1 hw1
      obtain ⟨d1, rfl, h1⟩ := maybeWrapDim_iff.mp hw1
      have key : (∃ e0 e1, IsDim self.length dim0 e0 ∧ IsDim self.length dim1 e1 ∧ IsSwap self e0 e1 c) ↔
          IsSwap self d0 d1 c := by
        constructor
        · rintro ⟨e0, e1, a, b, h⟩
          rw [h0.unique a, h1.unique b]; exact h
        · intro h; exact ⟨d0, d1, h0, h1, h⟩
      rw [key]
      split
      · rename_i heq
        have : d0 = d1 := by omega
        subst this
        simp only [Except.ok.injEq]
        constructor
        · rintro rfl; exact isSwap_self _ _
        · intro h; exact (isSwap_self _ _).unique h
      · rename_i hne
        have hpos : 0 < self.length := by
          have a := h0.1
          have b := h1.1
          omega
        exact transpose_at (h0.lt hpos) (h1.lt hpos) (by omega) c

end Verif.Shape
