import Verif.Lemmas.Movedim

/-!
# C38: dimension permutations permute

permute, transpose, movedim and numpy_T produce a permutation of the input sizes; transposing or reversing
twice is the identity; invalid dimension lists are errors.
-/

namespace Verif

open Shape

/-- `permute` computes the sizes in the order of the named dimensions, exactly when `dims` names every
dimension once. -/
theorem C38_permute (self dims c : List Int) : permute self dims = .ok c ↔ IsPermute self dims c :=
  permute_iff self dims c

/-- `transpose` exchanges the two named dimensions and raises for dimensions that do not exist. -/
theorem C38_transpose (self : List Int) (dim0 dim1 : Int) (c : List Int) :
    transpose self dim0 dim1 = .ok c ↔
      ∃ d0 d1, IsDim self.length dim0 d0 ∧ IsDim self.length dim1 d1 ∧ IsSwap self d0 d1 c :=
  transpose_iff self dim0 dim1 c

/-- Transposing twice is the identity, also with the dimensions exchanged. -/
theorem C38_transpose_twice (self : List Int) (dim0 dim1 : Int) (c : List Int)
    (h : transpose self dim0 dim1 = .ok c) :
    transpose c dim0 dim1 = .ok self ∧ transpose c dim1 dim0 = .ok self := by
  obtain ⟨d0, d1, h0, h1, hs⟩ := (transpose_iff _ _ _ _).mp h
  rw [transpose_iff, transpose_iff, hs.1]
  exact ⟨⟨d0, d1, h0, h1, hs.back⟩, ⟨d1, d0, h1, h0, hs.back.symm⟩⟩

/-- `numpy_T` reverses the sizes; reversing twice is the identity. -/
theorem C38_numpy_T (self : List Int) :
    numpyT self = self.reverse ∧ numpyT (numpyT self) = self := by
  have h : ∀ (l r : List Int), l.foldl (fun r i => i :: r) r = l.reverse ++ r := by
    intro l
    induction l with
    | nil => simp
    | cons a l ih => intro r; simp [ih]
  unfold numpyT
  simp [h]

namespace Shape

theorem isSwap_perm {self c : List Int} {d0 d1 : Nat} (h : IsSwap self d0 d1 c)
    (h0 : d0 < self.length) (h1 : d1 < self.length) : c.Perm self := by
  -- the permutation of dimensions
  let p : List Nat := (List.range self.length).map (fun i => if i = d0 then d1 else if i = d1 then d0 else i)
  have hp : Picks self p c := by
    unfold Picks
    apply List.ext_getElem (by simp [p, h.1])
    intro i ha hb
    simp only [List.getElem_map, p, List.getElem_range]
    simp only [List.length_map] at ha
    rw [← List.getElem?_eq_getElem ha]
    split
    · rename_i e; subst e; exact h.2.1
    · split
      · rename_i e; subst e; exact h.2.2.1
      · exact h.2.2.2 i (by assumption) (by assumption)
  apply hp.perm
  apply perm_range_of_nodup (by simp [p])
  · apply List.Nodup.map_on _ List.nodup_range
    intro x _ y _ hxy
    split at hxy <;> split at hxy <;> (try split at hxy) <;> (try split at hxy) <;> omega
  · intro x hx
    simp only [p, List.mem_map, List.mem_range] at hx
    obtain ⟨i, hi, rfl⟩ := hx
    split
    · exact h1
    · split
      · exact h0
      · exact hi

end Shape

/-- All of them produce a permutation of the sizes. -/
theorem C38_permutation (self c : List Int) :
    (∀ dims, permute self dims = .ok c → c.Perm self) ∧
    (∀ dim0 dim1, transpose self dim0 dim1 = .ok c → c.Perm self) ∧
    (∀ source destination, movedim self source destination = .ok c → c.Perm self) ∧
    (atenT self = .ok c → c.Perm self) ∧ (numpyT self).Perm self := by
  have h1 : ∀ dims, permute self dims = .ok c → c.Perm self := by
    intro dims h
    obtain ⟨p, _, hp, hk⟩ := (permute_iff _ _ _).mp h
    exact hk.perm hp
  have h2 : ∀ dim0 dim1, transpose self dim0 dim1 = .ok c → c.Perm self := by
    intro dim0 dim1 h
    obtain ⟨d0, d1, a, b, hs⟩ := (transpose_iff _ _ _ _).mp h
    by_cases hr : self.length = 0
    · have : c.length = 0 := hs.1.trans hr
      rw [List.length_eq_zero_iff.mp this, List.length_eq_zero_iff.mp hr]
    · exact isSwap_perm hs (a.lt (by omega)) (b.lt (by omega))
  refine ⟨h1, h2, ?_, h2 0 1, ?_⟩
  · intro source destination h
    unfold movedim at h
    split at h
    · cases h; exact List.Perm.refl _
    · simp only [] at h
      split at h
      · cases h
      · split at h
        · cases h
        · exact h1 _ h
  · rw [(C38_numpy_T self).1]
    exact List.reverse_perm self

/-- `movedim` with valid lists (each naming dimensions at most once, of equal length) moves the named
dimensions to the named positions and keeps the others in order. -/
theorem C38_movedim (self source destination : List Int) (src dst : List Nat)
    (hr : 0 < self.length) (hs : IsDims self.length source src)
    (hd : IsDims self.length destination dst) (hl : src.length = dst.length)
    (hsn : src.Nodup) (hdn : dst.Nodup) :
    ∃ c, movedim self source destination = .ok c ∧ IsMoved self src dst c := by
  by_cases h1 : 1 < self.length
  · exact movedim_ok h1 hs hd hl hsn hdn
  · have hone : self.length = 1 := by omega
    refine ⟨self, by unfold movedim; rw [if_pos (by omega)], [0], by simp [hone], ?_, ?_, by rw [hone]; rfl⟩
    · unfold Picks
      match self, hone with
      | [a], _ => rfl
    · intro i h h'
      have a := hs.lt hr _ (List.getElem_mem h)
      have b := hd.lt hr _ (List.getElem_mem h')
      have a' : src[i] = 0 := by omega
      have b' : dst[i] = 0 := by omega
      rw [a', b']
      rfl

namespace Shape

/-- The description of `movedim` determines the result. -/
theorem IsMoved.unique {self : List Int} {src dst : List Nat} {c c' : List Int}
    (hl : src.length = dst.length) (hdlt : ∀ x ∈ dst, x < self.length) (hsn : src.Nodup) (hdn : dst.Nodup)
    (h : IsMoved self src dst c) (h' : IsMoved self src dst c') : c = c' := by
  obtain ⟨q, h1, h2, h3, h4⟩ := h
  obtain ⟨q', h1', h2', h3', h4'⟩ := h'
  suffices hq : q = q' by subst hq; exact h2.unique h2'
  have hql : q.length = self.length := by simpa using h1.length_eq
  have hql' : q'.length = self.length := by simpa using h1'.length_eq
  -- entries of a valid order at positions outside `dst` are exactly those outside `src`
  have key : ∀ (r : List Nat), r.Perm (List.range self.length) →
      (∀ i (h : i < src.length) (h' : i < dst.length), r[dst[i]]? = some src[i]) →
      ∀ i (hi : i < r.length), r[i] ∈ src ↔ i ∈ dst := by
    intro r hp hr i hi
    constructor
    · intro hm
      obtain ⟨j, hj, e⟩ := List.mem_iff_getElem.mp hm
      have hj' : j < dst.length := by omega
      have hlt := hdlt _ (List.getElem_mem hj')
      have hrl : r.length = self.length := by simpa using hp.length_eq
      have e2 := hr j hj hj'
      rw [List.getElem?_eq_getElem (by omega)] at e2
      have hn : r.Nodup := hp.nodup_iff.mpr List.nodup_range
      have : dst[j] = i := (hn.getElem_inj_iff).mp ((Option.some.inj e2).trans e)
      rw [← this]; exact List.getElem_mem hj'
    · intro hm
      obtain ⟨j, hj, e⟩ := List.mem_iff_getElem.mp hm
      have e2 := hr j (by omega) hj
      subst e
      rw [List.getElem?_eq_getElem hi] at e2
      rw [Option.some.inj e2]
      exact List.getElem_mem _
  -- so both orders are determined position by position from the left
  have gen : ∀ (r r' : List Nat) (P : Nat → Prop) (off : Nat), r.length = r'.length →
      (∀ i (h : i < r.length), r[i] ∈ src ↔ P (off + i)) →
      (∀ i (h : i < r'.length), r'[i] ∈ src ↔ P (off + i)) →
      (∀ i (h : i < r.length) (h' : i < r'.length), P (off + i) → r[i] = r'[i]) →
      r.filter (· ∉ src) = r'.filter (· ∉ src) → r = r' := by
    intro r
    induction r with
    | nil =>
      intro r' P off hlen _ _ _ _
      exact (List.length_eq_zero_iff.mp hlen.symm).symm
    | cons a r ih =>
      intro r' P off hlen ha hb hc hf
      match r' with
      | [] => simp at hlen
      | b :: r' =>
        have ha0 : a ∈ src ↔ P off := ha 0 (by simp)
        have hb0 : b ∈ src ↔ P off := hb 0 (by simp)
        have rest : r.filter (· ∉ src) = r'.filter (· ∉ src) → r = r' := by
          intro hf
          apply ih r' P (off + 1) (by simpa using hlen)
          · intro i hi
            have := ha (i + 1) (by simpa using hi)
            simpa [Nat.add_comm, Nat.add_left_comm] using this
          · intro i hi
            have := hb (i + 1) (by simpa using hi)
            simpa [Nat.add_comm, Nat.add_left_comm] using this
          · intro i hi hi' hP
            have := hc (i + 1) (by simpa using hi) (by simpa using hi')
              (by simpa [Nat.add_comm, Nat.add_left_comm] using hP)
            simpa using this
          · exact hf
        by_cases hP : P off
        · have e : a = b := hc 0 (by simp) (by simp) hP
          rw [List.filter_cons_of_neg (by simpa using ha0.mpr hP),
            List.filter_cons_of_neg (by simpa using hb0.mpr hP)] at hf
          rw [e, rest hf]
        · rw [List.filter_cons_of_pos (by simpa using fun h => hP (ha0.mp h)),
            List.filter_cons_of_pos (by simpa using fun h => hP (hb0.mp h))] at hf
          have := List.cons.inj hf
          rw [this.1, rest this.2]
  apply gen q q' (· ∈ dst) 0 (by omega)
  · intro i hi; simpa using key q h1 h3 i hi
  · intro i hi; simpa using key q' h1' h3' i hi
  · intro i hi hi' hm
    simp only [Nat.zero_add] at hm
    obtain ⟨j, hj, e⟩ := List.mem_iff_getElem.mp hm
    subst e
    have a := h3 j (by omega) hj
    have b := h3' j (by omega) hj
    rw [List.getElem?_eq_getElem hi] at a
    rw [List.getElem?_eq_getElem hi'] at b
    exact (Option.some.inj a).trans (Option.some.inj b).symm
  · exact h4.trans h4'.symm

end Shape

/-- Hence the result of `movedim` with valid lists is the only shape that fits the description. -/
theorem C38_movedim_only (self source destination : List Int) (src dst : List Nat)
    (hr : 0 < self.length) (hs : IsDims self.length source src)
    (hd : IsDims self.length destination dst) (hl : src.length = dst.length)
    (hsn : src.Nodup) (hdn : dst.Nodup) (c : List Int) :
    movedim self source destination = .ok c ↔ IsMoved self src dst c := by
  obtain ⟨c', h, hm⟩ := C38_movedim self source destination src dst hr hs hd hl hsn hdn
  constructor
  · intro h'
    rw [h] at h'
    cases h'
    exact hm
  · intro h'
    rw [h, hm.unique hl (hd.lt hr) hsn hdn h']

/-- `movedim` accepts some invalid lists: the same destination twice. -/
theorem C38_movedim_violated : movedim [2, 3] [1, 0] [0, 0] = .ok [2, 3] := by decide +kernel

/-- `aten.t` is defined for ranks other than two: it raises for rank one, where PyTorch's `t` is the
identity, and exchanges the first two dimensions for rank three, where PyTorch's `t` raises. -/
theorem C38_t_violated : atenT [5] = .error .assertion ∧ t [5] = .ok [5] ∧
    atenT [2, 3, 4] = .ok [3, 2, 4] ∧ t [2, 3, 4] = .error .assertion := by
  refine ⟨?_, ?_, ?_, ?_⟩ <;> decide +kernel

/-- On rank two the two agree. -/
theorem C38_t_partial (a b : Int) : atenT [a, b] = .ok [b, a] ∧ t [a, b] = .ok [b, a] := by
  refine ⟨?_, rfl⟩
  unfold atenT
  rw [transpose_iff]
  refine ⟨0, 1, by unfold IsDim; simp, by unfold IsDim; simp, rfl, rfl, rfl, ?_⟩
  intro i h0 h1
  match i with
  | i + 2 => rfl

/-- permute(2, -3, 1) of [2,3,5]; transpose(0, -1); moving dimension 0 to the end. -/
example : permute [2, 3, 5] [2, -3, 1] = .ok [5, 2, 3] ∧ permute [2, 3] [0, -2] = .error .assertion ∧
    permute [2, 3] [0, 2] = .error .assertion ∧
    transpose [2, 3, 5] 0 (-1) = .ok [5, 3, 2] ∧ transpose [2, 3] 0 2 = .error .assertion ∧
    movedim [2, 3, 5, 7] [0, 1] [-1, 0] = .ok [3, 5, 7, 2] ∧ numpyT [2, 3, 5] = [5, 3, 2] := by
  refine ⟨?_, ?_, ?_, ?_, ?_, ?_, ?_⟩ <;> decide +kernel

end Verif
