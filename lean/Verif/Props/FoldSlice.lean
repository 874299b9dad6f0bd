import Verif.Lemmas.FoldSlice

/-!
# C75: slices of constant tensors

The folders of `aten.slice.Tensor` and `aten.select.int` replace the operator by its operand or by a constant.  What they
put must be what the operator computes, and they must come to an end without reading outside of the constant.
-/

namespace Verif
open FoldSlice

variable {E : Type}

/-- What replaces a slice is the slice, whatever the step: the operand, a splat or the elements of the slice in order.  What is
missing: the folder is not always defined (`C75_defined_iff_partial`). -/
theorem C75_slice_partial (inTy outTy : Ty) (a : Args E) (x y : Tensor E) (dim : Int) (start end_ : Option Int) (step : Int)
    (hx : HasTy x inTy) (hy : HasTy y outTy) (ha : Denotes a x dim start end_ step) (hs : IsSlice x dim start end_ step y)
    (hmax : ∀ n ∈ x.sizes, (n : Int) ≤ maxInt) (hu : foldSlice inTy outTy a ≠ .undef) :
    (foldSlice inTy outTy a).Means x y := by
  revert hu
  unfold foldSlice
  cases hi : inTy.sizes with
  | none => exact fun _ => trivial
  | some is =>
  cases ho : outTy.sizes with
  | none => exact fun _ => trivial
  | some os =>
  cases inTy.dtype with
  | none => exact fun _ => trivial
  | some dt =>
  cases outTy.dtype with
  | none => exact fun _ => trivial
  | some dt' =>
  dsimp only
  split
  · exact fun _ => trivial
  split
  · rename_i h
    obtain ⟨h1, h2, h3, _⟩ := h
    intro _
    have e1 := ha.start _ h1
    have e2 := ha.end_ _ h2
    have e3 := ha.step _ h3
    subst e1 e2 e3
    refine same_means hx.1 hs ?_
    obtain ⟨d, n, _, hn, hys, _⟩ := hs
    rw [hys, all_picked (hmax n (List.mem_of_getElem? hn)), List.length_range]
    apply List.ext_getElem?
    intro k
    rw [List.getElem?_set]
    split
    · rename_i hk; subst hk
      split
      · exact hn.symm
      · rename_i hlt; exact absurd (List.getElem?_eq_some_iff.1 hn).1 hlt
    · rfl
  split
  · exact fun _ => trivial
  cases hki : known is with
  | none => exact fun _ => trivial
  | some sizes =>
  cases hko : known os with
  | none => exact fun _ => trivial
  | some out =>
  have e1 := hasTy_known hx hi hki
  have e2 := hasTy_known hy ho hko
  subst e1 e2
  dsimp only
  unfold foldKnown
  have hsame : ∀ {r : Option Int}, r = a.step → foldSame (E := E) x.sizes y.sizes r ≠ .undef →
      (foldSame (E := E) x.sizes y.sizes r).Means x y := by
    intro r hr _
    unfold foldSame
    split
    · rename_i h
      have e3 := ha.step 1 (hr ▸ h.1)
      subst e3
      exact same_means hx.1 hs h.2.symm
    · trivial
  cases hself : a.self with
  | none =>
    dsimp only
    split
    · exact fun _ => trivial
    cases a.dim with
    | none => exact fun _ => trivial
    | some d => exact hsame rfl
  | some c =>
    cases c with
    | splat e =>
      intro _
      obtain ⟨d, n, _, _, _, hyd⟩ := hs
      exact splat_means hy (ha.self _ hself) hyd
    | dense es =>
      dsimp only
      split
      · exact fun _ => trivial
      rename_i hc
      cases hdim : a.dim with
      | none => exact fun _ => trivial
      | some d =>
      dsimp only
      split
      · rename_i es' s e st h0 h1 h2 h3
        split
        · have hes : es' = x.data := by
            injection h0 with h0; injection h0 with h0
            rw [← h0]
            have := ha.self _ hself
            rw [this]; rfl
          rw [hes, ← ha.dim d hdim, ← ha.step st h3]
          have e1 := ha.start s h1
          have e2 := ha.end_ e h2
          subst e1 e2
          exact foldDense_correct hx.1 hs hc
        · exact hsame rfl
      · exact hsame rfl

/-- Upwards, the folder of a small constant slice is defined just if the step divides twice the distance it walks.  What is
missing: operands that are not all constant and negative steps. -/
theorem C75_defined_iff_partial (inTy outTy : Ty) (dt : Nat) (es : List E) (x y : Tensor E) (dim start end_ step : Int) (d n : Nat)
    (hx : x = ⟨x.sizes, es⟩) (hxl : x.data.length = x.sizes.prod)
    (hi : inTy = ⟨some (x.sizes.map some), some dt⟩) (ho : outTy = ⟨some (y.sizes.map some), some dt⟩)
    (hs : IsSlice x dim (some start) (some end_) step y)
    (hd : Shape.IsDim x.sizes.length dim d) (hn : x.sizes[d]? = some n)
    (hc : y.sizes.prod ≠ 0) (hsmall : y.sizes.prod ≤ 16) (h0 : 0 < step)
    (hnot : ¬(start = 0 ∧ end_ = maxInt ∧ step = 1)) :
    foldSlice inTy outTy ⟨some (.dense es), some dim, some start, some end_, some step⟩ ≠ .undef
      ↔ step ∣ 2 * (Shape.position n end_ - Shape.position n start) := by
  have hes : es = x.data := by rw [hx]
  rw [foldSlice_dense inTy outTy dt es x y dim start end_ step hes hi ho hs hc hsmall hnot, foldDense_defined hxl hd hn hs hc h0]

/-- Where the folder gives the slice: upwards where it is defined, downwards from inside of the dimension by a step that divides
the distance.  What is missing: other negative steps (`C75_violated_last_element`) and slices of more than 16 elements, which are
not meant to be folded. -/
theorem C75_folds_partial (inTy outTy : Ty) (dt : Nat) (es : List E) (x y : Tensor E) (dim start end_ step : Int) (d n : Nat)
    (hx : x = ⟨x.sizes, es⟩) (hxl : x.data.length = x.sizes.prod)
    (hi : inTy = ⟨some (x.sizes.map some), some dt⟩) (ho : outTy = ⟨some (y.sizes.map some), some dt⟩)
    (hs : IsSlice x dim (some start) (some end_) step y)
    (hd : Shape.IsDim x.sizes.length dim d) (hn : x.sizes[d]? = some n)
    (hc : y.sizes.prod ≠ 0) (hsmall : y.sizes.prod ≤ 16) (hnot : ¬(start = 0 ∧ end_ = maxInt ∧ step = 1))
    (h : (0 < step ∧ step ∣ 2 * (Shape.position n end_ - Shape.position n start)) ∨
      (step < 0 ∧ start < n ∧ step ∣ Shape.downStart n start - Shape.downEnd n end_)) :
    foldSlice inTy outTy ⟨some (.dense es), some dim, some start, some end_, some step⟩ = .dense y.data := by
  have hes : es = x.data := by rw [hx]
  rw [foldSlice_dense inTy outTy dt es x y dim start end_ step hes hi ho hs hc hsmall hnot]
  have hs' := hs
  obtain ⟨d', n', hdim', hn', hys, hyd⟩ := hs
  obtain rfl := isDim_unique hd hdim' (List.getElem?_eq_some_iff.1 hn).1 (List.getElem?_eq_some_iff.1 hn').1
  rw [hn] at hn'
  injection hn' with hn'
  subst hn'
  have hp : (picked n (some start) (some end_) step).length ≠ 0 := fun e => hc (by
    rw [hys, prod_set hn, e, Nat.zero_mul, Nat.mul_zero])
  rcases h with ⟨h0, hdv⟩ | ⟨h0, hb, hdv⟩
  · have hlt := picked_zero_up h0 hp
    refine foldDense_dense hxl hd hn hys hyd (Or.inl ⟨h0, hlt⟩) ?_
    have hdef := (foldDense_defined hxl hd hn hs' hc h0).2 hdv
    cases hl : loopIndices (first n start) (limit n end_) step with
    | some is => rw [loop_up h0 hlt hl]
    | none => exact absurd (foldDense_endless hd hn (fun e => hc (by rw [hys, prod_set hn, e, Nat.zero_mul])) hl) hdef
  · obtain ⟨h1, h2⟩ := loop_down_dvd h0 hb hp hdv
    exact foldDense_dense hxl hd hn hys hyd (Or.inr ⟨h0, h1⟩) h2

/-- What replaces a selection is the selected element.  What is missing: the folder is not always defined
(`C75_select_defined_partial`). -/
theorem C75_select_partial (outTy : Ty) (self : Option (Const E)) (adim aindex : Option Int) (x y : Tensor E) (dim index : Int)
    (hself : ∀ c, self = some c → x = c.tensor x.sizes) (hdim : ∀ d, adim = some d → dim = d)
    (hindex : ∀ i, aindex = some i → index = i) (hy : HasTy y outTy) (hs : IsSelect x dim index y)
    (hu : foldSelect x.sizes outTy self adim aindex ≠ .undef) :
    (foldSelect x.sizes outTy self adim aindex).Means x y := by
  obtain ⟨d, n, i, hd, hn, hin, hidx, hys, hyd⟩ := hs
  have hdl : d < x.sizes.length := (List.getElem?_eq_some_iff.1 hn).1
  revert hu
  unfold foldSelect
  cases hself' : self with
  | none => exact fun _ => trivial
  | some c =>
  cases outTy.dtype with
  | none => exact fun _ => trivial
  | some dt =>
  cases ho : outTy.sizes with
  | none => exact fun _ => trivial
  | some os =>
  dsimp only
  cases hko : known os with
  | none => exact fun _ => trivial
  | some out =>
  have e2 := hasTy_known hy ho hko
  subst e2
  cases c with
  | splat e => exact fun _ => splat_means hy (hself _ hself') hyd
  | dense es =>
    have hes : es = x.data := by rw [hself _ hself']; rfl
    dsimp only
    cases hdd : adim with
    | none => exact fun _ => trivial
    | some dd =>
    cases hii : aindex with
    | none => exact fun _ => trivial
    | some ii =>
    have e3 := hindex ii hii
    subst e3
    dsimp only
    split
    · exact fun _ => trivial
    rename_i hone
    have hone : y.sizes.prod = 1 := Classical.byContradiction hone
    split
    · exact fun _ => trivial
    split
    · exact fun h => absurd rfl h
    rename_i hnn
    have hi : index = i := by omega
    subst hi
    have hprod : (x.sizes.take d).prod * (x.sizes.drop (d + 1)).prod = 1 := by
      rw [← List.prod_append, ← List.eraseIdx_eq_take_drop_succ, ← hys, hone]
    obtain ⟨h1, h2⟩ := mul_eq_one_nat hprod
    rw [h1, h2] at hyd
    simp only [keepBlocks, List.range_one, List.flatMap_cons, List.flatMap_nil, Nat.zero_mul, Nat.zero_add, Nat.mul_one,
      List.append_nil] at hyd
    rw [Int.toNat_natCast, hes]
    cases he : x.data[i]? with
    | none => exact fun h => absurd rfl h
    | some e =>
      intro _
      have hil := (List.getElem?_eq_some_iff.1 he).1
      show y = ⟨y.sizes, List.replicate y.sizes.prod e⟩
      have : y.data = List.replicate y.sizes.prod e := by
        rw [hone, hyd, List.drop_eq_getElem_cons hil, (List.getElem?_eq_some_iff.1 he).2]
        rfl
      rw [← this]

/-- The folder of a selection at a nonnegative index is defined.  What is missing: negative indices
(`C75_violated_select_negative`). -/
theorem C75_select_defined_partial (outTy : Ty) (self : Option (Const E)) (adim aindex : Option Int) (x y : Tensor E)
    (dim index : Int) (hself : ∀ c, self = some c → x = c.tensor x.sizes) (hxl : x.data.length = x.sizes.prod)
    (hdim : ∀ d, adim = some d → dim = d) (hindex : ∀ i, aindex = some i → index = i) (hy : HasTy y outTy)
    (hs : IsSelect x dim index y) (h0 : 0 ≤ index) :
    foldSelect x.sizes outTy self adim aindex ≠ .undef := by
  obtain ⟨d, n, i, hd, hn, hin, hidx, hys, hyd⟩ := hs
  unfold foldSelect
  cases hself' : self with
  | none => exact fun h => nomatch h
  | some c =>
  cases outTy.dtype with
  | none => exact fun h => nomatch h
  | some dt =>
  cases ho : outTy.sizes with
  | none => exact fun h => nomatch h
  | some os =>
  dsimp only
  cases hko : known os with
  | none => exact fun h => nomatch h
  | some out =>
  have e2 := hasTy_known hy ho hko
  subst e2
  cases c with
  | splat e => exact fun h => nomatch h
  | dense es =>
    have hes : es = x.data := by rw [hself _ hself']; rfl
    dsimp only
    cases hdd : adim with
    | none => exact fun h => nomatch h
    | some dd =>
    cases hii : aindex with
    | none => exact fun h => nomatch h
    | some ii =>
    have e3 := hindex ii hii
    subst e3
    dsimp only
    split
    · exact fun h => nomatch h
    rename_i hone
    have hone : y.sizes.prod = 1 := Classical.byContradiction hone
    split
    · exact fun h => nomatch h
    rw [if_neg (by omega)]
    have hprod : (x.sizes.take d).prod * (x.sizes.drop (d + 1)).prod = 1 := by
      rw [← List.prod_append, ← List.eraseIdx_eq_take_drop_succ, ← hys, hone]
    obtain ⟨h1, h2⟩ := mul_eq_one_nat hprod
    rw [prod_split hn, h1, h2, Nat.one_mul, Nat.mul_one] at hxl
    rw [List.getElem?_eq_getElem (show index.toNat < es.length by rw [hes]; omega)]
    exact fun h => nomatch h

/-! ## Where the code does not do what it should -/

/-- The example of the comment in the source, `0:10:3`: the bound is moved from 10 to 11, the index jumps from 9 to 12, and the
loop reads on beyond the end of the constant. -/
theorem C75_violated_endless : ∃ (x y : Tensor Nat), IsSlice x 0 (some 0) (some 10) 3 y ∧ y.data = [0, 3, 6, 9] ∧
    HasTy x ⟨some [some 10], some 0⟩ ∧ HasTy y ⟨some [some 4], some 0⟩ ∧
    foldSlice ⟨some [some 10], some 0⟩ ⟨some [some 4], some 0⟩
      ⟨some (.dense x.data), some 0, some 0, some 10, some 3⟩ = .undef := by
  refine ⟨⟨[10], [0, 1, 2, 3, 4, 5, 6, 7, 8, 9]⟩, ⟨[4], [0, 3, 6, 9]⟩, ⟨0, 10, ?_, rfl, ?_, ?_⟩, rfl, ⟨rfl, ?_⟩, ⟨rfl, ?_⟩, ?_⟩
  · exact ⟨by decide, Or.inl rfl⟩
  · decide +kernel
  · decide +kernel
  · intro ss h; cases h; exact .cons (Or.inr rfl) .nil
  · intro ss h; cases h; exact .cons (Or.inr rfl) .nil
  · decide +kernel

/-- The other example of the comment, from 8 down in steps of 2: the bound becomes 0 and not -2, element 0 is left out, and the
folder reports an error for a slice of the right type. -/
theorem C75_violated_last_element : ∃ (x y : Tensor Nat), IsSlice x 0 (some 8) (some (-10)) (-2) y ∧ y.data = [8, 6, 4, 2, 0] ∧
    HasTy x ⟨some [some 9], some 0⟩ ∧ HasTy y ⟨some [some 5], some 0⟩ ∧
    (readAll x.data =<< offsets (dims [9] 0 (first 9 8) (limit 9 (-10)) (-2)) 0) = some [8, 6, 4, 2] := by
  refine ⟨⟨[9], [0, 1, 2, 3, 4, 5, 6, 7, 8]⟩, ⟨[5], [8, 6, 4, 2, 0]⟩, ⟨0, 9, ?_, rfl, ?_, ?_⟩, rfl, ⟨rfl, ?_⟩, ⟨rfl, ?_⟩, ?_⟩
  · exact ⟨by decide, Or.inl rfl⟩
  · decide +kernel
  · decide +kernel
  · intro ss h; cases h; exact .cons (Or.inr rfl) .nil
  · intro ss h; cases h; exact .cons (Or.inr rfl) .nil
  · decide +kernel

/-- The last element by a negative index: legal, but read in front of the constant. -/
theorem C75_violated_select_negative : ∃ (x y : Tensor Nat), IsSelect x 0 (-1) y ∧ y.data = [7] ∧
    HasTy y ⟨some [], some 0⟩ ∧ foldSelect x.sizes ⟨some [], some 0⟩ (some (.dense x.data)) (some 0) (some (-1)) = .undef := by
  refine ⟨⟨[3], [5, 6, 7]⟩, ⟨[], [7]⟩, ⟨0, 3, 2, ?_, rfl, by decide, Or.inr (by decide), rfl, ?_⟩, rfl, ⟨rfl, ?_⟩, ?_⟩
  · exact ⟨by decide, Or.inl rfl⟩
  · decide +kernel
  · intro ss h; cases h; exact .nil
  · decide +kernel

/-! ## Examples -/

/-- Every second column of a matrix, from the second on. -/
example : foldSlice ⟨some [some 2, some 4], some 0⟩ ⟨some [some 2, some 2], some 0⟩
    ⟨some (.dense [0, 1, 2, 3, 10, 11, 12, 13]), some (-1), some 1, some 4, some 2⟩ = .dense [1, 3, 11, 13] := by decide +kernel

/-- Rows downwards. -/
example : foldSlice ⟨some [some 3, some 2], some 0⟩ ⟨some [some 2, some 2], some 0⟩
    ⟨some (.dense [0, 1, 10, 11, 20, 21]), some 0, some (-1), some 0, some (-1)⟩ = .dense [20, 21, 10, 11] := by decide +kernel

example : IsSlice ⟨[3, 2], [0, 1, 10, 11, 20, 21]⟩ 0 (some (-1)) (some 0) (-1) ⟨[2, 2], [20, 21, 10, 11]⟩ :=
  ⟨0, 3, ⟨by decide, Or.inl rfl⟩, rfl, by decide +kernel, by decide +kernel⟩

/-- All of an operand of a partly unknown type. -/
example : foldSlice (E := Nat) ⟨some [none, some 2], some 0⟩ ⟨some [none, some 2], some 0⟩
    ⟨none, some 0, some 0, some maxInt, some 1⟩ = .operand := by decide +kernel

example : foldSelect [1, 3] ⟨some [some 1], some 0⟩ (some (.dense [5, 6, 7])) (some 1) (some 2) = .splat 7 := by decide +kernel

end Verif
