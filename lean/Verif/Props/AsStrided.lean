import Verif.Lemmas.AsStrided

/-! # C01–C03: the `as_strided` rewrite -/

namespace Verif

open Verif.AsStrided Verif.AsStridedSpec

/-- **C01.** If the rewrite accepts an access `as_strided(size, stride, offset)` over a base tensor
`(baseShape, baseStride, baseOffset)`, it yields one index tensor per base dimension, each with
`numel size` elements, and for each position `k` of the result (row-major order of `size`) the
gathered base element is in bounds and lives at exactly the storage address the access denotes. -/
theorem C01_as_strided_sound
    {baseShape size : List Nat} {baseStride stride : List Int} {baseOffset offset : Int}
    {coords : List (List Int)} (hbase : baseStride.length = baseShape.length)
    (h : indices baseShape baseStride baseOffset size stride offset = .ok coords) :
    coords.length = baseShape.length ∧ (∀ c ∈ coords, c.length = numel size) ∧
    ∀ k, k < numel size →
      InBounds baseShape (coords.map fun c => c.getD k 0) ∧
      address baseOffset baseStride (coords.map fun c => c.getD k 0)
        = address offset stride (unflatten size k) := by
  unfold indices at h
  simp only [bind_ok] at h
  obtain ⟨offs, hoffs, h⟩ := h
  have hoff := addDims_ok hoffs
  have hnl : ¬ (baseStride.length < baseShape.length) := by omega
  simp only [hnl, if_false] at h
  split at h
  · cases h
  rename_i hrem
  simp only [Bool.not_eq_true] at hrem
  obtain ⟨u, hcb, h⟩ := bind_ok.mp h
  cases h
  have hlenoff : offs.length = numel size := by rw [hoff]; simp [length_multiIndices]
  obtain ⟨hl1, hl2, hl3⟩ := foldl_decode_lengths baseStride
    (sortedDims baseShape.length baseStride)
    { coords := List.replicate baseShape.length (offs.map fun _ => 0), remaining := offs }
    (numel size) hlenoff (by
      intro c hc
      rw [List.eq_of_mem_replicate hc]; simp [hlenoff])
  refine ⟨by rw [hl2]; simp, hl3, ?_⟩
  intro k hk
  have hcol := foldl_decode_column baseStride (sortedDims baseShape.length baseStride)
    { coords := List.replicate baseShape.length (offs.map fun _ => 0), remaining := offs } k
    (by simpa [hlenoff] using hk)
  generalize (sortedDims baseShape.length baseStride).foldl (decodeDim baseStride)
    { coords := List.replicate baseShape.length (offs.map fun _ => 0), remaining := offs } = st at *
  have hcol1 := hcol.1
  have hc0 : column k (List.replicate baseShape.length (offs.map fun _ => (0 : Int)))
      = List.replicate baseShape.length 0 := by
    simp [column, List.map_replicate]
    right
    cases offs[k]? <;> simp
  simp only [hc0] at hcol1
  constructor
  · rw [inBounds_iff]
    refine ⟨by simp [hl2], ?_⟩
    intro d hd
    have hd' : d < st.coords.length := by simpa using hd
    have := checkBounds_ok.mp hcb d hd'
    have hk' : k < (st.coords[d]).length := by rw [hl3 _ (List.getElem_mem _)]; exact hk
    have h2 := this (st.coords[d][k]) (List.getElem_mem _)
    have h3 : (st.coords.map fun c => c.getD k 0).getD d 0 = st.coords[d][k] := by
      simp [List.getD_eq_getElem?_getD, hd', hk']
    rw [h3]
    simpa using h2
  · have hinv := foldl_decode1_inv baseStride (sortedDims baseShape.length baseStride)
      (List.replicate baseShape.length 0, offs.getD k 0) (sortedDims_nodup _ _)
      (by intro d hd; simp only [List.length_replicate]
          have := mem_sortedDims.mp hd; omega)
      (by intro d hd
          have := mem_sortedDims.mp hd
          simp [List.getD_eq_getElem?_getD, this])
    rw [← hcol1] at hinv
    have hr0 : st.remaining.getD k 0 = 0 := by
      have hk' : k < st.remaining.length := by omega
      have := anyElem_false hrem (st.remaining[k]) (List.getElem_mem _)
      simp only [ne_eq, decide_not, Bool.not_eq_false', decide_eq_true_eq] at this
      simp [List.getD_eq_getElem?_getD, hk', this]
    have haz : address 0 baseStride (List.replicate baseShape.length 0) = 0 := by
      generalize baseShape.length = n
      clear hinv hcol1 hcol h hc0 hbase hnl
      induction baseStride generalizing n with
      | nil => cases n <;> simp [address]
      | cons s ss ih => cases n <;> simp [address, List.replicate_succ, ih]
    simp only [hr0, haz] at hinv
    have hok : offs.getD k 0 = offset - baseOffset + dotFrom 0 stride ((multiIndices size)[k]'(by
        rw [length_multiIndices]; exact hk)) := by
      rw [hoff]
      simp [List.getD_eq_getElem?_getD, List.getElem?_map,
        List.getElem?_eq_getElem (show k < (multiIndices size).length by
          rw [length_multiIndices]; exact hk)]
    have hun : (((multiIndices size)[k]'(by rw [length_multiIndices]; exact hk)).map
        fun (i : Nat) => (i : Int)) = unflatten size k := by
      have := multiIndices_get size k hk
      rw [List.getElem?_eq_getElem (by rw [length_multiIndices]; exact hk)] at this
      simpa using this
    rw [← hun, address_eq_dotFrom]
    have hsh := address_shift 0 baseOffset baseStride (column k st.coords)
    simp only [Int.zero_add] at hsh
    show address baseOffset baseStride (column k st.coords) = _
    rw [hsh]
    omega

/-- C01, read through any storage: the value gathered for result position `k` is the value the
`as_strided` access reads, whatever the storage contains; when no storage offset is given, the
source tensor's own offset is used. -/
theorem C01_as_strided_values
    {α : Type} (mem : Int → α)
    {baseShape size : List Nat} {baseStride stride : List Int} {baseOffset sourceOffset : Int}
    {explicit : Option Int}
    {coords : List (List Int)} (hbase : baseStride.length = baseShape.length)
    (h : indices baseShape baseStride baseOffset size stride (chosenOffset explicit sourceOffset)
      = .ok coords) :
    (List.range (numel size)).map
        (fun k => mem (address baseOffset baseStride (coords.map fun c => c.getD k 0)))
      = (List.range (numel size)).map
        (fun k => mem (address (explicit.getD sourceOffset) stride (unflatten size k))) := by
  apply List.map_congr_left
  intro k hk
  have h3 := (C01_as_strided_sound hbase h).2.2 k (by simpa using hk)
  rw [h3.2]
  cases explicit <;> rfl

/-- C01, choice of the base: the tensor the gather indexes has the same storage as the tensor
`as_strided` was applied to, and is reached from it by following operands only, for every FX graph
and every arrangement of nested operand lists. -/
theorem C01_base_same_storage {g : Graph} {v b : Nat} (h : base g v = .ok b) :
    (∃ s, storageOf g v = some s ∧ storageOf g b = some s) ∧ Reaches g v b ∧
    (∀ a, a ∈ operands g b → storageOf g a ≠ storageOf g b) :=
  baseLoop_spec h

/-- C01: on a well-formed graph the search for a base never fails on tensors: it raises only when
some visited node carries no tensor metadata. -/
theorem C01_base_total {g : Graph} (hwf : g.WellFormed)
    (hmeta : ∀ n, n < g.length → ∃ s, storageOf g n = some s) {v : Nat} (hv : v < g.length) :
    ∃ b, base g v = .ok b := base_total hwf hmeta hv

/-- A view chain `2 → 1 → 0` sharing storage `7` is traced to node 0, through a nested list. -/
example : base [⟨some 7, []⟩, ⟨some 7, [.other, .list [.node 0]]⟩, ⟨some 7, [.node 1]⟩] 2 = .ok 0 := by
  decide +kernel

/-- A non-trivial accepted access: reading the anti-transposed 2×3 window of a transposed
(column-major) 3×2 base with storage offset 1. -/
example : indices [2, 3] [1, 2] 1 [3, 2] [2, 1] 1
    = .ok [[0, 1, 0, 1, 0, 1], [0, 0, 1, 1, 2, 2]] := by decide +kernel

/-- Accesses outside the base are refused. -/
example : indices [2, 3] [3, 1] 0 [7] [1] 0 = .error .valueError := by decide +kernel

/-- **C02 (disagreement).** The property fails as stated: `[1, 3]` with strides `[1, 1]` is the
transpose of a contiguous `3×1` tensor (dense along the dimension order `[1, 0]`), yet reading its
three elements is rejected, since the two equal strides are decoded in position order. -/
theorem C02_violated :
    DenseAlong [1, 3] [1, 1] [1, 0] ∧ [1, 0].Perm (List.range 2) ∧
    indices [1, 3] [1, 1] 0 [3] [1] 0 = .error .valueError := by
  refine ⟨by decide +kernel, by decide +kernel, by decide +kernel⟩

/-- **C02 (partial).** If the base is dense along some dimension order `p` (each stride is the
product of the extents that follow in `p`) in which dimensions of equal stride appear in position
order, then every access all of whose elements lie inside the base is accepted.
Missing with respect to C02: dense layouts in which equal strides (only possible next to extents
of one) appear against the position order; these are rejected, see `C02_violated`. -/
theorem C02_dense_accepted_partial
    {baseShape size : List Nat} {baseStride stride : List Int} {baseOffset offset : Int}
    {p : List Nat} (hbase : baseStride.length = baseShape.length)
    (hp : p.Perm (List.range baseShape.length)) (hd : DenseAlong baseShape baseStride p)
    (hties : p.Pairwise (fun i j => baseStride.getD i 0 = baseStride.getD j 0 → i < j))
    (hrank : stride.length = size.length)
    (hin : ∀ k, k < numel size →
      baseOffset ≤ address offset stride (unflatten size k) ∧
      address offset stride (unflatten size k) < baseOffset + (numel baseShape : Int)) :
    ∃ coords, indices baseShape baseStride baseOffset size stride offset = .ok coords := by
  apply indices_accepts hbase (by omega)
  intro k hk
  have hpos : ∀ d ∈ p, 0 < baseShape.getD d 0 := by
    intro d hd
    rcases Nat.eq_zero_or_pos (baseShape.getD d 0) with h0 | h0
    · exfalso
      have hdl : d < baseShape.length := by simpa using hp.mem_iff.mp hd
      have hz : numel baseShape = 0 := by
        apply numel_eq_zero
        rw [← h0, List.getD_eq_getElem?_getD, List.getElem?_eq_getElem hdl]
        exact List.getElem_mem _
      have := hin k hk
      rw [hz] at this
      omega
    · exact h0
  have hs : sortedDims baseShape.length baseStride = p := by
    apply sortedDims_unique hp
    have h1 := denseAlong_antitone hd (fun d h => hpos d h)
    apply (h1.and hties).imp
    rintro a b ⟨h1, h2⟩
    unfold Before
    rcases Int.lt_or_eq_of_le h1 with h | h
    · exact Or.inl h
    · exact Or.inr ⟨h.symm, h2 h.symm⟩
  rw [hs]
  have h := decode1_complete baseShape baseStride p
    (List.replicate baseShape.length 0, address offset stride (unflatten size k) - baseOffset)
    (hp.nodup_iff.mpr List.nodup_range)
    (by intro d hd; simpa using hp.mem_iff.mp hd) hpos hd
    (by have := hin k hk; simp only; omega)
    (by have := hin k hk; rw [extents_perm hp]; simp only; omega)
  refine ⟨h.1, ?_⟩
  intro d hd
  exact h.2 d (hp.mem_iff.mpr (by simpa using hd))

/-- C02 for contiguous bases, of any extents (ones included): every access staying inside the base
is accepted. -/
theorem C02_contiguous_accepted
    {baseShape size : List Nat} {stride : List Int} {baseOffset offset : Int}
    (hrank : stride.length = size.length)
    (hin : ∀ k, k < numel size →
      baseOffset ≤ address offset stride (unflatten size k) ∧
      address offset stride (unflatten size k) < baseOffset + (numel baseShape : Int)) :
    ∃ coords, indices baseShape (contiguousStrides baseShape) baseOffset size stride offset
      = .ok coords := by
  apply C02_dense_accepted_partial (length_contiguousStrides _) (List.Perm.refl _)
    (denseAlong_contiguous _) ?_ hrank hin
  have : (List.range baseShape.length).Pairwise (fun i j => i < j) := List.pairwise_lt_range
  apply this.imp
  intro a b h _
  exact h

/-- C02 for permuted contiguous bases without extents of one: every access staying inside the base
is accepted. -/
theorem C02_permuted_accepted
    {baseShape size : List Nat} {baseStride stride : List Int} {baseOffset offset : Int}
    {p : List Nat} (hbase : baseStride.length = baseShape.length)
    (hp : p.Perm (List.range baseShape.length)) (hd : DenseAlong baseShape baseStride p)
    (h2 : ∀ n ∈ baseShape, 2 ≤ n) (hrank : stride.length = size.length)
    (hin : ∀ k, k < numel size →
      baseOffset ≤ address offset stride (unflatten size k) ∧
      address offset stride (unflatten size k) < baseOffset + (numel baseShape : Int)) :
    ∃ coords, indices baseShape baseStride baseOffset size stride offset = .ok coords := by
  apply C02_dense_accepted_partial hbase hp hd ?_ hrank hin
  apply (denseAlong_sorted_ge2 hd ?_).imp
  · intro a b hlt heq; omega
  · intro d hd
    apply h2
    have hdl : d < baseShape.length := by simpa using hp.mem_iff.mp hd
    rw [List.getD_eq_getElem?_getD, List.getElem?_eq_getElem hdl]
    exact List.getElem_mem _

/-- The hypotheses of `C02_permuted_accepted` hold for a channels-last `1`-free base. -/
example : DenseAlong [2, 3, 4, 5] [60, 1, 15, 3] [0, 2, 3, 1] ∧
    [0, 2, 3, 1].Perm (List.range 4) ∧ (∀ n ∈ [2, 3, 4, 5], 2 ≤ n) := by decide +kernel

example : indices [2, 3, 4] [12, 4, 1] 3 [4, 2] [1, 8] 3
    = .ok [[0, 0, 0, 0, 0, 0, 0, 0], [0, 2, 0, 2, 0, 2, 0, 2], [0, 0, 1, 1, 2, 2, 3, 3]] := by
  decide +kernel

/-- **C03.** However the module's attributes and the `as_strided` nodes are named, rewriting all
`as_strided` nodes of a graph leaves every existing attribute with its value, and afterwards each
generated `get_attr` name reads exactly the index tensor generated for it. -/
theorem C03_attributes_preserved {α : Type} (gm : Attrs α) (nodes : List (String × List α)) :
    (∀ name v, dictGet gm name = some v → dictGet (rewriteAll gm nodes).1 name = some v) ∧
    (rewriteAll gm nodes).2.map (fun ns => ns.map (dictGet (rewriteAll gm nodes).1))
      = nodes.map (fun n => n.2.map some) :=
  ⟨fun _ _ h => rewriteAll_preserves nodes gm h, rewriteAll_reads nodes gm⟩

/-- C03, one constant: the chosen name is not an attribute of the module. -/
theorem C03_name_fresh (used : List String) (nodeName : String) (index : Nat) :
    constantName used nodeName index ∉ used := freshName_fresh _ _

/-- A collision actually occurring: the obvious name is taken, and so is its first variant. -/
example : (rewriteAll [("_torch_mlir_as_strided_n_index_0", 7), ("_torch_mlir_as_strided_n_index_0_", 8)]
    [("n", [1, 2])]).2 = [["_torch_mlir_as_strided_n_index_0__", "_torch_mlir_as_strided_n_index_1"]] := by
  decide +kernel

end Verif
