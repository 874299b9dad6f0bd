import Verif.Lemmas.LinIndexShape

/-! # C94: indirect data movement in the linalg backend -/

namespace Verif

open Lin Ind

variable {E : Type}

namespace Test94

/-- A 2×3 matrix. -/
def m23 : Tensor Int := ⟨[2, 3], fun idx => some (10 * idx.getD 0 0 + idx.getD 1 0)⟩

/-- A 2×2 matrix of indices. -/
def i22 : Tensor Int := ⟨[2, 2], fun idx => some ((idx.getD 0 0 + 2 * idx.getD 1 0) % 3)⟩

/-- A 3×4×5 tensor. -/
def t345 : Tensor Int := ⟨[3, 4, 5], fun idx => some (100 * idx.getD 0 0 + 10 * idx.getD 1 0 + idx.getD 2 0)⟩

/-- A 1×1×2×2 image. -/
def image : Tensor Int := ⟨[1, 1, 2, 2], fun idx => some (10 * idx.getD 2 0 + idx.getD 3 0)⟩

/-- A column and a row of indices. -/
def column : Operand Int := ⟨⟨[2, 1], fun idx => some (idx.getD 0 0 - 1)⟩, [some 2, some 1]⟩
def row : Operand Int := ⟨⟨[3], fun idx => some (idx.getD 0 0 + 1)⟩, [some 3]⟩

def elems (o : Outcome (Tensor E)) (is : List (List Int)) : List (Option E) :=
  match o with
  | .ok t => is.map t.elem
  | _ => []

def ok (o : Outcome (Tensor E)) : Bool :=
  match o with
  | .ok _ => true
  | _ => false

def aborts (o : Outcome (Tensor E)) : Bool :=
  match o with
  | .aborts => true
  | _ => false

end Test94

/-- `aten.gather`: the assertions of the program are those of the indices, and with valid indices the elements are those of
`x[…, index[idx], …]`. -/
theorem C94_gather (x : Tensor E) (index : Tensor Int) (dim : Int) (d : Nat) (hd : NamesDim dim x.sizes.length d)
    (hl : index.sizes.length = x.sizes.length) (hs : ∀ (i : Nat), i ≠ d → index.sizes.getD i 0 ≤ x.sizes.getD i 0) :
    ∃ r, lowerGather x dim index = .ok r ∧ r.tensor.sizes = index.sizes ∧ ∀ idx v, inRange index.sizes idx = true → index.elem idx = some v →
      (r.holds idx = true ↔ 0 ≤ v ∧ v < x.sizes.getD d 0) ∧
      (0 ≤ v → v < x.sizes.getD d 0 → inRange x.sizes (idx.set d v) = true ∧ r.tensor.elem idx = x.elem (idx.set d v)) := by
  obtain ⟨h1, h2⟩ := namesDim_ok hd
  rw [h1] at h2
  unfold lowerGather
  simp only [h2, Bool.not_true, Bool.false_eq_true, if_false, h1, Int.toNat_natCast]
  refine ⟨_, rfl, ?_, fun idx v hi hv => ?_⟩
  · rfl
  have hg : index.get idx = some v := by rw [get_of_range hi, hv]
  simp only [hg, Option.any_some, Option.bind_some]
  refine ⟨?_, fun h3 h4 => ?_⟩
  · simp only [gatherAsserts, Bool.and_eq_true, decide_eq_true_eq]
    omega
  · have hr := inRange_gather hl hi hs ⟨h3, h4⟩
    refine ⟨hr, ?_⟩
    unfold gatherPayload
    rw [gatherIndex_same (inRange_length hi), get_of_range hr]

/-- Along the last dimension: `[[m[0,0], m[0,2]], [m[1,1], m[1,0]]]`. -/
example : (match lowerGather Test94.m23 (-1) Test94.i22 with
    | .ok r => [[0, 0], [0, 1], [1, 0], [1, 1]].map fun i => (r.tensor.elem i, r.holds i)
    | _ => []) = [(some 0, true), (some 2, true), (some 11, true), (some 10, true)] ∧
    (match lowerGather Test94.m23 0 Test94.i22 with
    | .ok r => [[0, 0], [0, 1], [1, 0], [1, 1]].map fun i => (r.tensor.elem i, r.holds i)
    | _ => []) = [(some 0, true), (none, false), (some 10, true), (some 1, true)] := by decide

/-- `aten.embedding`: the rows of the weight the indices name. -/
theorem C94_embedding (weight : Tensor E) (N D : Int) (hw : weight.sizes = [N, D]) (indices : Tensor Int) :
    ∃ r, lowerEmbedding weight indices = .ok r ∧ r.tensor.sizes = indices.sizes ++ [D] ∧ ∀ idx k v, inRange indices.sizes idx = true →
      0 ≤ k → k < D → indices.elem idx = some v →
      (r.holds (idx ++ [k]) = true ↔ 0 ≤ v ∧ v < N) ∧ (0 ≤ v → v < N → r.tensor.elem (idx ++ [k]) = weight.elem [v, k]) := by
  unfold lowerEmbedding
  rw [if_neg (by rw [hw]; simp)]
  refine ⟨_, rfl, by rw [hw]; rfl, fun idx k v hi hk hk' hv => ?_⟩
  have hlen := inRange_length hi
  have hg : indices.get ((idx ++ [k]).take indices.sizes.length) = some v := by
    rw [← hlen, List.take_left' rfl, get_of_range hi, hv]
  simp only [hg, Option.any_some, Option.bind_some]
  refine ⟨?_, fun h3 h4 => ?_⟩
  · simp only [gatherAsserts, hw, Bool.and_eq_true, decide_eq_true_eq]
    simp only [List.getD_cons_zero]
    omega
  · unfold gatherPayload
    have : (indices.sizes ++ [weight.sizes.getD 1 0]).length = idx.length + 1 := by simp [hlen]
    rw [this, gatherIndex_embedding, get_of_range]
    rw [hw]
    simp only [inRange, Bool.and_eq_true, decide_eq_true_eq, Bool.and_true]
    omega

/-- A scalar index too. -/
example : (match lowerEmbedding Test94.m23 ⟨[2], fun idx => some (1 - idx.getD 0 0)⟩ with
    | .ok r => [[0, 0], [0, 2], [1, 1]].map r.tensor.elem
    | _ => []) = [some 10, some 12, some 1] ∧
    (match lowerEmbedding Test94.m23 ⟨[], fun _ => some 1⟩ with
    | .ok r => [[0], [2]].map r.tensor.elem
    | _ => []) = [some 10, some 12] := by decide

/-- `aten.embedding_bag.padding_idx`: the sums of the bags, if there are no weights for the samples and no index is that of the padding.
What is missing: `C94_violated_bag_padding` and `C94_violated_bag_weights`. -/
theorem C94_bag_partial (add mul : E → E → E) (zero : E) (weight : Tensor E) (W : Int → Int → E) (N D : Int) (hs : weight.sizes = [N, D])
    (hw : ∀ r c, 0 ≤ r → r < N → 0 ≤ c → c < D → weight.elem [r, c] = some (W r c)) (indices offsets : List Int)
    (hi : ∀ v ∈ indices, 0 ≤ v ∧ v < N) (padding : Option Int) (hp : ∀ v, padding = some v → v ∉ indices) :
    ∃ t, lowerEmbeddingBag add zero weight (vector indices) (vector offsets) 0 false none padding = .ok t ∧ t.sizes = [(offsets.length : Int), D] ∧
      ∀ (i : Nat) (k : Int), i < offsets.length → 0 ≤ k → k < D →
        t.elem [(i : Int), k] = some (bagSum add mul zero W indices offsets none padding i k) := by
  unfold lowerEmbeddingBag
  rw [if_neg (by simp), if_neg (by rw [hs]; simp), if_neg (by simp [vector]), if_neg (by simp [vector])]
  refine ⟨_, rfl, by rw [hs]; rfl, fun i k hi' hk hk' => ?_⟩
  have hn : ((vector indices).sizes.getD 0 0).toNat = indices.length := by simp [vector]
  simp only [hn, List.getD_cons_zero, List.getD_cons_succ]
  rw [foldl_bind_some (g := fun a (j : Nat) => if decide (offsets.getD i 0 ≤ j) && (decide (offsets.length ≤ i + 1) || decide ((j : Int) < offsets.getD (i + 1) 0))
        then add (W (indices.getD j 0) k) a else a) _ _ _ (fun j hj a => bagStep_ok hs hw hi hi' ⟨hk, hk'⟩ (by simpa using hj) a)]
  congr 1
  rw [foldl_if (fun (j : Nat) => decide (offsets.getD i 0 ≤ j) && (decide (offsets.length ≤ i + 1) || decide ((j : Int) < offsets.getD (i + 1) 0)))
    (fun j => W (indices.getD j 0) k) add]
  unfold bagSum
  have hf : (bag offsets indices.length i).filter (fun j => decide (padding ≠ some (indices.getD j 0))) = bag offsets indices.length i := by
    apply List.filter_eq_self.2
    intro j hj
    have hj' : j < indices.length := by
      simp only [bag, List.mem_filter, List.mem_range] at hj
      exact hj.1
    simp only [decide_eq_true_eq]
    intro h
    apply hp _ h
    rw [List.getD_eq_getElem?_getD, List.getElem?_eq_getElem hj']
    exact List.getElem_mem hj'
  simp only [hf]
  rfl

/-- Two bags. -/
example : Test94.elems (lowerEmbeddingBag (· + ·) 0 Test94.m23 (vector [0, 1, 1]) (vector [0, 2]) 0 false none none) [[0, 0], [0, 2], [1, 1]] =
    [some 10, some 14, some 11] := by decide

/-- Other modes and offsets that include the end are left alone. -/
theorem C94_bag_refuses (add : E → E → E) (zero : E) (weight : Tensor E) (indices offsets : Tensor Int) (mode : Int) (includeLast : Bool)
    (samples : Option (Tensor E)) (padding : Option Int) (t : Tensor E)
    (h : lowerEmbeddingBag add zero weight indices offsets mode includeLast samples padding = .ok t) : mode = 0 ∧ includeLast = false := by
  unfold lowerEmbeddingBag at h
  by_cases h1 : mode = 0
  · rw [if_neg (by simpa using h1)] at h
    refine ⟨h1, ?_⟩
    cases includeLast with
    | false => rfl
    | true =>
      exfalso
      by_cases h2 : weight.sizes.length ≠ 2
      · rw [if_pos h2] at h; cases h
      · rw [if_neg h2] at h
        by_cases h3 : indices.sizes.length ≠ 1
        · rw [if_pos h3] at h; cases h
        · rw [if_neg h3] at h
          by_cases h4 : offsets.sizes.length ≠ 1
          · rw [if_pos h4] at h; cases h
          · rw [if_neg h4] at h; cases h
  · rw [if_pos h1] at h; cases h

/-- The mean is not taken for the sum. -/
example : Test94.ok (lowerEmbeddingBag (· + ·) 0 Test94.m23 (vector [0]) (vector [0]) 1 false none none) = false := by decide

/-- `padding_idx` is ignored. -/
theorem C94_violated_bag_padding : ∃ (weight : Tensor Int) (W : Int → Int → Int) (indices offsets : List Int) (t : Tensor Int),
    weight.sizes = [2, 1] ∧ (∀ r c, weight.elem [r, c] = some (W r c)) ∧
    lowerEmbeddingBag (· + ·) 0 weight (vector indices) (vector offsets) 0 false none (some 1) = .ok t ∧
    t.elem [0, 0] ≠ some (bagSum (· + ·) (· * ·) 0 W indices offsets none (some 1) 0 0) :=
  ⟨⟨[2, 1], fun idx => some (5 * idx.getD 0 0 + 3)⟩, fun r _ => 5 * r + 3, [0, 1], [0], _, rfl, fun _ _ => rfl, rfl, by decide⟩

/-- `per_sample_weights` are ignored. -/
theorem C94_violated_bag_weights : ∃ (weight : Tensor Int) (W : Int → Int → Int) (indices offsets samples : List Int) (t : Tensor Int),
    weight.sizes = [2, 1] ∧ (∀ r c, weight.elem [r, c] = some (W r c)) ∧ samples.length = indices.length ∧
    lowerEmbeddingBag (· + ·) 0 weight (vector indices) (vector offsets) 0 false (some (vector samples)) none = .ok t ∧
    t.elem [0, 0] ≠ some (bagSum (· + ·) (· * ·) 0 W indices offsets (some samples) none 0 0) :=
  ⟨⟨[2, 1], fun idx => some (5 * idx.getD 0 0 + 3)⟩, fun r _ => 5 * r + 3, [0, 1], [0], [2, 4], _, rfl, fun _ _ => rfl, rfl, rfl, by decide⟩

/-- `aten.index_select`: the entries the indices name, a scalar counts as one index. -/
theorem C94_index_select (x : Tensor E) (index : Tensor Int) (dim : Int) (d : Nat) (hd : NamesDim dim x.sizes.length d) (vs : List Int)
    (hi : (index.sizes = [(vs.length : Int)] ∧ ∀ (j : Nat), j < vs.length → index.elem [(j : Int)] = vs[j]?) ∨ (index.sizes = [] ∧ ∃ v, vs = [v] ∧ index.elem [] = some v))
    (hv : ∀ v ∈ vs, 0 ≤ v ∧ v < x.sizes.getD d 0) :
    ∃ t, lowerIndexSelect x dim index = .ok t ∧ t.sizes = x.sizes.set d vs.length ∧ ∀ idx, inRange t.sizes idx = true →
      ∃ v, vs[(idx.getD d 0).toNat]? = some v ∧ inRange x.sizes (idx.set d v) = true ∧ t.elem idx = x.elem (idx.set d v) := by
  obtain ⟨h1, h2⟩ := namesDim_ok hd
  rw [h1] at h2
  have hlt := hd.1
  unfold lowerIndexSelect
  simp only [h2, Bool.not_true, Bool.false_eq_true, if_false, h1, Int.toNat_natCast]
  have key : ∀ (ix : Tensor Int), ix.sizes = [(vs.length : Int)] → (∀ (j : Nat), j < vs.length → ix.elem [(j : Int)] = vs[j]?) →
      x.sizes.set d (ix.sizes.getD 0 0) = x.sizes.set d vs.length ∧ ∀ idx, inRange (x.sizes.set d (ix.sizes.getD 0 0)) idx = true →
      ∃ v, vs[(idx.getD d 0).toNat]? = some v ∧ inRange x.sizes (idx.set d v) = true ∧
        ((ix.get [idx.getD d 0]).bind fun v => x.get (idx.set d v)) = x.elem (idx.set d v) := by
    intro ix hs he
    have e1 : ix.sizes.getD 0 0 = vs.length := by rw [hs]; rfl
    rw [e1]
    refine ⟨rfl, fun idx hr => ?_⟩
    have hr' := inRange_getD hr (d := d) (by simpa using hlt)
    rw [getD_set_self hlt] at hr'
    have hj : (idx.getD d 0).toNat < vs.length := by omega
    have hc : ((idx.getD d 0).toNat : Int) = idx.getD d 0 := by omega
    have hmem := hv _ (List.getElem_mem hj)
    have hrr := inRange_set hr vs[(idx.getD d 0).toNat] hmem
    refine ⟨vs[(idx.getD d 0).toNat], List.getElem?_eq_getElem hj, hrr, ?_⟩
    have hg : ix.get [idx.getD d 0] = some vs[(idx.getD d 0).toNat] := by
      have he' := he _ hj
      rw [hc] at he'
      rw [get_of_range (by rw [hs]; simp only [inRange, Bool.and_true, decide_eq_true_eq]; omega), he']
      exact List.getElem?_eq_getElem hj
    rw [hg, Option.bind_some, get_of_range hrr]
  rcases hi with ⟨hs, he⟩ | ⟨hs, v, rfl, he⟩
  · have hne : ¬ index.sizes.length = 0 := by rw [hs]; simp
    refine ⟨_, rfl, ?_, ?_⟩
    · simp only [hne, if_false]; exact (key index hs he).1
    · simp only [hne, if_false]; exact (key index hs he).2
  · have hne : index.sizes.length = 0 := by rw [hs]; simp
    have hk := key ⟨[1], fun _ => index.get []⟩ rfl (fun j hj => by
      have : j = 0 := by simp at hj; omega
      subst this
      simp only [List.getElem?_cons_zero]
      rw [get_of_range (by rw [hs]; rfl), he])
    refine ⟨_, rfl, ?_, ?_⟩
    · simp only [hne, if_true]; exact hk.1
    · simp only [hne, if_true]; exact hk.2

example : Test94.elems (lowerIndexSelect Test94.m23 1 ⟨[2], fun idx => some (2 - 2 * idx.getD 0 0)⟩) [[0, 0], [1, 0], [1, 1]] = [some 2, some 12, some 10] ∧
    Test94.elems (lowerIndexSelect Test94.m23 (-1) ⟨[], fun _ => some 1⟩) [[0, 0], [1, 0]] = [some 1, some 11] := by decide

/-- `aten.index.Tensor_hacked_twin`: if the pattern matches and the types are right, the result is `x` indexed, unless a dimension of an index
whose size is not known is broadcast.  What is missing: `C94_violated_index`. -/
theorem C94_index_partial (strict : Bool) (x : Tensor E) (idxs : List (Option (Operand Int))) (resTy : List (Option Int)) (B : List Int) (f : Nat)
    (hT : ∀ t, some t ∈ idxs → TypeOf t.type t.tensor.sizes) (hB : IsCommonShape ((idxs.filterMap id).map (·.tensor.sizes)) B) (hf : PutAt idxs f)
    (hR : TypeOf resTy (indexedSizes idxs x.sizes B f)) (hd : ∀ t, some t ∈ idxs → NoDynamicBroadcast t B (fun _ => True))
    (hv : ValidIndices (idxs.map (Option.map (·.tensor))) x.sizes) (t : Tensor E) (h : lowerIndex strict x idxs resTy = .ok t) :
    IsIndexed t x (idxs.map (Option.map (·.tensor))) B f := by
  have hmem : ∀ t, t ∈ idxs.filterMap id → some t ∈ idxs := fun t ht => by simpa using ht
  have hlen : idxs.length ≤ x.sizes.length := by simpa using validIndices_length _ _ hv
  unfold lowerIndex at h
  rw [collect_eq] at h
  simp only at h
  by_cases hne : (idxs.filterMap id).isEmpty = true
  · rw [if_pos hne] at h; cases h
  rw [if_neg hne] at h
  have hne : idxs.filterMap id ≠ [] := by simpa using hne
  obtain ⟨bc, h1, h2⟩ := Ind.bind_ok h
  simp only [Outcome.ok.injEq] at h2
  have hT' := fun t ht => hT t (hmem t ht)
  have hd' := fun t ht => hd t (hmem t ht)
  -- what the type of the result says about the broadcast shape
  have hfk := putAt_le hf hlen
  have hr : ∀ (k : Nat) (n : Int), k < B.length → resTy.getD (f + k) none = some n → B[k]? = some n := by
    intro k n hk hn
    have hx : resTy[f + k]? = some (some n) := by
      rw [List.getD_eq_getElem?_getD] at hn
      cases h : resTy[f + k]? with
      | none => rw [h] at hn; cases hn
      | some o => rw [h] at hn; exact congrArg some hn
    have := hR.2 _ _ hx
    unfold indexedSizes at this
    have hl : ((keep idxs x.sizes).take f).length = f := by simp; omega
    rw [List.append_assoc, List.getElem?_append_right (by omega), hl, show f + k - f = k by omega, List.getElem?_append_left hk] at this
    exact this
  rcases hf with ⟨ts, b, hts, rfl⟩ | ⟨hna, rfl⟩
  · -- next to each other
    have hlen' : f + ts.length + b ≤ x.sizes.length := by simpa [Nat.add_assoc] using hlen
    rw [contig_adjacent, positions_adjacent, Nat.zero_add] at h1 h2
    rw [filterMap_adjacent] at h1 h2 hB hT' hd' hne
    have h0 : (List.range' f ts.length).getD 0 0 = f := by
      cases ts with
      | nil => exact absurd rfl hts
      | cons t ts => rw [List.length_cons, List.range'_succ]; rfl
    simp only [if_true, h0] at h1 h2
    have hbc := bcShape_ok hne hT' hB hd' hr h1
    subst hbc
    have hkeep := keep_adjacent ts b f x.sizes hlen'
    have hf1 : ((x.sizes.take f)).length = f := by simp; omega
    subst h2
    refine ⟨?_, fun k b' hk hb => ?_⟩
    · unfold indexedSizes
      rw [keep_map, hkeep]
      simp only
      rw [resultShape_adjacent hts (by omega), List.take_left' hf1, List.drop_left' hf1]
      rw [hR.1]
      unfold indexedSizes
      rw [hkeep, List.take_left' hf1, List.drop_left' hf1]
      simp only [List.length_append, hf1, List.length_drop]
    · have hbl := inRange_length hb
      obtain ⟨vs, e1, e2, e3⟩ := source_mix b' _ _ _ hv hk (fun u hu => by
        rw [List.mem_filterMap] at hu
        obtain ⟨o, ho, rfl'⟩ := hu
        simp only [id] at rfl'
        subst rfl'
        obtain ⟨w, hw, hw'⟩ := List.mem_map.1 ho
        cases w with
        | none => cases hw'
        | some w =>
          simp only [Option.map_some, Option.some.injEq] at hw'
          subst hw'
          have hw : w ∈ ts := by
            have := (List.mem_filterMap (f := id)).2 ⟨_, hw, rfl⟩
            rwa [filterMap_adjacent] at this
          exact bcIndex_range (hB.1 _ (List.mem_map_of_mem hw)) hb)
      refine ⟨_, e2, e3, ?_⟩
      have hfm : ((List.replicate f none ++ ts.map some ++ List.replicate b none).map (Option.map (fun (o : Operand Int) => o.tensor))).filterMap id = ts.map (·.tensor) := by
        simp [List.map_append, List.filterMap_append, Function.comp_def]
      rw [hfm] at e1
      rw [mix_map] at e3 ⊢
      rw [keep_map, hkeep] at hk
      have hkl : k.length = x.sizes.length - ts.length := by
        rw [inRange_length hk]; simp; omega
      have hvs : vs.length = ts.length := by
        have := e1.length_eq
        simpa using this.symm
      have hkf : (k.take f).length = f := by simp; omega
      have harg := readArgs_ok (start := f) (out := k.take f ++ b' ++ k.drop f) hb (fun j hj => by
          have := getD_append_ge (k.take f) (b' ++ k.drop f) j
          rw [hkf, ← List.append_assoc] at this
          rw [this, getD_append_lt hj]) ts vs
        (fun u hu => ⟨hT' u hu, hB.1 _ (List.mem_map_of_mem hu), hd' u hu⟩) e1
      simp only [harg, Option.bind_some]
      rw [← hbl, extraction_adjacent hts hvs (by omega) hkl, ← mix_adjacent ts b f vs x.sizes k hvs hlen' hkl, get_of_range e3]
  · -- apart
    have hc : contigFrom idxs none 0 = false := by
      rw [← Bool.not_eq_true]
      intro hc
      rcases contigFrom_none idxs 0 hc with h | ⟨g, h⟩
      · apply hne
        rw [h]
        simp
      · exact hna g h
    rw [hc] at h1 h2
    simp only [Bool.false_eq_true, if_false] at h1 h2
    have hbc := bcShape_ok hne hT' hB hd' hr h1
    subst hbc
    subst h2
    refine ⟨?_, fun k b' hk hb => ?_⟩
    · unfold indexedSizes resultShape
      rw [keep_map]
      simp only [Bool.false_eq_true, if_false]
      rw [unchangedSizes_eq]
      simp
    · have hbl := inRange_length hb
      obtain ⟨vs, e1, e2, e3⟩ := source_mix b' _ _ _ hv hk (fun u hu => by
        rw [List.mem_filterMap] at hu
        obtain ⟨o, ho, rfl'⟩ := hu
        simp only [id] at rfl'
        subst rfl'
        obtain ⟨w, hw, hw'⟩ := List.mem_map.1 ho
        cases w with
        | none => cases hw'
        | some w =>
          simp only [Option.map_some, Option.some.injEq] at hw'
          subst hw'
          have hw : w ∈ idxs.filterMap id := List.mem_filterMap.2 ⟨_, hw, rfl⟩
          exact bcIndex_range (hB.1 _ (List.mem_map_of_mem hw)) hb)
      refine ⟨_, e2, e3, ?_⟩
      have hfm : (idxs.map (Option.map (fun (o : Operand Int) => o.tensor))).filterMap id = (idxs.filterMap id).map (·.tensor) := by
        rw [List.filterMap_map, List.map_filterMap]
        rfl
      rw [hfm] at e1
      rw [mix_map] at e3 ⊢
      rw [keep_map] at hk
      have hkl := inRange_length hk
      have hvs : vs.length = (idxs.filterMap id).length := by
        have := e1.length_eq
        simpa using this.symm
      have harg := readArgs_ok (start := 0) (out := k.take 0 ++ b' ++ k.drop 0) hb (fun j hj => by
          simp only [List.take_zero, List.nil_append, Nat.zero_add]
          rw [getD_append_lt hj]) (idxs.filterMap id) vs
        (fun u hu => ⟨hT' u hu, hB.1 _ (List.mem_map_of_mem hu), hd' u hu⟩) e1
      simp only [harg, Option.bind_some]
      unfold extractionIndices
      simp only [Bool.false_eq_true, if_false]
      rw [mixedIndices_eq _ _ x.sizes idxs vs k 0 0 hlen hvs hkl (fun j hj => by
        simp only [List.take_zero, List.nil_append, Nat.add_zero, List.drop_zero]
        rw [← hbl]
        exact getD_append_ge b' k j), get_of_range e3]

/-- Nor does an assertion fail. -/
theorem C94_index_asserts (strict : Bool) (x : Tensor E) (idxs : List (Option (Operand Int))) (resTy : List (Option Int)) (B : List Int)
    (hT : ∀ t, some t ∈ idxs → TypeOf t.type t.tensor.sizes) (hB : IsCommonShape ((idxs.filterMap id).map (·.tensor.sizes)) B)
    (hd : ∀ t, some t ∈ idxs → NoDynamicBroadcast t B (fun _ => True)) : lowerIndex strict x idxs resTy ≠ .aborts := by
  intro h
  unfold lowerIndex at h
  rw [collect_eq] at h
  simp only at h
  by_cases hne : (idxs.filterMap id).isEmpty = true
  · rw [if_pos hne] at h; cases h
  rw [if_neg hne] at h
  rcases bind_aborts h with h | ⟨bc, h⟩
  · exact bcShape_aborts (by simpa using hne) (fun t ht => hT t (by simpa using ht)) hB (fun t ht => hd t (by simpa using ht)) h
  · cases h

/-- A size that is not known, and is that of the other index. -/
example : Test94.elems (lowerIndex false Test94.t345 [some ⟨⟨[3], fun idx => some (2 - idx.getD 0 0)⟩, [none]⟩, some Test94.row] [none, some 5]) [[0, 0], [2, 4]] =
    [some 210, some 34] := by decide

/-- If all sizes are known, the pattern matches and nothing is missing. -/
theorem C94_index_static (strict : Bool) (x : Tensor E) (idxs : List (Option (Operand Int))) (resTy : List (Option Int)) (B : List Int) (f : Nat)
    (hne : ∃ t, some t ∈ idxs) (hT : ∀ t, some t ∈ idxs → t.type = t.tensor.sizes.map some)
    (hB : IsCommonShape ((idxs.filterMap id).map (·.tensor.sizes)) B) (hf : PutAt idxs f)
    (hR : resTy = (indexedSizes idxs x.sizes B f).map some) (hv : ValidIndices (idxs.map (Option.map (·.tensor))) x.sizes) :
    ∃ t, lowerIndex strict x idxs resTy = .ok t ∧ IsIndexed t x (idxs.map (Option.map (·.tensor))) B f := by
  have hlen : idxs.length ≤ x.sizes.length := by simpa using validIndices_length _ _ hv
  have hfk := putAt_le hf hlen
  have known : ∀ (l : List Int), TypeOf (l.map some) l := fun l => ⟨by simp, fun d n h => by simpa using h⟩
  have hT' : ∀ t, some t ∈ idxs → TypeOf t.type t.tensor.sizes := fun t ht => by rw [hT t ht]; exact known _
  have hne' : idxs.filterMap id ≠ [] := by
    obtain ⟨t, ht⟩ := hne
    exact List.ne_nil_of_mem (List.mem_filterMap.2 ⟨_, ht, rfl⟩)
  have hok : ∃ t, lowerIndex strict x idxs resTy = .ok t := by
    unfold lowerIndex
    rw [collect_eq]
    simp only
    rw [if_neg (by simpa using hne'), putAt_start hf hne']
    have hr : ∀ k ∈ List.range (maxRank (idxs.filterMap id)).toNat, (resTy.getD (f + k) none).isSome = true := by
      intro k hk
      rw [maxRank_eq hne' (fun t ht => hT' t (by simpa using ht)) hB] at hk
      have hk : k < B.length := by simpa using hk
      have hlt : f + k < (indexedSizes idxs x.sizes B f).length := by
        unfold indexedSizes
        simp only [List.length_append, List.length_take, List.length_drop]
        omega
      rw [hR, List.getD_eq_getElem?_getD, List.getElem?_map, List.getElem?_eq_getElem hlt]
      rfl
    obtain ⟨bc, hbc⟩ := bcShape_known strict (idxs.filterMap id) hr
    rw [hbc]
    exact ⟨_, rfl⟩
  obtain ⟨t, ht⟩ := hok
  refine ⟨t, ht, C94_index_partial strict x idxs resTy B f hT' hB hf (by rw [hR]; exact known _) (fun t ht k _ h => ?_) hv t ht⟩
  rw [hT t ht, List.getElem?_map] at h
  cases h' : t.tensor.sizes[k]? with
  | none => rw [h'] at h; cases h
  | some n => rw [h'] at h; cases h

/-- A column and a row of indices next to each other after a dimension that is kept, and the same apart. -/
example : AdjacentAt [none, some Test94.column, some Test94.row] 1 ∧
    Test94.elems (lowerIndex false Test94.t345 [none, some Test94.column, some Test94.row] [some 3, some 2, some 3]) [[0, 0, 0], [2, 0, 2], [1, 1, 1]] =
      [some 31, some 233, some 102] ∧
    Test94.elems (lowerIndex false Test94.t345 [some Test94.column, none, some Test94.row] [some 2, some 3, some 4]) [[0, 0, 0], [1, 2, 3], [0, 1, 2]] =
      [some 201, some 33, some 222] :=
  ⟨⟨[Test94.column, Test94.row], 0, by simp, rfl⟩, by decide, by decide⟩

/-- An index whose size is not known but is one can not be broadcast: an assertion of the program fails, and without assertions the result is
too small. -/
theorem C94_violated_index : ∃ (x : Tensor Int) (idxs : List (Option (Operand Int))) (resTy : List (Option Int)) (t : Tensor Int),
    (∀ t, some t ∈ idxs → TypeOf t.type t.tensor.sizes) ∧ IsCommonShape ((idxs.filterMap id).map (·.tensor.sizes)) [3] ∧ PutAt idxs 0 ∧
    TypeOf resTy (indexedSizes idxs x.sizes [3] 0) ∧ ValidIndices (idxs.map (Option.map (·.tensor))) x.sizes ∧
    lowerIndex false x idxs resTy = .aborts ∧ lowerIndex true x idxs resTy = .ok t ∧ t.sizes = [1] := by
  refine ⟨Test94.t345, [some ⟨⟨[1], fun _ => some 2⟩, [none]⟩, some Test94.row, some Test94.row], [none], _, ?_, ?_, ?_, ?_, ?_, rfl, rfl, rfl⟩
  · intro t ht
    simp only [List.mem_cons, Option.some.injEq, List.not_mem_nil, or_false] at ht
    rcases ht with rfl | rfl | rfl
    · refine ⟨rfl, fun d n h => ?_⟩
      match d with
      | 0 => simp at h
      | d + 1 => simp at h
    · refine ⟨rfl, fun d n h => ?_⟩
      match d with
      | 0 => simpa [Test94.row] using h
      | d + 1 => simp [Test94.row] at h
    · refine ⟨rfl, fun d n h => ?_⟩
      match d with
      | 0 => simpa [Test94.row] using h
      | d + 1 => simp [Test94.row] at h
  · refine ⟨?_, ?_⟩
    · intro s hs
      simp only [List.filterMap_cons, id, List.filterMap_nil, List.map_cons, List.map_nil, List.mem_cons, List.not_mem_nil, or_false] at hs
      rcases hs with rfl | rfl | rfl
      · refine ⟨by simp, fun k n h => ?_⟩
        match k with
        | 0 => simp at h; omega
        | k + 1 => simp at h
      · exact ⟨by simp [Test94.row], fun k n h => Or.inr (by simpa [Test94.row] using h)⟩
      · exact ⟨by simp [Test94.row], fun k n h => Or.inr (by simpa [Test94.row] using h)⟩
    · intro i n h
      exact ⟨[3], by simp [Test94.row], i, by simp, h⟩
  · exact Or.inl ⟨[⟨⟨[1], fun _ => some 2⟩, [none]⟩, Test94.row, Test94.row], 0, by simp, rfl⟩
  · refine ⟨rfl, fun d n h => ?_⟩
    match d with
    | 0 => simp at h
    | d + 1 => simp at h
  · refine ⟨fun idx _ => ⟨2, rfl, by decide, by decide⟩, fun idx h => ?_, fun idx h => ?_, trivial⟩
    · have h := inRange_getD h (d := 0) (by simp [Test94.row])
      simp only [Test94.row, List.getD_cons_zero] at h
      exact ⟨_, rfl, by omega, by omega⟩
    · have h := inRange_getD h (d := 0) (by simp [Test94.row])
      simp only [Test94.row, List.getD_cons_zero] at h
      exact ⟨_, rfl, by omega, by omega⟩

/-! ## Resizing -/

/-- `aten.upsample_nearest2d` by a whole number.  What is missing: `C94_violated_upsample`, `C94_violated_downsample`. -/
theorem C94_upsample_partial (x : Tensor E) (N C h w oh ow kh kw : Int) (hs : x.sizes = [N, C, h, w]) (sh sw : Option (Int × Int))
    (hh : Whole sh h oh kh) (hw : Whole sw w ow kw) :
    (lowerUpsample x oh ow sh sw).sizes = [N, C, oh, ow] ∧ ∀ n c a b, inRange [N, C, oh, ow] [n, c, a, b] = true →
      inRange x.sizes [n, c, nearest sh h oh a, nearest sw w ow b] = true ∧
      (lowerUpsample x oh ow sh sw).elem [n, c, a, b] = x.elem [n, c, nearest sh h oh a, nearest sw w ow b] := by
  have e1 : x.sizes.getD 2 0 = h := by rw [hs]; rfl
  have e2 : x.sizes.getD 3 0 = w := by rw [hs]; rfl
  unfold lowerUpsample
  simp only [e1, e2, scaleFactor_whole hh, scaleFactor_whole hw]
  refine ⟨by rw [hs]; rfl, fun n c a b hi => ?_⟩
  simp only [inRange, Bool.and_eq_true, decide_eq_true_eq, Bool.and_true] at hi
  obtain ⟨h1, h2, h3, h4⟩ := hi
  have hk1 := hh.1
  have hk2 := hw.1
  have bound : ∀ (k small large o : Int), 0 < k → large ≤ k * small → 0 ≤ o → o < large → 0 ≤ o / k ∧ o / k < small := by
    intro k small large o hk hl h0 ho
    refine ⟨Int.ediv_nonneg h0 (by omega), ?_⟩
    rw [Int.ediv_lt_iff_lt_mul hk]
    have : k * small = small * k := Int.mul_comm _ _
    omega
  have hr : inRange x.sizes [n, c, nearest sh h oh a, nearest sw w ow b] = true := by
    rw [hs, nearest_whole hh h3.2, nearest_whole hw h4.2]
    simp only [inRange, Bool.and_eq_true, decide_eq_true_eq, Bool.and_true]
    exact ⟨h1, h2, bound _ _ _ _ hk1 hh.2.2.2.2 h3.1 h3.2, bound _ _ _ _ hk2 hw.2.2.2.2 h4.1 h4.2⟩
  refine ⟨hr, ?_⟩
  have : (([n, c, a, b].set 2 (([n, c, a, b].getD 2 0).fdiv kh)).set 3 (([n, c, a, b].getD 3 0).fdiv kw)) = [n, c, nearest sh h oh a, nearest sw w ow b] := by
    rw [nearest_whole hh h3.2, nearest_whole hw h4.2]
    simp [Int.fdiv_eq_ediv_of_nonneg a (by omega : 0 ≤ kh), Int.fdiv_eq_ediv_of_nonneg b (by omega : 0 ≤ kw)]
  rw [this, get_of_range hr]

/-- Given only the sizes, `aten.upsample_nearest2d` is right for every tensor of these sizes, if and only if the scales are close to whole numbers. -/
theorem C94_upsample_exact (N C h w oh ow : Int) (hN : 0 < N) (hC : 0 < C) (hh : 0 < h) (hw : 0 < w) (hoh : 0 < oh) (how : 0 < ow) :
    (∀ x : Tensor (List Int), x.sizes = [N, C, h, w] → ∀ n c a b, inRange [N, C, oh, ow] [n, c, a, b] = true →
      (lowerUpsample x oh ow none none).elem [n, c, a, b] = x.get [n, c, nearest none h oh a, nearest none w ow b]) ↔ Close h oh ∧ Close w ow := by
  have near : ∀ (small large o : Int), 0 < small → 0 < large → 0 ≤ o → o < large → 0 ≤ nearest none small large o ∧ nearest none small large o < small := by
    intro small large o hs hl h0 ho
    simp only [nearest]
    have : 0 ≤ o * small / large := Int.ediv_nonneg (Int.mul_nonneg h0 (by omega)) (by omega)
    omega
  have k1 := (ceilDiv_spec hh hoh).1
  have k2 := (ceilDiv_spec hw how).1
  have shape : ∀ n c a b : Int, (([n, c, a, b].set 2 (([n, c, a, b].getD 2 0).fdiv (Pool.ceilDiv oh h))).set 3 (([n, c, a, b].getD 3 0).fdiv (Pool.ceilDiv ow w)))
      = [n, c, a / Pool.ceilDiv oh h, b / Pool.ceilDiv ow w] := by
    intro n c a b
    simp [Int.fdiv_eq_ediv_of_nonneg a (by omega : 0 ≤ Pool.ceilDiv oh h), Int.fdiv_eq_ediv_of_nonneg b (by omega : 0 ≤ Pool.ceilDiv ow w)]
  rw [← close_iff hh hoh, ← close_iff hw how]
  constructor
  · intro H
    have key : ∀ a b, 0 ≤ a → a < oh → 0 ≤ b → b < ow → a / Pool.ceilDiv oh h = nearest none h oh a ∧ b / Pool.ceilDiv ow w = nearest none w ow b := by
      intro a b ha ha' hb hb'
      have h1 := H ⟨[N, C, h, w], some⟩ rfl 0 0 a b (by
        simp only [inRange, Bool.and_eq_true, decide_eq_true_eq, Bool.and_true]
        omega)
      unfold lowerUpsample at h1
      simp only [scaleFactor, List.getD_cons_succ, List.getD_cons_zero] at h1
      have sh := shape 0 0 a b
      simp only [List.getD_cons_succ, List.getD_cons_zero] at sh
      have n1 := near h oh a hh hoh ha ha'
      have n2 := near w ow b hw how hb hb'
      rw [sh, get_of_range (idx := [0, 0, nearest none h oh a, nearest none w ow b]) (by
        simp only [inRange, Bool.and_eq_true, decide_eq_true_eq, Bool.and_true]
        omega)] at h1
      unfold Tensor.get at h1
      by_cases hc : inRange [N, C, h, w] [0, 0, a / Pool.ceilDiv oh h, b / Pool.ceilDiv ow w] = true
      · rw [if_pos hc] at h1
        simp only [Option.some.injEq, List.cons.injEq, and_true, true_and] at h1
        exact h1
      · rw [if_neg hc] at h1
        simp at h1
    exact ⟨fun o ho ho' => (key o 0 ho ho' (le_refl _) how).1, fun o ho ho' => (key 0 o (le_refl _) hoh ho ho').2⟩
  · rintro ⟨H1, H2⟩ x hx n c a b hi
    simp only [inRange, Bool.and_eq_true, decide_eq_true_eq, Bool.and_true] at hi
    unfold lowerUpsample
    have e1 : x.sizes.getD 2 0 = h := by rw [hx]; rfl
    have e2 : x.sizes.getD 3 0 = w := by rw [hx]; rfl
    simp only [e1, e2, scaleFactor]
    rw [shape n c a b, H1 a hi.2.2.1.1 hi.2.2.1.2, H2 b hi.2.2.2.1 hi.2.2.2.2]

/-- From four to eleven the scale is close enough to three, from three to four it is not close enough to two. -/
example : Close 4 11 ∧ ¬ Close 3 4 := by
  refine ⟨⟨3, by decide, by decide, by decide⟩, ?_⟩
  rintro ⟨k, h1, h2, h3⟩
  have : k = 2 := by omega
  subst this
  simp at h3

/-- Twice as high, three times as wide. -/
example : Whole none 2 4 2 ∧ Whole (some (6, 2)) 2 6 3 ∧
    [[0, 0, 0, 2], [0, 0, 1, 3], [0, 0, 2, 2], [0, 0, 3, 5]].map (lowerUpsample Test94.image 4 6 none (some (6, 2))).elem = [some 0, some 1, some 10, some 11] :=
  ⟨⟨by decide, by decide, Or.inl rfl, fun _ => rfl, by decide⟩, ⟨by decide, by decide, Or.inr ⟨2, (by decide), rfl⟩, (fun h => by cases h), by decide⟩, by decide⟩

/-- From three to four rows the scale is rounded up to two, and the last row is never used. -/
theorem C94_violated_upsample : ∃ (x : Tensor Int), x.sizes = [1, 1, 3, 1] ∧ nearest none 3 4 3 = 2 ∧
    (lowerUpsample x 4 1 none none).elem [0, 0, 3, 0] = x.elem [0, 0, 1, 0] ∧ x.elem [0, 0, 1, 0] ≠ x.elem [0, 0, 2, 0] :=
  ⟨⟨[1, 1, 3, 1], fun idx => some (idx.getD 2 0)⟩, rfl, by decide, by decide, by decide⟩

/-- Making an image smaller cuts it off. -/
theorem C94_violated_downsample : ∃ (x : Tensor Int), x.sizes = [1, 1, 4, 1] ∧ nearest none 4 2 1 = 2 ∧
    (lowerUpsample x 2 1 none none).elem [0, 0, 1, 0] = x.elem [0, 0, 1, 0] ∧ x.elem [0, 0, 1, 0] ≠ x.elem [0, 0, 2, 0] :=
  ⟨⟨[1, 1, 4, 1], fun idx => some (idx.getD 2 0)⟩, rfl, by decide, by decide, by decide⟩

/-- `aten.upsample_nearest2d_backward` by a whole number: what is summed for an element is what is found at the places taken from it.  What is
missing: `C94_violated_upsample_backward`. -/
theorem C94_upsample_backward_partial (add : E → E → E) (zero : E) (h0 : ∀ a, add a zero = a) (g : Tensor E) (N C h w oh ow kh kw : Int)
    (hs : g.sizes = [N, C, oh, ow]) (val : Int → Int → Int → Int → E)
    (hg : ∀ n c a b, inRange g.sizes [n, c, a, b] = true → g.elem [n, c, a, b] = some (val n c a b)) (hpos : 0 < oh ∧ 0 < ow) (sh sw : Option (Int × Int))
    (hh : Whole sh h oh kh) (hw : Whole sw w ow kw) :
    (lowerUpsampleBackward add zero g [N, C, h, w] sh sw).sizes = [N, C, h, w] ∧ ∀ n c p q, inRange [N, C, h, w] [n, c, p, q] = true →
      (lowerUpsampleBackward add zero g [N, C, h, w] sh sw).elem [n, c, p, q] =
        some (gradSum add zero (val n c) (takenFrom sh h oh p) (takenFrom sw w ow q)) := by
  refine ⟨rfl, fun n c p q hi => ?_⟩
  simp only [inRange, Bool.and_eq_true, decide_eq_true_eq, Bool.and_true] at hi
  obtain ⟨h1, h2, h3, h4⟩ := hi
  have e1 : g.sizes.getD 2 0 = oh := by rw [hs]; rfl
  have e2 : g.sizes.getD 3 0 = ow := by rw [hs]; rfl
  unfold lowerUpsampleBackward
  simp only [e1, e2, List.getD_cons_zero, List.getD_cons_succ, scaleFactor_whole hh, scaleFactor_whole hw]
  have hk1 := hh.1
  have hk2 := hw.1
  rw [foldl_bind_some (g := fun a (r : Int × Int) => add a
    (if decide (p * kh + r.1 ≤ oh - 1) && decide (q * kw + r.2 ≤ ow - 1) then val n c (p * kh + r.1) (q * kw + r.2) else zero)) _ _ _ (fun r hr a => ?_)]
  · rw [kernel_sum h0, takenFrom_whole hh h3.1, takenFrom_whole hw h4.1]
    rfl
  · have hr' : 0 ≤ r.1 ∧ 0 ≤ r.2 := by
      simp only [kernelLoops, List.mem_flatMap, List.mem_map] at hr
      obtain ⟨u, -, v, -, rfl⟩ := hr
      exact ⟨by simp, by simp⟩
    have hp := Int.mul_nonneg h3.1 (le_of_lt hk1)
    have hq := Int.mul_nonneg h4.1 (le_of_lt hk2)
    rw [gradValue_ok hs hg h1 h2 hpos.1 hpos.2 (by omega) (by omega)]
    rfl

/-- Four rows and two columns from two and one. -/
example : takenFrom none 2 4 1 = [2, 3] ∧ [[0, 0, 0, 0], [0, 0, 1, 0]].map
    (lowerUpsampleBackward (· + ·) 0 ⟨[1, 1, 4, 2], fun idx => some (10 * idx.getD 2 0 + idx.getD 3 0)⟩ [1, 1, 2, 1] none none).elem = [some 22, some 102] := by
  decide

/-- From three to four rows. -/
theorem C94_violated_upsample_backward : ∃ (g : Tensor Int), g.sizes = [1, 1, 4, 1] ∧ takenFrom none 3 4 2 = [3] ∧ g.elem [0, 0, 3, 0] = some 1 ∧
    (lowerUpsampleBackward (· + ·) 0 g [1, 1, 3, 1] none none).elem [0, 0, 2, 0] = some 0 :=
  ⟨⟨[1, 1, 4, 1], fun _ => some 1⟩, rfl, by decide, by decide, by decide⟩

end Verif
