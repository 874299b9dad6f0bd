import Verif.Model.AsStrided
import Verif.Spec.AsStrided

/-! Helper lemmas for the `as_strided` theorems. -/

namespace Verif.AsStrided
open Verif.AsStridedSpec

/-! ### Row-major enumeration -/

theorem length_flatMap_const {α β : Type} (l : List α) (f : α → List β) (m : Nat)
    (h : ∀ a, (f a).length = m) : (l.flatMap f).length = l.length * m := by
  induction l with
  | nil => simp
  | cons a l ih => simp [List.flatMap_cons, h, ih, Nat.add_mul, Nat.add_comm]

theorem length_multiIndices (size : List Nat) : (multiIndices size).length = numel size := by
  induction size with
  | nil => rfl
  | cons n ns ih =>
    unfold multiIndices numel
    rw [length_flatMap_const (m := numel ns)]
    · simp
    · intro a; simp [ih]

theorem getElem?_flatMap_const {α β : Type} (l : List α) (f : α → List β) (m : Nat) (hm : 0 < m)
    (h : ∀ a, (f a).length = m) (k : Nat) :
    (l.flatMap f)[k]? = (l[k / m]?).bind fun a => (f a)[k % m]? := by
  induction l generalizing k with
  | nil => simp
  | cons a l ih =>
    rw [List.flatMap_cons]
    by_cases hk : k < m
    · rw [List.getElem?_append_left (by rw [h]; exact hk)]
      simp [Nat.div_eq_of_lt hk, Nat.mod_eq_of_lt hk]
    · have hk' : m ≤ k := by omega
      rw [List.getElem?_append_right (by rw [h]; exact hk'), ih, h]
      have h1 : k / m = (k - m) / m + 1 := by
        conv => lhs; rw [show k = (k - m) + m by omega]
        rw [Nat.add_div_right _ hm]
      have h2 : k % m = (k - m) % m := by
        conv => lhs; rw [show k = (k - m) + m by omega]
        rw [Nat.add_mod_right]
      simp [h1, h2]

theorem multiIndices_get (size : List Nat) (k : Nat) (hk : k < numel size) :
    ((multiIndices size)[k]?).map (fun l => l.map (fun (i : Nat) => (i : Int)))
      = some (unflatten size k) := by
  induction size generalizing k with
  | nil =>
    have : k = 0 := by simp [numel] at hk; exact hk
    subst this
    simp [multiIndices, unflatten]
  | cons n ns ih =>
    have hm : 0 < numel ns := by
      rcases Nat.eq_zero_or_pos (numel ns) with h | h
      · simp [numel, h] at hk
      · exact h
    unfold multiIndices
    rw [getElem?_flatMap_const (m := numel ns) _ _ hm (by intro a; simp [length_multiIndices])]
    have hq : k / numel ns < n := by
      rw [Nat.div_lt_iff_lt_mul hm]; simpa [numel] using hk
    have hr : k % numel ns < numel ns := Nat.mod_lt _ hm
    have := ih _ hr
    simp only [List.getElem?_range hq, Option.bind_some, List.getElem?_map, Option.map_map]
    cases hx : (multiIndices ns)[k % numel ns]? with
    | none => simp [hx] at this
    | some l =>
      simp [hx] at this
      simp [unflatten, this]

theorem length_of_mem_multiIndices {size : List Nat} {l : List Nat}
    (h : l ∈ multiIndices size) : l.length = size.length := by
  induction size generalizing l with
  | nil => simp [multiIndices] at h; simp [h]
  | cons n ns ih =>
    simp [multiIndices] at h
    obtain ⟨i, _, a, ha, rfl⟩ := h
    simp [ih ha]

/-! ### The offset tensor -/

/-- `Σ stride[d]·idx[dim+d]` -/
def dotFrom (dim : Nat) : List Int → List Nat → Int
  | [], _ => 0
  | s :: ss, idx => ((idx.getD dim 0 : Nat) : Int) * s + dotFrom (dim + 1) ss idx

theorem zipWith_map_self {α β γ : Type} (l : List α) (f : α → β) (g : α → β → γ) :
    List.zipWith g l (l.map f) = l.map fun a => g a (f a) := by
  induction l with
  | nil => rfl
  | cons a l ih => simp [ih]

theorem addDims_ok {size : List Nat} {stride : List Int} {dim : Nat} {f : List Nat → Int}
    {r : List Int} (h : addDims size dim stride ((multiIndices size).map f) = .ok r) :
    r = (multiIndices size).map fun idx => f idx + dotFrom dim stride idx := by
  induction stride generalizing dim f r with
  | nil => simp [addDims] at h; simp [dotFrom, ← h]
  | cons s ss ih =>
    simp only [addDims, bind_ok] at h
    obtain ⟨o, ho, h⟩ := h
    unfold addDim at ho
    by_cases hs : s = 0
    · simp [hs] at ho
      subst ho
      have := ih h
      simp [dotFrom, hs, this]
    · simp only [ne_eq, hs, not_false_eq_true, if_true] at ho
      split at ho
      · cases ho
        rw [zipWith_map_self] at h
        have := ih h
        rw [this]
        apply List.map_congr_left
        intro a _
        simp [dotFrom]; omega
      · cases ho

theorem addDims_total {size : List Nat} {stride : List Int} {dim : Nat} {o : List Int}
    (h : dim + stride.length ≤ size.length) : ∃ r, addDims size dim stride o = .ok r := by
  induction stride generalizing dim o with
  | nil => exact ⟨_, rfl⟩
  | cons s ss ih =>
    simp only [addDims]
    unfold addDim
    by_cases hs : s = 0
    · simp only [hs]
      exact ih (by simp at h; omega)
    · have : dim < size.length := by simp at h; omega
      simp only [ne_eq, hs, not_false_eq_true, if_true, this]
      exact ih (by simp at h; omega)

theorem dotFrom_cons (dim : Nat) (ss : List Int) (i : Nat) (idx : List Nat) :
    dotFrom (dim + 1) ss (i :: idx) = dotFrom dim ss idx := by
  induction ss generalizing dim with
  | nil => rfl
  | cons s ss ih => simp [dotFrom, ih]

theorem dotFrom_nil (dim : Nat) (ss : List Int) : dotFrom dim ss [] = 0 := by
  induction ss generalizing dim with
  | nil => rfl
  | cons s ss ih => simp [dotFrom, ih]

theorem address_eq_dotFrom (o : Int) (ss : List Int) (idx : List Nat) :
    address o ss (idx.map fun (i : Nat) => (i : Int)) = o + dotFrom 0 ss idx := by
  induction ss generalizing idx with
  | nil => cases idx <;> simp [address, dotFrom]
  | cons s ss ih =>
    cases idx with
    | nil => simp [address, dotFrom_nil]
    | cons i idx =>
      simp only [List.map_cons, address, ih, dotFrom, dotFrom_cons]
      simp; omega

theorem address_shift (o o' : Int) (ss is : List Int) :
    address (o + o') ss is = o' + address o ss is := by
  induction ss generalizing is with
  | nil => cases is <;> simp [address] <;> omega
  | cons s ss ih =>
    cases is with
    | nil => simp [address]; omega
    | cons i is => simp [address, ih]; omega

/-! ### The decoder, one element at a time -/

/-- `decodeDim` restricted to one element of the tensors. -/
def decode1 (baseStride : List Int) (st : List Int × Int) (dim : Nat) : List Int × Int :=
  let s := baseStride.getD dim 0
  if s ≠ 0 then (st.1.set dim (st.2.fdiv s), st.2 - st.2.fdiv s * s) else st

/-- Column `k` of a list of flat tensors. -/
def column (k : Nat) (t : List (List Int)) : List Int := t.map fun c => c.getD k 0

theorem decodeDim_column (baseStride : List Int) (st : Dec) (dim k : Nat)
    (hk : k < st.remaining.length) :
    (column k (decodeDim baseStride st dim).coords,
      (decodeDim baseStride st dim).remaining.getD k 0)
      = decode1 baseStride (column k st.coords, st.remaining.getD k 0) dim
    ∧ (decodeDim baseStride st dim).remaining.length = st.remaining.length := by
  unfold decodeDim decode1
  by_cases hs : baseStride.getD dim 0 = 0
  · simp only [ne_eq, hs, not_true_eq_false, if_false, and_self]
  · simp only [ne_eq, hs, not_false_eq_true, if_true]
    constructor
    · simp only [column, List.map_set, List.getD_eq_getElem?_getD, List.getElem?_map,
        List.getElem?_zipWith, List.getElem?_eq_getElem hk, Option.map_some, Option.getD_some]
    · simp

theorem foldl_decode_column (baseStride : List Int) (dims : List Nat) (st : Dec) (k : Nat)
    (hk : k < st.remaining.length) :
    (column k (dims.foldl (decodeDim baseStride) st).coords,
      (dims.foldl (decodeDim baseStride) st).remaining.getD k 0)
      = dims.foldl (decode1 baseStride) (column k st.coords, st.remaining.getD k 0)
    ∧ (dims.foldl (decodeDim baseStride) st).remaining.length = st.remaining.length := by
  induction dims generalizing st with
  | nil => simp
  | cons d ds ih =>
    have h := decodeDim_column baseStride st d k hk
    have h' := ih (decodeDim baseStride st d) (by rw [h.2]; exact hk)
    simp only [List.foldl_cons]
    rw [← h.1]
    exact ⟨h'.1, by rw [h'.2, h.2]⟩

theorem foldl_decode_lengths (baseStride : List Int) (dims : List Nat) (st : Dec) (m : Nat)
    (h1 : st.remaining.length = m) (h2 : ∀ c ∈ st.coords, c.length = m) :
    (dims.foldl (decodeDim baseStride) st).remaining.length = m ∧
    (dims.foldl (decodeDim baseStride) st).coords.length = st.coords.length ∧
    ∀ c ∈ (dims.foldl (decodeDim baseStride) st).coords, c.length = m := by
  induction dims generalizing st with
  | nil => exact ⟨h1, rfl, h2⟩
  | cons d ds ih =>
    simp only [List.foldl_cons]
    have hl : (decodeDim baseStride st d).remaining.length = m := by
      unfold decodeDim; simp only; split <;> simp [h1]
    have hc : (decodeDim baseStride st d).coords.length = st.coords.length := by
      unfold decodeDim; simp only; split <;> simp
    have hm : ∀ c ∈ (decodeDim baseStride st d).coords, c.length = m := by
      unfold decodeDim; simp only; split
      · intro c hc
        rcases List.mem_or_eq_of_mem_set hc with h | h
        · exact h2 c h
        · simp [h, h1]
      · exact h2
    have := ih _ hl hm
    exact ⟨this.1, by rw [this.2.1, hc], this.2.2⟩

theorem address_set (o : Int) (ss cs : List Int) (d : Nat) (v : Int)
    (h1 : d < ss.length) (h2 : d < cs.length) :
    address o ss (cs.set d v) = address o ss cs + (v - cs.getD d 0) * ss.getD d 0 := by
  induction ss generalizing cs d with
  | nil => simp at h1
  | cons s ss ih =>
    cases cs with
    | nil => simp at h2
    | cons c cs =>
      cases d with
      | zero => simp [address, Int.sub_mul]; omega
      | succ d =>
        simp only [List.set_cons_succ, address]
        rw [ih cs d (by simpa using h1) (by simpa using h2)]
        simp; omega

theorem decode1_length (ss : List Int) (st : List Int × Int) (d : Nat) :
    (decode1 ss st d).1.length = st.1.length := by
  unfold decode1; simp only; split <;> simp

theorem decode1_other (ss : List Int) (st : List Int × Int) (d e : Nat) (h : d ≠ e) :
    (decode1 ss st d).1.getD e 0 = st.1.getD e 0 := by
  unfold decode1; simp only; split
  · simp [List.getD_eq_getElem?_getD, h]
  · rfl

theorem foldl_decode1_length (ss : List Int) (dims : List Nat) (st : List Int × Int) :
    (dims.foldl (decode1 ss) st).1.length = st.1.length := by
  induction dims generalizing st with
  | nil => rfl
  | cons d ds ih => simp only [List.foldl_cons, ih, decode1_length]

theorem foldl_decode1_other (ss : List Int) (dims : List Nat) (st : List Int × Int) (e : Nat)
    (h : e ∉ dims) : (dims.foldl (decode1 ss) st).1.getD e 0 = st.1.getD e 0 := by
  induction dims generalizing st with
  | nil => rfl
  | cons d ds ih =>
    simp only [List.foldl_cons]
    rw [ih _ (by simp at h; exact h.2), decode1_other]
    simp at h; exact fun hh => h.1 hh.symm

/-- Loop invariant: coordinates times strides plus residue is the requested offset. -/
theorem foldl_decode1_inv (ss : List Int) (dims : List Nat) (st : List Int × Int)
    (hnd : dims.Nodup) (hlt : ∀ d ∈ dims, d < st.1.length ∧ d < ss.length)
    (hz : ∀ d ∈ dims, st.1.getD d 0 = 0) :
    address 0 ss (dims.foldl (decode1 ss) st).1 + (dims.foldl (decode1 ss) st).2
      = address 0 ss st.1 + st.2 := by
  induction dims generalizing st with
  | nil => rfl
  | cons d ds ih =>
    simp only [List.foldl_cons]
    have hnd' := List.nodup_cons.mp hnd
    rw [ih (decode1 ss st d) hnd'.2]
    · unfold decode1
      by_cases hs : ss.getD d 0 = 0
      · simp only [ne_eq, hs, not_true_eq_false, if_false]
      · simp only [ne_eq, hs, not_false_eq_true, if_true]
        have h := hlt d (by simp)
        rw [address_set _ _ _ _ _ h.2 h.1, hz d (by simp)]
        simp; omega
    · intro e he
      rw [decode1_length]; exact hlt e (by simp [he])
    · intro e he
      rw [decode1_other _ _ _ _ (by rintro rfl; exact hnd'.1 he)]
      exact hz e (by simp [he])

/-! ### The checks -/

theorem anyElem_false {p : Int → Bool} {t : List Int} (h : anyElem p t = false) :
    ∀ x ∈ t, p x = false := by
  unfold anyElem at h
  cases t with
  | nil => simp
  | cons a t =>
    simp at h
    simpa using h

theorem anyElem_eq_false {p : Int → Bool} {t : List Int} (h : ∀ x ∈ t, p x = false) :
    anyElem p t = false := by
  unfold anyElem
  have : t.any p = false := by
    rw [List.any_eq_false]; intro x hx; simp [h x hx]
  simp [this]

theorem checkBounds_ok {baseShape : List Nat} {dim : Nat} {coords : List (List Int)} {u : Unit} :
    checkBounds baseShape dim coords = .ok u ↔
      ∀ d, ∀ hd : d < coords.length, ∀ x ∈ coords[d], 0 ≤ x ∧ x < ((baseShape.getD (dim + d) 0 : Nat) : Int) := by
  induction coords generalizing dim with
  | nil => simp [checkBounds]
  | cons c cs ih =>
    unfold checkBounds
    constructor
    · intro h
      split at h
      · cases h
      · rename_i hb
        simp only [Bool.or_eq_true, not_or, Bool.not_eq_true] at hb
        intro d hd x hx
        cases d with
        | zero =>
          have h1 := anyElem_false hb.1 x (by simpa using hx)
          have h2 := anyElem_false hb.2 x (by simpa using hx)
          simp only [decide_eq_false_iff_not] at h1 h2
          constructor
          · omega
          · simp only [Nat.add_zero]; omega
        | succ d =>
          have := (ih.mp h) d (by simpa using hd) x (by simpa using hx)
          rw [show dim + (d + 1) = dim + 1 + d by omega]; exact this
    · intro h
      have h0 := h 0 (by simp)
      rw [if_neg]
      · apply ih.mpr
        intro d hd x hx
        have := h (d + 1) (by simpa using hd) x (by simpa using hx)
        rw [show dim + 1 + d = dim + (d + 1) by omega]; exact this
      · simp only [Bool.or_eq_true, not_or, Bool.not_eq_true]
        constructor
        · apply anyElem_eq_false
          intro x hx
          have := h0 x (by simpa using hx)
          simp only [decide_eq_false_iff_not]; omega
        · apply anyElem_eq_false
          intro x hx
          have := h0 x (by simpa using hx)
          simp only [Nat.add_zero] at this
          simp only [decide_eq_false_iff_not]; omega

theorem inBounds_iff (shape : List Nat) (b : List Int) :
    InBounds shape b ↔ b.length = shape.length ∧
      ∀ d, d < b.length → 0 ≤ b.getD d 0 ∧ b.getD d 0 < ((shape.getD d 0 : Nat) : Int) := by
  induction shape generalizing b with
  | nil => cases b <;> simp [InBounds]
  | cons n ns ih =>
    cases b with
    | nil => simp [InBounds]
    | cons i is =>
      simp only [InBounds, ih, List.length_cons, Nat.add_right_cancel_iff]
      constructor
      · rintro ⟨h1, h2, h3, h4⟩
        refine ⟨h3, ?_⟩
        intro d hd
        cases d with
        | zero => exact ⟨h1, by simpa using h2⟩
        | succ d => simpa using h4 d (by omega)
      · rintro ⟨h3, h4⟩
        have h0 := h4 0 (by omega)
        refine ⟨by simpa using h0.1, by simpa using h0.2, h3, ?_⟩
        intro d hd
        simpa using h4 (d + 1) (by omega)

/-! ### Sorting -/

theorem sortedDims_perm (n : Nat) (ss : List Int) : (sortedDims n ss).Perm (List.range n) :=
  sortBy_perm _

theorem sortedDims_nodup (n : Nat) (ss : List Int) : (sortedDims n ss).Nodup :=
  (sortedDims_perm n ss).nodup_iff.mpr List.nodup_range

theorem mem_sortedDims {n : Nat} {ss : List Int} {d : Nat} : d ∈ sortedDims n ss ↔ d < n := by
  simp [sortedDims, mem_sortBy]

/-- The order used by the decoder: larger stride first, ties by position. -/
def Before (ss : List Int) (i j : Nat) : Prop :=
  ss.getD j 0 < ss.getD i 0 ∨ (ss.getD i 0 = ss.getD j 0 ∧ i < j)

theorem pair_sublist_range {n i j : Nat} (h : i < j) (hj : j < n) : [i, j].Sublist (List.range n) := by
  induction n with
  | zero => omega
  | succ n ih =>
    rw [List.range_succ]
    by_cases hjn : j < n
    · exact (ih hjn).trans (List.sublist_append_left _ _)
    · have : j = n := by omega
      subst this
      rw [show [i, j] = [i] ++ [j] from rfl]
      exact List.Sublist.append (List.singleton_sublist.mpr (by simpa using h)) (List.Sublist.refl _)

theorem not_both_pairs {l : List Nat} (hnd : l.Nodup) {a b : Nat} (h1 : [a, b].Sublist l)
    (h2 : [b, a].Sublist l) : False := by
  induction l with
  | nil => simp at h1
  | cons x xs ih =>
    have hnd' := List.nodup_cons.mp hnd
    cases h1 with
    | cons _ h1 =>
      cases h2 with
      | cons _ h2 => exact ih hnd'.2 h1 h2
      | cons_cons _ h2 => exact hnd'.1 (h1.subset (by simp))
    | cons_cons _ h1 =>
      cases h2 with
      | cons _ h2 => exact hnd'.1 (h2.subset (by simp))
      | cons_cons _ h2 => exact hnd'.1 (h1.subset (by simp))

theorem sortedDims_pairwise (n : Nat) (ss : List Int) :
    (sortedDims n ss).Pairwise (Before ss) := by
  have hle : (sortedDims n ss).Pairwise
      (fun i j => decide (ss.getD j 0 ≤ ss.getD i 0) = true) := by
    apply sortBy_pairwise
    · intro a b c hab hbc
      simp only [decide_eq_true_eq] at *; omega
    · intro a b
      simp only [Bool.or_eq_true, decide_eq_true_eq]; omega
  rw [List.pairwise_iff_forall_sublist]
  intro a b hab
  have h1 := List.pairwise_iff_forall_sublist.mp hle hab
  simp only [decide_eq_true_eq] at h1
  have hnd := sortedDims_nodup n ss
  have hne : a ≠ b := by
    rintro rfl
    have := List.Sublist.nodup hab hnd
    simp at this
  by_cases hlt : ss.getD b 0 < ss.getD a 0
  · exact Or.inl hlt
  · right
    have heq : ss.getD a 0 = ss.getD b 0 := by omega
    refine ⟨heq, ?_⟩
    rcases Nat.lt_or_ge a b with h | h
    · exact h
    · exfalso
      have hba : b < a := by omega
      have han : a < n := mem_sortedDims.mp (hab.subset (by simp))
      have hsub : [b, a].Sublist (sortedDims n ss) := by
        apply pair_sublist_sortBy
        · intro a b c hab hbc
          simp only [decide_eq_true_eq] at *; omega
        · intro a b
          simp only [Bool.or_eq_true, decide_eq_true_eq]; omega
        · simp only [decide_eq_true_eq]; omega
        · exact pair_sublist_range hba han
      exact not_both_pairs hnd hab hsub

theorem sortedDims_unique {n : Nat} {ss : List Int} {p : List Nat} (hp : p.Perm (List.range n))
    (hs : p.Pairwise (Before ss)) : sortedDims n ss = p := by
  apply List.Perm.eq_of_pairwise (le := Before ss) _ (sortedDims_pairwise n ss) hs
    ((sortedDims_perm n ss).trans hp.symm)
  intro a b _ _ h1 h2
  unfold Before at h1 h2
  omega

/-! ### Completeness of the decoder on dense layouts -/

theorem decode1_complete (shape : List Nat) (ss : List Int) (p : List Nat) (st : List Int × Int)
    (hnd : p.Nodup) (hlt : ∀ d ∈ p, d < st.1.length) (hpos : ∀ d ∈ p, 0 < shape.getD d 0)
    (hd : DenseAlong shape ss p) (h0 : 0 ≤ st.2) (h1 : st.2 < (extents shape p : Int)) :
    (p.foldl (decode1 ss) st).2 = 0 ∧
    ∀ d ∈ p, 0 ≤ (p.foldl (decode1 ss) st).1.getD d 0 ∧
      (p.foldl (decode1 ss) st).1.getD d 0 < ((shape.getD d 0 : Nat) : Int) := by
  induction p generalizing st with
  | nil =>
    simp [extents, numel] at h1
    simp; omega
  | cons d ds ih =>
    have hnd' := List.nodup_cons.mp hnd
    obtain ⟨hs, hd'⟩ := hd
    have hpos' : 0 < extents shape ds := by
      have : ∀ l : List Nat, (∀ d ∈ l, 0 < shape.getD d 0) → 0 < extents shape l := by
        intro l
        induction l with
        | nil => intro _; simp [extents, numel]
        | cons a l ihl =>
          intro h
          have h1 := h a (by simp)
          have h2 := ihl (fun e he => h e (by simp [he]))
          simp only [extents, List.map_cons, numel] at h2 ⊢
          exact Nat.mul_pos h1 h2
      exact this ds (fun e he => hpos e (by simp [he]))
    have hsne : ss.getD d 0 ≠ 0 := by rw [hs]; omega
    simp only [List.foldl_cons]
    have hstep : decode1 ss st d
        = (st.1.set d (st.2 / (extents shape ds : Int)), st.2 % (extents shape ds : Int)) := by
      unfold decode1
      simp only [ne_eq, hsne, not_false_eq_true, if_true]
      rw [hs, Int.fdiv_eq_ediv_of_nonneg _ (by omega)]
      congr 1
      rw [Int.emod_def, Int.mul_comm]
    have hext : (extents shape (d :: ds) : Int)
        = ((shape.getD d 0 : Nat) : Int) * (extents shape ds : Int) := by
      simp [extents, numel]
    have hE : (0 : Int) < (extents shape ds : Int) := by omega
    have hq0 : 0 ≤ st.2 / (extents shape ds : Int) := Int.ediv_nonneg h0 (by omega)
    have hq1 : st.2 / (extents shape ds : Int) < ((shape.getD d 0 : Nat) : Int) := by
      apply Int.ediv_lt_of_lt_mul hE; rw [← hext]; exact h1
    have := ih (decode1 ss st d) hnd'.2
      (by intro e he; rw [decode1_length]; exact hlt e (by simp [he]))
      (fun e he => hpos e (by simp [he])) hd'
      (by rw [hstep]; exact Int.emod_nonneg _ (by omega))
      (by rw [hstep]; exact Int.emod_lt_of_pos _ hE)
    refine ⟨this.1, ?_⟩
    intro e he
    rcases List.mem_cons.mp he with rfl | he
    · rw [foldl_decode1_other _ _ _ _ hnd'.1, hstep]
      have : e < st.1.length := hlt e (by simp)
      simp only [List.getD_eq_getElem?_getD, List.getElem?_set_self this, Option.getD_some]
      exact ⟨hq0, by simpa [List.getD_eq_getElem?_getD] using hq1⟩
    · exact this.2 e he

/-! ### Fresh names -/

theorem freshNameLoop_spec (used : List String) (fuel : Nat) (name : String) :
    ∃ k, freshNameLoop used fuel name = name ++ String.ofList (List.replicate k '_') ∧ k ≤ fuel ∧
      (∀ j, j < k → name ++ String.ofList (List.replicate j '_') ∈ used) ∧
      (k < fuel → freshNameLoop used fuel name ∉ used) := by
  induction fuel generalizing name with
  | zero => exact ⟨0, by simp [freshNameLoop], by omega, by omega, by omega⟩
  | succ fuel ih =>
    unfold freshNameLoop
    by_cases h : used.contains name = true
    · simp only [h, if_true]
      obtain ⟨k, h1, h2, h3, h4⟩ := ih (name ++ "_")
      have happ : ∀ j, name ++ "_" ++ String.ofList (List.replicate j '_')
          = name ++ String.ofList (List.replicate (j + 1) '_') := by
        intro j
        apply String.ext
        simp [List.replicate_succ]
      refine ⟨k + 1, by rw [h1, happ], by omega, ?_, ?_⟩
      · intro j hj
        cases j with
        | zero => simpa using h
        | succ j => rw [← happ]; exact h3 j (by omega)
      · intro hk; exact h4 (by omega)
    · simp only [h]
      refine ⟨0, by simp, by omega, by omega, ?_⟩
      intro _; simpa using h

theorem nodup_subset_length {α : Type} [DecidableEq α] {l m : List α} (hnd : l.Nodup) (hs : l ⊆ m) :
    l.length ≤ m.length := by
  induction l generalizing m with
  | nil => simp
  | cons a l ih =>
    have hnd' := List.nodup_cons.mp hnd
    have ha : a ∈ m := hs (by simp)
    have : l ⊆ m.erase a := by
      intro x hx
      have hxa : x ≠ a := by rintro rfl; exact hnd'.1 hx
      exact (List.mem_erase_of_ne hxa).mpr (hs (by simp [hx]))
    have h := ih hnd'.2 this
    rw [List.length_erase_of_mem ha] at h
    have : 0 < m.length := List.length_pos_of_mem ha
    simp; omega

theorem freshName_fresh (used : List String) (name : String) :
    freshNameLoop used (used.length + 1) name ∉ used := by
  obtain ⟨k, h1, h2, h3, h4⟩ := freshNameLoop_spec used (used.length + 1) name
  apply h4
  rcases Nat.lt_or_ge k (used.length + 1) with h | h
  · exact h
  · exfalso
    have hk : k = used.length + 1 := by omega
    subst hk
    have hinj : ∀ i j, name ++ String.ofList (List.replicate i '_')
        = name ++ String.ofList (List.replicate j '_') → i = j := by
      intro i j h
      have h' := congrArg (fun s => s.toList.length) h
      simp at h'
      exact h'
    have hnd : ((List.range (used.length + 1)).map
        fun j => name ++ String.ofList (List.replicate j '_')).Nodup := by
      rw [List.Nodup, List.pairwise_map]
      exact List.Pairwise.imp (fun hne he => hne (hinj _ _ he)) List.nodup_range
    have := nodup_subset_length hnd (m := used) (by
      intro x hx
      simp only [List.mem_map, List.mem_range] at hx
      obtain ⟨j, hj, rfl⟩ := hx
      exact h3 j hj)
    simp at this; omega

/-! ### Extents -/

theorem numel_perm {l m : List Nat} (h : l.Perm m) : numel l = numel m := by
  induction h with
  | nil => rfl
  | cons x _ ih => simp [numel, ih]
  | swap x y l => simp [numel, Nat.mul_left_comm]
  | trans _ _ ih1 ih2 => rw [ih1, ih2]

theorem map_getD_range (shape : List Nat) :
    (List.range shape.length).map (fun d => shape.getD d 0) = shape := by
  apply List.ext_getElem
  · simp
  · intro i h1 h2
    simp at h1 ⊢
    simp [h1]

theorem extents_perm {shape p : List Nat} (h : p.Perm (List.range shape.length)) :
    extents shape p = numel shape := by
  unfold extents
  rw [numel_perm (h.map _), map_getD_range]

theorem numel_eq_zero {l : List Nat} (h : 0 ∈ l) : numel l = 0 := by
  induction l with
  | nil => simp at h
  | cons a l ih =>
    rcases List.mem_cons.mp h with h | h
    · simp [numel, ← h]
    · simp [numel, ih h]

/-- Acceptance, in terms of the one-element decoder. -/
theorem indices_accepts {baseShape size : List Nat} {baseStride stride : List Int}
    {baseOffset offset : Int} (hbase : baseStride.length = baseShape.length)
    (hrank : stride.length ≤ size.length)
    (h : ∀ k, k < numel size →
      let r := (sortedDims baseShape.length baseStride).foldl (decode1 baseStride)
        (List.replicate baseShape.length 0,
          address offset stride (unflatten size k) - baseOffset)
      r.2 = 0 ∧ ∀ d, d < baseShape.length →
        0 ≤ r.1.getD d 0 ∧ r.1.getD d 0 < ((baseShape.getD d 0 : Nat) : Int)) :
    ∃ coords, indices baseShape baseStride baseOffset size stride offset = .ok coords := by
  obtain ⟨offs, hoffs⟩ := addDims_total (size := size) (stride := stride) (dim := 0)
    (o := (multiIndices size).map fun _ => offset - baseOffset) (by omega)
  have hoff := addDims_ok hoffs
  have hnl : ¬ (baseStride.length < baseShape.length) := by omega
  have hlenoff : offs.length = numel size := by rw [hoff]; simp [length_multiIndices]
  obtain ⟨hl1, hl2, hl3⟩ := foldl_decode_lengths baseStride
    (sortedDims baseShape.length baseStride)
    { coords := List.replicate baseShape.length (offs.map fun _ => 0), remaining := offs }
    (numel size) hlenoff (by
      intro c hc
      rw [List.eq_of_mem_replicate hc]; simp [hlenoff])
  have hcol := foldl_decode_column baseStride (sortedDims baseShape.length baseStride)
    { coords := List.replicate baseShape.length (offs.map fun _ => 0), remaining := offs }
  unfold indices
  simp only [hoffs, hnl, if_false, bind, Except.bind]
  generalize (sortedDims baseShape.length baseStride).foldl (decodeDim baseStride)
    { coords := List.replicate baseShape.length (offs.map fun _ => 0), remaining := offs } = st at *
  have key : ∀ k, k < numel size → st.remaining.getD k 0 = 0 ∧ ∀ d, d < baseShape.length →
      0 ≤ (column k st.coords).getD d 0 ∧
      (column k st.coords).getD d 0 < ((baseShape.getD d 0 : Nat) : Int) := by
    intro k hk
    have hcol1 := (hcol k (by simpa [hlenoff] using hk)).1
    have hc0 : column k (List.replicate baseShape.length (offs.map fun _ => (0 : Int)))
        = List.replicate baseShape.length 0 := by
      simp [column, List.map_replicate]
      right
      cases offs[k]? <;> simp
    have hok : offs.getD k 0 = address offset stride (unflatten size k) - baseOffset := by
      have hun : (((multiIndices size)[k]'(by rw [length_multiIndices]; exact hk)).map
          fun (i : Nat) => (i : Int)) = unflatten size k := by
        have := multiIndices_get size k hk
        rw [List.getElem?_eq_getElem (by rw [length_multiIndices]; exact hk)] at this
        simpa using this
      rw [← hun, address_eq_dotFrom, hoff]
      simp only [List.getD_eq_getElem?_getD, List.getElem?_map,
        List.getElem?_eq_getElem (show k < (multiIndices size).length by
          rw [length_multiIndices]; exact hk), Option.map_some, Option.getD_some]
      omega
    simp only [hc0, hok] at hcol1
    have hh := h k hk
    simp only [← hcol1] at hh
    exact hh
  have hrem : anyElem (fun r => decide (r ≠ 0)) st.remaining = false := by
    apply anyElem_eq_false
    intro x hx
    obtain ⟨k, hk, rfl⟩ := List.mem_iff_getElem.mp hx
    have := (key k (by omega)).1
    simp [List.getD_eq_getElem?_getD, hk] at this
    simp [this]
  have hcb : checkBounds baseShape 0 st.coords = .ok () := by
    apply checkBounds_ok.mpr
    intro d hd x hx
    obtain ⟨k, hk, rfl⟩ := List.mem_iff_getElem.mp hx
    have hlen := hl3 _ (List.getElem_mem hd)
    have := (key k (by omega)).2 d (by simpa [hl2] using hd)
    have h3 : (column k st.coords).getD d 0 = st.coords[d][k] := by
      simp [column, List.getD_eq_getElem?_getD, hd, hk]
    rw [h3] at this
    simpa using this
  rw [hrem, hcb]
  exact ⟨_, rfl⟩

theorem denseAlong_sorted_ge2 {shape : List Nat} {ss : List Int} {p : List Nat}
    (hd : DenseAlong shape ss p) (h2 : ∀ d ∈ p, 2 ≤ shape.getD d 0) :
    p.Pairwise (fun i j => ss.getD j 0 < ss.getD i 0) := by
  -- strides strictly decrease along `p`
  have hpos : ∀ l : List Nat, (∀ d ∈ l, 2 ≤ shape.getD d 0) → 0 < extents shape l := by
    intro l
    induction l with
    | nil => intro _; simp [extents, numel]
    | cons a l ihl =>
      intro h
      have h1 := h a (by simp)
      have h2 := ihl (fun e he => h e (by simp [he]))
      simp only [extents, List.map_cons, numel] at h2 ⊢
      exact Nat.mul_pos (by omega) h2
  induction p with
  | nil => simp
  | cons d ds ih =>
    obtain ⟨hs, hd'⟩ := hd
    have h2' : ∀ e ∈ ds, 2 ≤ shape.getD e 0 := fun e he => h2 e (by simp [he])
    rw [List.pairwise_cons]
    refine ⟨?_, ih hd' h2'⟩
    intro e he
    -- the stride of a later dimension times its extent divides into the product
    have : ∀ l : List Nat, DenseAlong shape ss l → (∀ d ∈ l, 2 ≤ shape.getD d 0) → ∀ e ∈ l,
        ss.getD e 0 < (extents shape l : Int) := by
      intro l
      induction l with
      | nil => intro _ _ e he; simp at he
      | cons a l ihl =>
        intro hd h2 e he
        obtain ⟨ha, hd⟩ := hd
        have hl : ∀ d ∈ l, 2 ≤ shape.getD d 0 := fun e he => h2 e (by simp [he])
        have hp := hpos l hl
        have ha2 := h2 a (by simp)
        have hE : extents shape (a :: l) = shape.getD a 0 * extents shape l := rfl
        have hgt : extents shape l < extents shape (a :: l) := by
          rw [hE]
          calc extents shape l < 2 * extents shape l := by omega
            _ ≤ _ := Nat.mul_le_mul_right _ ha2
        rcases List.mem_cons.mp he with rfl | he
        · rw [ha]; omega
        · have := ihl hd hl e he; omega
    rw [hs]
    exact this ds hd' h2' e he

theorem denseAlong_contiguous_aux (pre : List Nat) (preS : List Int) (h : pre.length = preS.length)
    (shape : List Nat) :
    DenseAlong (pre ++ shape) (preS ++ contiguousStrides shape)
      (List.range' pre.length shape.length) := by
  induction shape generalizing pre preS with
  | nil => simp [DenseAlong]
  | cons n ns ih =>
    rw [List.length_cons, List.range'_succ]
    have h1 := ih (pre ++ [n]) (preS ++ [(numel ns : Int)]) (by simp [h])
    simp only [List.append_assoc, List.singleton_append, List.length_append, List.length_cons,
      List.length_nil] at h1
    refine ⟨?_, by simpa [contiguousStrides] using h1⟩
    have : extents (pre ++ n :: ns) (List.range' (pre.length + 1) ns.length) = numel ns := by
      unfold extents
      congr 1
      apply List.ext_getElem
      · simp
      · intro i hi1 hi2
        simp
        rw [List.getElem?_append_right (by omega)]
        rw [show pre.length + 1 + i - pre.length = i + 1 by omega]
        simp at hi1
        simp [hi1]
    rw [this]
    simp [contiguousStrides, List.getD_eq_getElem?_getD, h]

theorem denseAlong_contiguous (shape : List Nat) :
    DenseAlong shape (contiguousStrides shape) (List.range shape.length) := by
  have := denseAlong_contiguous_aux [] [] rfl shape
  simpa [List.range_eq_range'] using this

theorem length_contiguousStrides (shape : List Nat) :
    (contiguousStrides shape).length = shape.length := by
  induction shape with
  | nil => rfl
  | cons n ns ih => simp [contiguousStrides, ih]

/-- Along a dense order of positive extents the strides are non-increasing. -/
theorem denseAlong_antitone {shape : List Nat} {ss : List Int} {p : List Nat}
    (hd : DenseAlong shape ss p) (hp : ∀ d ∈ p, 1 ≤ shape.getD d 0) :
    p.Pairwise (fun i j => ss.getD j 0 ≤ ss.getD i 0) := by
  induction p with
  | nil => simp
  | cons d ds ih =>
    obtain ⟨hs, hd'⟩ := hd
    have hp' : ∀ e ∈ ds, 1 ≤ shape.getD e 0 := fun e he => hp e (by simp [he])
    rw [List.pairwise_cons]
    refine ⟨?_, ih hd' hp'⟩
    intro e he
    have : ∀ l : List Nat, DenseAlong shape ss l → (∀ d ∈ l, 1 ≤ shape.getD d 0) → ∀ e ∈ l,
        ss.getD e 0 ≤ (extents shape l : Int) := by
      intro l
      induction l with
      | nil => intro _ _ e he; simp at he
      | cons a l ihl =>
        intro hd h2 e he
        obtain ⟨ha, hd⟩ := hd
        have hl : ∀ d ∈ l, 1 ≤ shape.getD d 0 := fun e he => h2 e (by simp [he])
        have ha2 := h2 a (by simp)
        have hE : extents shape (a :: l) = shape.getD a 0 * extents shape l := rfl
        have hgt : extents shape l ≤ extents shape (a :: l) := by
          rw [hE]
          calc extents shape l = 1 * extents shape l := by omega
            _ ≤ _ := Nat.mul_le_mul_right _ ha2
        rcases List.mem_cons.mp he with rfl | he
        · rw [ha]; omega
        · have := ihl hd hl e he; omega
    rw [hs]
    exact this ds hd' hp' e he

/-! ### Attributes of the graph module -/

theorem constant_fresh {α : Type} (gm : Attrs α) (nodeName : String) (i : Nat) (t : α) :
    (constant gm nodeName i t).2 ∉ gm.map (·.1) := freshName_fresh _ _

theorem dictGet_none_of_not_mem {κ ν : Type} [DecidableEq κ] {d : List (κ × ν)} {k : κ}
    (h : k ∉ d.map (·.1)) : dictGet d k = none := by
  induction d with
  | nil => rfl
  | cons a d ih =>
    obtain ⟨k', v⟩ := a
    simp at h
    have hne : k' ≠ k := fun hh => h.1 hh.symm
    simp [dictGet, hne]
    apply ih
    simpa using h.2

theorem constant_preserves {α : Type} (gm : Attrs α) (nodeName : String) (i : Nat) (t : α)
    {name : String} {v : α} (h : dictGet gm name = some v) :
    dictGet (constant gm nodeName i t).1 name = some v := by
  have hf := constant_fresh gm nodeName i t
  unfold constant at hf ⊢
  simp only at hf ⊢
  rw [dictGet_set_ne _ _ ?_]
  · exact h
  · intro he
    rw [he] at hf
    rw [dictGet_none_of_not_mem hf] at h
    cases h

theorem constants_preserves {α : Type} (ts : List α) (gm : Attrs α) (nodeName : String) (i : Nat)
    {name : String} {v : α} (h : dictGet gm name = some v) :
    dictGet (constants gm nodeName i ts).1 name = some v := by
  induction ts generalizing gm i with
  | nil => exact h
  | cons t ts ih => exact ih _ _ (constant_preserves gm nodeName i t h)

theorem constants_reads {α : Type} (ts : List α) (gm : Attrs α) (nodeName : String) (i : Nat) :
    (constants gm nodeName i ts).2.map (dictGet (constants gm nodeName i ts).1) = ts.map some := by
  induction ts generalizing gm i with
  | nil => rfl
  | cons t ts ih =>
    simp only [constants, List.map_cons, ih]
    rw [constants_preserves ts _ nodeName (i + 1) (v := t)]
    simp [constant]

theorem rewriteAll_preserves {α : Type} (nodes : List (String × List α)) (gm : Attrs α)
    {name : String} {v : α} (h : dictGet gm name = some v) :
    dictGet (rewriteAll gm nodes).1 name = some v := by
  induction nodes generalizing gm with
  | nil => exact h
  | cons n nodes ih =>
    obtain ⟨nm, ts⟩ := n
    exact ih _ (constants_preserves ts gm nm 0 h)

theorem rewriteAll_reads {α : Type} (nodes : List (String × List α)) (gm : Attrs α) :
    (rewriteAll gm nodes).2.map (fun ns => ns.map (dictGet (rewriteAll gm nodes).1))
      = nodes.map (fun n => n.2.map some) := by
  induction nodes generalizing gm with
  | nil => rfl
  | cons n nodes ih =>
    obtain ⟨nm, ts⟩ := n
    simp only [rewriteAll, List.map_cons, ih]
    congr 1
    rw [← constants_reads ts gm nm 0]
    apply List.map_congr_left
    intro name hname
    have : ∃ v, dictGet (constants gm nm 0 ts).1 name = some v := by
      have := List.mem_map_of_mem (f := dictGet (constants gm nm 0 ts).1) hname
      rw [constants_reads] at this
      simp only [List.mem_map] at this
      obtain ⟨v, _, hv⟩ := this
      exact ⟨v, hv.symm⟩
    obtain ⟨v, hv⟩ := this
    rw [hv]
    exact rewriteAll_preserves nodes _ hv

/-! ### Base tracing -/

mutual
/-- All nodes mentioned by an argument. -/
def argNodes : Arg → List Nat
  | .node n => [n]
  | .list xs => argsNodes xs
  | .other => []

/-- All nodes mentioned by a list of arguments. -/
def argsNodes : List Arg → List Nat
  | [] => []
  | a :: rest => argNodes a ++ argsNodes rest
end

/-- All nodes a node takes as operands, also inside lists. -/
def operands (g : Graph) (n : Nat) : List Nat :=
  match g[n]? with
  | none => []
  | some nd => argsNodes nd.args

/-- Operands precede their users. -/
def Graph.WellFormed (g : Graph) : Prop := ∀ n, ∀ m ∈ operands g n, m < n

/-- `w` is reached from `v` by following operands. -/
inductive Reaches (g : Graph) : Nat → Nat → Prop
  | refl (v : Nat) : Reaches g v v
  | step {v m w : Nat} : m ∈ operands g v → Reaches g m w → Reaches g v w

mutual
theorem sameStorageArg_some {g : Graph} {s m : Nat} {a : Arg}
    (h : sameStorageArg g s a = some m) : m ∈ argNodes a ∧ storageOf g m = some s := by
  cases a with
  | node n =>
    unfold sameStorageArg at h
    split at h
    · cases h; rename_i hh; exact ⟨by simp [argNodes], hh⟩
    · cases h
  | list xs =>
    unfold sameStorageArg at h
    unfold argNodes
    exact sameStorageArgs_some h
  | other => simp [sameStorageArg] at h

theorem sameStorageArgs_some {g : Graph} {s m : Nat} {l : List Arg}
    (h : sameStorageArgs g s l = some m) : m ∈ argsNodes l ∧ storageOf g m = some s := by
  cases l with
  | nil => simp [sameStorageArgs] at h
  | cons a rest =>
    unfold sameStorageArgs at h
    unfold argsNodes
    split at h
    · rename_i x hx
      cases h
      have := sameStorageArg_some hx
      exact ⟨by simp [this.1], this.2⟩
    · have := sameStorageArgs_some h
      exact ⟨by simp [this.1], this.2⟩
end

mutual
theorem sameStorageArg_none {g : Graph} {s : Nat} {a : Arg}
    (h : sameStorageArg g s a = none) : ∀ m ∈ argNodes a, storageOf g m ≠ some s := by
  cases a with
  | node n =>
    unfold sameStorageArg at h
    split at h
    · cases h
    · rename_i hh; intro m hm; simp [argNodes] at hm; subst hm; exact hh
  | list xs =>
    unfold sameStorageArg at h
    unfold argNodes
    exact sameStorageArgs_none h
  | other => simp [argNodes]

theorem sameStorageArgs_none {g : Graph} {s : Nat} {l : List Arg}
    (h : sameStorageArgs g s l = none) : ∀ m ∈ argsNodes l, storageOf g m ≠ some s := by
  cases l with
  | nil => simp [argsNodes]
  | cons a rest =>
    unfold sameStorageArgs at h
    unfold argsNodes
    split at h
    · cases h
    · rename_i hx
      intro m hm
      rcases List.mem_append.mp hm with hm | hm
      · exact sameStorageArg_none hx m hm
      · exact sameStorageArgs_none h m hm
end

theorem storageOperand_ok {g : Graph} {n : Nat} {r : Option Nat} (h : storageOperand g n = .ok r) :
    ∃ s, storageOf g n = some s ∧
      (∀ m, r = some m → m ∈ operands g n ∧ storageOf g m = some s) ∧
      (r = none → ∀ m ∈ operands g n, storageOf g m ≠ some s) := by
  unfold storageOperand at h
  unfold storageOf operands
  split at h
  · cases h
  · rename_i nd hnd
    split at h
    · cases h
    · rename_i s hs
      cases h
      refine ⟨s, by simp [hnd, hs], ?_, ?_⟩
      · intro m hm
        rw [hnd]
        exact sameStorageArgs_some hm
      · intro hn
        rw [hnd]
        exact sameStorageArgs_none hn

theorem baseLoop_spec {g : Graph} {fuel v b : Nat} (h : baseLoop g fuel v = .ok b) :
    (∃ s, storageOf g v = some s ∧ storageOf g b = some s) ∧ Reaches g v b ∧
    (∀ a, a ∈ operands g b → storageOf g a ≠ storageOf g b) := by
  induction fuel generalizing v with
  | zero => simp [baseLoop] at h
  | succ fuel ih =>
    unfold baseLoop at h
    split at h
    · cases h
    · rename_i ho
      cases h
      obtain ⟨s, h1, _, h3⟩ := storageOperand_ok ho
      refine ⟨⟨s, h1, h1⟩, Reaches.refl _, ?_⟩
      intro a ha
      rw [h1]
      exact h3 rfl a ha
    · rename_i w ho
      obtain ⟨s, h1, h2, _⟩ := storageOperand_ok ho
      have hw := h2 w rfl
      obtain ⟨⟨s', hs1, hs2⟩, hr, hb⟩ := ih h
      rw [hw.2] at hs1
      cases hs1
      exact ⟨⟨s, h1, hs2⟩, Reaches.step hw.1 hr, hb⟩

theorem baseLoop_total {g : Graph} (hwf : g.WellFormed)
    (hmeta : ∀ n, n < g.length → ∃ s, storageOf g n = some s) {fuel v : Nat} (hv : v < g.length)
    (hf : v < fuel) : ∃ b, baseLoop g fuel v = .ok b := by
  induction fuel generalizing v with
  | zero => omega
  | succ fuel ih =>
    unfold baseLoop
    cases ho : storageOperand g v with
    | error e =>
      exfalso
      obtain ⟨s, hs⟩ := hmeta v hv
      unfold storageOperand at ho
      unfold storageOf at hs
      rw [List.getElem?_eq_getElem hv] at ho hs
      simp at hs
      simp [hs] at ho
    | ok r =>
      cases r with
      | none => exact ⟨v, rfl⟩
      | some w =>
        obtain ⟨s, h1, h2, _⟩ := storageOperand_ok ho
        have := hwf v w (h2 w rfl).1
        exact ih (by omega) (by omega)

theorem base_total {g : Graph} (hwf : g.WellFormed)
    (hmeta : ∀ n, n < g.length → ∃ s, storageOf g n = some s) {v : Nat} (hv : v < g.length) :
    ∃ b, base g v = .ok b := baseLoop_total hwf hmeta hv (by omega)

end Verif.AsStrided
