import Verif.Spec.Linalg
import Verif.Lemmas.FoldSlice
import Verif.Lemmas.Fold

namespace Verif.Lin

variable {E : Type}

/-! ## Indices -/

theorem inRange_length {ns is : List Int} (h : inRange ns is = true) : is.length = ns.length := by
  induction ns generalizing is with
  | nil => cases is with
    | nil => rfl
    | cons i is => cases h
  | cons n ns ih => cases is with
    | nil => cases h
    | cons i is =>
      simp only [inRange, Bool.and_eq_true] at h
      simp [ih h.2]

theorem inRange_iff {ns is : List Int} : inRange ns is = true ↔
    is.length = ns.length ∧ ∀ (d : Nat) (n i : Int), ns[d]? = some n → is[d]? = some i → 0 ≤ i ∧ i < n := by
  induction ns generalizing is with
  | nil => cases is with
    | nil => simp [inRange]
    | cons i is => simp [inRange]
  | cons n ns ih => cases is with
    | nil => simp [inRange]
    | cons i is =>
      simp only [inRange, Bool.and_eq_true, decide_eq_true_eq, ih, List.length_cons, Nat.add_right_cancel_iff]
      constructor
      · rintro ⟨h0, h1, h2⟩
        refine ⟨h1, fun d => ?_⟩
        cases d with
        | zero => intro n' i' hn hi; simp only [List.getElem?_cons_zero, Option.some.injEq] at hn hi; omega
        | succ d => exact h2 d
      · rintro ⟨h1, h2⟩
        exact ⟨h2 0 n i rfl rfl, h1, fun d n' i' hn hi => h2 (d + 1) n' i' hn hi⟩

theorem getElem?_of_lt {l : List Int} {d : Nat} (h : d < l.length) : l[d]? = some (l.getD d 0) := by
  rw [List.getElem?_eq_getElem h, List.getD_eq_getElem?_getD, List.getElem?_eq_getElem h]
  rfl

theorem inRange_getD {ns is : List Int} (h : inRange ns is = true) {d : Nat} (hd : d < ns.length) :
    0 ≤ is.getD d 0 ∧ is.getD d 0 < ns.getD d 0 := by
  have hl := inRange_length h
  exact (inRange_iff.1 h).2 d _ _ (getElem?_of_lt hd) (getElem?_of_lt (by omega))

theorem inRange_set {ns is : List Int} {d : Nat} {m : Int} (h : inRange (ns.set d m) is = true) (p : Int) (hp : 0 ≤ p ∧ p < ns.getD d 0) :
    inRange ns (is.set d p) = true := by
  rw [inRange_iff] at h ⊢
  simp only [List.length_set] at h ⊢
  refine ⟨h.1, fun k n i hn hi => ?_⟩
  rw [List.getElem?_set] at hi
  by_cases hk : d = k
  · subst hk
    rw [if_pos rfl] at hi
    by_cases hd : d < is.length
    · rw [if_pos hd] at hi
      cases hi
      rw [List.getD_eq_getElem?_getD, hn] at hp
      exact hp
    · rw [if_neg hd] at hi; cases hi
  · rw [if_neg hk] at hi
    exact h.2 k n i (by rw [List.getElem?_set, if_neg hk]; exact hn) hi

theorem place_set (o s : Int) : ∀ (r d : Nat) (is : List Int), is.length = r → d < r →
    place ((List.replicate r 0).set d o) ((List.replicate r 1).set d s) is = is.set d (o + is.getD d 0 * s) := by
  have id : ∀ (r : Nat) (is : List Int), is.length = r → place (List.replicate r 0) (List.replicate r 1) is = is := by
    intro r
    induction r with
    | zero => intro is h; rw [List.length_eq_zero_iff.1 h]; rfl
    | succ r ih =>
      intro is h
      cases is with
      | nil => cases h
      | cons i is =>
        simp only [List.replicate_succ, place, Int.mul_one, Int.zero_add]
        rw [ih is (by simpa using h)]
  intro r
  induction r with
  | zero => intro d is h hd; omega
  | succ r ih =>
    intro d is h hd
    cases is with
    | nil => cases h
    | cons i is =>
      simp only [List.length_cons, Nat.add_right_cancel_iff] at h
      cases d with
      | zero =>
        simp only [List.replicate_succ, List.set_cons_zero, place, List.getD_cons_zero]
        rw [id r is h]
      | succ d =>
        simp only [List.replicate_succ, List.set_cons_succ, place, List.getD_cons_succ, Int.mul_one, Int.zero_add]
        rw [ih d is h (by omega)]

/-! ## Slices -/

theorem run_get (b s : Int) : ∀ (c k : Nat), k < c → (FoldSlice.run b s c)[k]? = some (b + k * s) := by
  intro c
  induction c generalizing b with
  | zero => intro k h; omega
  | succ c ih =>
    intro k h
    rw [FoldSlice.run]
    cases k with
    | zero => simp
    | succ k =>
      rw [List.getElem?_cons_succ, ih (b + s) k (by omega)]
      push_cast
      rw [Int.add_mul]
      congr 1
      omega

theorem map_get {ps : List Nat} {b s : Int} {c : Nat} (h : ps.map Int.ofNat = FoldSlice.run b s c) :
    ps.length = c ∧ ∀ k, k < c → ∃ p, ps[k]? = some p ∧ (p : Int) = b + k * s := by
  have hl : ps.length = c := by rw [← List.length_map (f := Int.ofNat), h, FoldSlice.run_length]
  refine ⟨hl, fun k hk => ?_⟩
  have h1 := run_get b s c k hk
  rw [← h, List.getElem?_map] at h1
  cases hp : ps[k]? with
  | none => rw [hp] at h1; cases h1
  | some p => rw [hp] at h1; exact ⟨p, rfl, by simpa using h1⟩

/-- The quotient that counts steps. -/
theorem count_steps {l s : Int} (hs : 0 < s) :
    ∃ c : Nat, (if (l + s - 1).fdiv s < 0 then 0 else (l + s - 1).fdiv s) = c ∧ l ≤ c * s ∧ ∀ k : Nat, k < c → k * s < l := by
  rw [Int.fdiv_eq_ediv_of_nonneg _ (by omega)]
  have h1 := Int.emod_add_mul_ediv (l + s - 1) s
  have h2 := Int.emod_nonneg (l + s - 1) (b := s) (by omega)
  have h3 := Int.emod_lt_of_pos (l + s - 1) hs
  generalize (l + s - 1) / s = q at *
  rw [Int.mul_comm] at h1
  by_cases hq : q < 0
  · refine ⟨0, by simp [hq], ?_, fun k hk => by omega⟩
    have : q * s ≤ (-1) * s := Int.mul_le_mul_of_nonneg_right (by omega) (by omega)
    simp only [Int.natCast_zero, Int.zero_mul]
    omega
  · obtain ⟨c, rfl⟩ := Int.eq_ofNat_of_zero_le (a := q) (by omega)
    refine ⟨c, by simp, by omega, fun k hk => ?_⟩
    have : (k : Int) * s ≤ ((c : Int) - 1) * s := Int.mul_le_mul_of_nonneg_right (by omega) (by omega)
    rw [Int.sub_mul] at this
    omega

theorem sliceSize_up {n : Nat} {b e s : Int} (hs : 0 < s) (hfit : s + n ≤ Fold.maxI64) (hb : 0 ≤ b ∧ b ≤ n) (he : -1 ≤ e ∧ e ≤ n) :
    ∃ c : Nat, sliceSize b e s = c ∧ ((List.range n).filter (Fold.from_ b e s)).map Int.ofNat = FoldSlice.run b s c := by
  obtain ⟨c, h1, h2, h3⟩ := count_steps (l := e - b) hs
  have hm : Fold.maxI64 = 9223372036854775807 := by decide
  have hm' : Fold.minI64 = -9223372036854775808 := by decide
  refine ⟨c, ?_, FoldSlice.run_up hs he.2 c b hb.1 (by omega) fun k hk => by have := h3 k hk; omega⟩
  unfold sliceSize
  simp only [ge_iff_le, if_pos (show (0 : Int) ≤ s by omega)]
  rw [Fold.wrap_eq (x := e - b) (by unfold Fold.Fits; omega), Fold.wrap_eq (x := e - b + s) (by unfold Fold.Fits; omega),
    Fold.wrap_eq (by unfold Fold.Fits; omega)]
  exact h1

theorem sliceSize_down {n : Nat} {b e s : Int} (hs : s < 0) (hfit : -s + n < Fold.maxI64) (hb : 0 ≤ b ∧ b < n) (he : -1 ≤ e ∧ e ≤ n) :
    ∃ c : Nat, sliceSize b e s = c ∧ (((List.range n).filter (FoldSlice.down_ b e s)).reverse).map Int.ofNat = FoldSlice.run b s c := by
  obtain ⟨c, h1, h2, h3⟩ := count_steps (l := b - e) (s := -s) (by omega)
  have hm : Fold.maxI64 = 9223372036854775807 := by decide
  have hm' : Fold.minI64 = -9223372036854775808 := by decide
  simp only [Int.mul_neg] at h2 h3
  refine ⟨c, ?_, FoldSlice.run_down hs he.1 c b hb.2 (by omega) fun k hk => by have := h3 k hk; omega⟩
  unfold sliceSize
  simp only [ge_iff_le, if_neg (show ¬(0 : Int) ≤ s by omega)]
  rw [Fold.wrap_eq (x := e - b) (by unfold Fold.Fits; omega), Fold.wrap_eq (x := e - b + s) (by unfold Fold.Fits; omega),
    Fold.wrap_eq (by unfold Fold.Fits; omega)]
  have : e - b + s - -1 = -(b - e + -s - 1) := by omega
  rw [this]
  have h4 : (-(b - e + -s - 1)).fdiv s = (b - e + -s - 1).fdiv (-s) := by
    rw [← Int.neg_fdiv_neg (b - e + -s - 1) (-s), Int.neg_neg]
  rw [h4]
  exact h1

theorem getD_set_self {l : List Int} {d : Nat} {x : Int} (h : d < l.length) : (l.set d x).getD d 0 = x := by
  rw [List.getD_eq_getElem?_getD, List.getElem?_set, if_pos rfl, if_pos h]
  rfl

theorem prepare_eq {sizes : List Int} {dim : Int} {d : Nat} (hd : d < sizes.length) (hdim : dim = d ∨ dim = (d : Int) - sizes.length)
    (start end_ : Option Int) (const : Bool) (step : Int) :
    prepareSlicing sizes dim start end_ const step = some ⟨d,
      sizes.set d (sliceSize (toPositiveValidDim start 0 (sizes.getD d 0)) (sliceEnd end_ const (sizes.getD d 0)) step),
      (List.replicate sizes.length 0).set d (toPositiveValidDim start 0 (sizes.getD d 0)), (List.replicate sizes.length 1).set d step⟩ := by
  have h : Tm.positiveDim dim sizes.length = d := by
    unfold Tm.positiveDim
    rcases hdim with h | h <;> split <;> omega
  have hv : Tm.validDim (d : Int) sizes.length = true := by simp [Tm.validDim, hd]
  unfold prepareSlicing
  simp only [h, hv, Bool.not_true, Bool.false_eq_true, if_false, Int.toNat_natCast]

/-- The element read for position `k` of the slice. -/
theorem slice_elem (x : Tensor E) (d : Nat) (hd : d < x.sizes.length) (b e step : Int) (n c : Nat) (ps : List Nat) (hn : x.sizes.getD d 0 = n)
    (hc : sliceSize b e step = c) (hps : ps.map Int.ofNat = FoldSlice.run b step c) (hlt : ∀ p ∈ ps, p < n) :
    let neg := decide (step < 0)
    Same (extractSlice (if neg then flipTensor x [d] else x) (((List.replicate x.sizes.length 0).set d b).set d (if neg then (n : Int) - 1 - b else b))
      (x.sizes.set d (sliceSize b e step)) (((List.replicate x.sizes.length 1).set d step).set d (step.natAbs : Int))) (keep x d ps) := by
  obtain ⟨hl, hg⟩ := map_get hps
  refine ⟨by simp [extractSlice, keep, hc, hl], fun idx hidx => ?_⟩
  have hlen : idx.length = x.sizes.length := by simpa [keep] using inRange_length hidx
  have hk := inRange_getD hidx (d := d) (by simpa [keep] using hd)
  simp only [keep] at hk
  rw [getD_set_self hd, hl] at hk
  obtain ⟨k, hk'⟩ := Int.eq_ofNat_of_zero_le hk.1
  obtain ⟨p, hp1, hp2⟩ := hg k (by omega)
  have hp3 := hlt p (List.mem_of_getElem? hp1)
  have hr : inRange x.sizes (idx.set d p) = true := by
    refine inRange_set hidx p ?_
    rw [hn]
    omega
  have hkeep : (keep x d ps).elem idx = x.get (idx.set d p) := by
    simp only [keep, hk', Int.toNat_natCast, hp1, Tensor.get, hr, if_true]
  rw [hkeep]
  simp only [extractSlice, List.set_set]
  by_cases hneg : step < 0
  · simp only [hneg, decide_true, if_true]
    rw [place_set _ _ _ d idx hlen hd, hk']
    have hq : (n : Int) - 1 - b + k * step.natAbs = n - 1 - p := by
      rw [hp2, show (step.natAbs : Int) = -step by omega, Int.mul_neg]
      omega
    rw [hq]
    have hr2 : inRange x.sizes (idx.set d ((n : Int) - 1 - p)) = true := by
      refine inRange_set hidx _ ?_
      rw [hn]
      omega
    have hf : flipIndex x.sizes [d] (idx.set d ((n : Int) - 1 - p)) = idx.set d p := by
      simp only [flipIndex, List.foldl_cons, List.foldl_nil, List.set_set]
      rw [getD_set_self (by omega), getD_set_self (by omega), hn]
      congr 1
      omega
    have : (flipTensor x [d]).get (idx.set d ((n : Int) - 1 - p)) = x.get (idx.set d p) := by
      rw [← hf]
      simp only [Tensor.get, flipTensor, hr2, if_true]
    exact this
  · simp only [hneg, decide_false, Bool.false_eq_true, if_false]
    rw [place_set _ _ _ d idx hlen hd, hk', show (step.natAbs : Int) = step by omega, ← hp2]

theorem start_bounds (x : Option Int) (n : Nat) (hx : ∀ v, x = some v → Fold.Fits v) (hn : (n : Int) ≤ Fold.maxI64) :
    toPositiveValidDim x 0 n = x.elim 0 (Shape.position n) := by
  have hm : Fold.maxI64 = 9223372036854775807 := by decide
  cases x with
  | none => rfl
  | some v =>
    have := hx v rfl
    unfold Fold.Fits at this
    simp only [toPositiveValidDim, Option.elim, Shape.position]
    by_cases h : v ≥ 0
    · simp only [if_pos h, if_neg (show ¬v < 0 by omega)]
      split <;> omega
    · rw [Fold.wrap_eq (by unfold Fold.Fits; omega)]
      simp only [if_neg h, if_pos (show v < 0 by omega)]
      split <;> split <;> omega

theorem end_bounds (x : Option Int) (const : Bool) (n : Nat) (hx : ∀ v, x = some v → Fold.Fits v) (hn : (n : Int) ≤ Fold.maxI64) :
    sliceEnd x const n = x.elim (n : Int) fun v => max (-1) (min n (if v < 0 then v + n else v)) := by
  have hm : Fold.maxI64 = 9223372036854775807 := by decide
  cases x with
  | none => rfl
  | some v =>
    have := hx v rfl
    unfold Fold.Fits at this
    simp only [sliceEnd, Option.elim]
    by_cases h : v < 0
    · rw [if_neg (by simp; omega), Fold.wrap_eq (by unfold Fold.Fits; omega)]
      simp only [if_pos h]
      split <;> split <;> omega
    · simp only [if_neg h]
      split
      · rename_i hc
        simp only [Bool.and_eq_true, decide_eq_true_eq] at hc
        omega
      · split <;> omega

theorem picked_up_eq (n : Nat) (start end_ : Option Int) (const : Bool) {step : Int} (hs : 0 < step) (hn : (n : Int) ≤ Fold.maxI64)
    (h1 : ∀ v, start = some v → Fold.Fits v) (h2 : ∀ v, end_ = some v → Fold.Fits v) :
    FoldSlice.picked n start end_ step =
      (List.range n).filter (Fold.from_ (toPositiveValidDim start 0 n) (sliceEnd end_ const n) step) := by
  rw [FoldSlice.picked, if_pos hs, start_bounds start n h1 hn, end_bounds end_ const n h2 hn]
  refine List.filter_congr fun j hj => ?_
  have := List.mem_range.1 hj
  unfold Shape.selected Fold.from_
  have hb : 0 ≤ start.elim 0 (Shape.position n) := by
    cases start with
    | none => exact Int.le_refl _
    | some v => simp only [Option.elim, Shape.position]; omega
  generalize start.elim 0 (Shape.position n) = b at *
  cases end_ with
  | none => rfl
  | some v =>
    rw [decide_eq_decide]
    simp only [Option.elim_some, Shape.position]
    constructor
    · rintro ⟨a, b, c⟩; exact ⟨a, by omega, c⟩
    · rintro ⟨a, b, c⟩; exact ⟨a, by omega, c⟩

theorem picked_down_eq (n : Nat) (start end_ : Int) (const : Bool) {step : Int} (hs : step < 0) (hn : (n : Int) ≤ Fold.maxI64)
    (h1 : Fold.Fits start) (h2 : Fold.Fits end_) (hb : start < n) (h0 : 0 < n) :
    FoldSlice.picked n (some start) (some end_) step =
      ((List.range n).filter (FoldSlice.down_ (toPositiveValidDim (some start) 0 n) (sliceEnd (some end_) const n) step)).reverse := by
  rw [FoldSlice.picked, if_neg (by omega), start_bounds (some start) n (by rintro v ⟨⟩; exact h1) hn,
    end_bounds (some end_) const n (by rintro v ⟨⟩; exact h2) hn]
  congr 1
  refine List.filter_congr fun j hj => ?_
  have := List.mem_range.1 hj
  unfold Shape.selectedDown FoldSlice.down_
  rw [decide_eq_decide]
  simp only [Option.getD_some, Option.elim]
  have e1 : Shape.downStart n start = Shape.position n start := by
    unfold Shape.downStart Shape.position
    split <;> omega
  rw [e1]
  simp only [Shape.downEnd]
  have hp : Shape.position n start ≤ (n : Int) - 1 := by rw [← e1]; unfold Shape.downStart; omega
  constructor
  · rintro ⟨a, b, c⟩; exact ⟨by omega, b, c⟩
  · rintro ⟨a, b, c⟩; exact ⟨by omega, b, c⟩

/-! ## Insertion -/

theorem unplace_id : ∀ (r : Nat) (ns is : List Int), inRange ns is = true → ns.length = r →
    unplace (List.replicate r 0) ns (List.replicate r 1) is = some is := by
  intro r
  induction r with
  | zero =>
    intro ns is h hl
    have h1 := List.length_eq_zero_iff.1 hl
    subst h1
    have h2 := List.length_eq_zero_iff.1 (inRange_length h)
    subst h2
    rfl
  | succ r ih =>
    intro ns is h hl
    cases ns with
    | nil => cases hl
    | cons n ns =>
      cases is with
      | nil => cases h
      | cons i is =>
        simp only [inRange, Bool.and_eq_true, decide_eq_true_eq] at h
        simp only [List.replicate_succ, unplace, Int.sub_zero, Int.emod_one, Int.ediv_one, true_and, if_pos h.1, ih ns is h.2 (by simpa using hl)]

theorem unplace_set {o s : Int} (m : Int) : ∀ (r d : Nat) (ns is : List Int), inRange ns is = true → ns.length = r → d < r →
    unplace ((List.replicate r 0).set d o) (ns.set d m) ((List.replicate r 1).set d s) is =
      if (is.getD d 0 - o) % s = 0 ∧ 0 ≤ (is.getD d 0 - o) / s ∧ (is.getD d 0 - o) / s < m then some (is.set d ((is.getD d 0 - o) / s)) else none := by
  intro r
  induction r with
  | zero => intro d ns is _ _ hd; omega
  | succ r ih =>
    intro d ns is h hl hd
    cases ns with
    | nil => cases hl
    | cons n ns =>
      cases is with
      | nil => cases h
      | cons i is =>
        simp only [inRange, Bool.and_eq_true, decide_eq_true_eq] at h
        have hl' : ns.length = r := by simpa using hl
        cases d with
        | zero =>
          simp only [List.replicate_succ, List.set_cons_zero, unplace, List.getD_cons_zero, unplace_id r ns is h.2 hl']
        | succ d =>
          simp only [List.replicate_succ, List.set_cons_succ, unplace, List.getD_cons_succ, Int.sub_zero, Int.emod_one, Int.ediv_one,
            true_and, if_pos h.1, ih d ns is h.2 hl' (by omega)]
          by_cases hc : (is.getD d 0 - o) % s = 0 ∧ 0 ≤ (is.getD d 0 - o) / s ∧ (is.getD d 0 - o) / s < m
          · simp only [if_pos hc]
          · simp only [if_neg hc]

theorem inRange_set_both {ns is : List Int} {d : Nat} (h : inRange ns is = true) (m p : Int) (hp : 0 ≤ p ∧ p < m) :
    inRange (ns.set d m) (is.set d p) = true := by
  rw [inRange_iff] at h ⊢
  simp only [List.length_set]
  refine ⟨h.1, fun k n i hn hi => ?_⟩
  rw [List.getElem?_set] at hi hn
  by_cases hk : d = k
  · subst hk
    rw [if_pos rfl] at hi hn
    split at hi
    · split at hn
      · cases hi; cases hn; exact hp
      · cases hn
    · cases hi
  · rw [if_neg hk] at hi hn
    exact h.2 k n i hn hi

theorem scatter_elem (x src : Tensor E) (d : Nat) (hd : d < x.sizes.length) (b e step : Int) (n c : Nat) (ps : List Nat)
    (hn : x.sizes.getD d 0 = n) (hc : sliceSize b e step = c) (hps : ps.map Int.ofNat = FoldSlice.run b step c) (hstep : 0 < step)
    (hnd : ps.Nodup) (hsrc : src.sizes = x.sizes.set d (ps.length : Int)) :
    Same (insertSlice src x ((List.replicate x.sizes.length 0).set d b) (x.sizes.set d (sliceSize b e step))
      ((List.replicate x.sizes.length 1).set d step)) (replace x src d ps) := by
  obtain ⟨hl, hg⟩ := map_get hps
  refine ⟨rfl, fun idx hidx => ?_⟩
  change inRange x.sizes idx = true at hidx
  have hi := inRange_getD hidx hd
  obtain ⟨i, hi'⟩ := Int.eq_ofNat_of_zero_le hi.1
  have hun := unplace_set (o := b) (s := step) (sliceSize b e step) x.sizes.length d x.sizes idx hidx rfl hd
  simp only [insertSlice, replace, hi', Int.toNat_natCast]
  rw [hun, hi', hc]
  by_cases hcond : ((i : Int) - b) % step = 0 ∧ 0 ≤ ((i : Int) - b) / step ∧ ((i : Int) - b) / step < c
  · obtain ⟨c1, c2, c3⟩ := hcond
    have hq := Int.emod_add_mul_ediv ((i : Int) - b) step
    obtain ⟨k, hk⟩ := Int.eq_ofNat_of_zero_le c2
    obtain ⟨p, hp1, hp2⟩ := hg k (by omega)
    have hpi : p = i := by
      have h1 : step * k = (i : Int) - b := by rw [← hk]; omega
      rw [Int.mul_comm] at h1
      omega
    subst hpi
    obtain ⟨hkl, hpe⟩ := List.getElem?_eq_some_iff.1 hp1
    have hidxOf : ps.idxOf p = k := by
      rw [← hpe]
      exact hnd.idxOf_getElem k hkl
    rw [if_pos ⟨c1, c2, c3⟩, if_pos (List.mem_of_getElem? hp1), hk, hidxOf]
    have hr : inRange src.sizes (idx.set d (k : Int)) = true := by
      rw [hsrc]
      exact inRange_set_both hidx _ _ ⟨by omega, by omega⟩
    simp only [Tensor.get]
    rw [if_pos hr]
  · have hno : i ∉ ps := by
      intro hm
      obtain ⟨k, hk, he⟩ := List.getElem_of_mem hm
      obtain ⟨p, hp1, hp2⟩ := hg k (by omega)
      have : p = i := by
        rw [List.getElem?_eq_getElem hk, he] at hp1
        exact (Option.some.inj hp1).symm
      subst this
      apply hcond
      have : (p : Int) - b = k * step := by omega
      rw [this, Int.mul_emod_left, Int.mul_ediv_cancel _ (by omega)]
      exact ⟨rfl, by omega, by omega⟩
    rw [if_neg hcond, if_neg hno]
    simp only [Tensor.get, hidx, if_true]

end Verif.Lin

namespace Verif.Lin

variable {E : Type}

theorem ok_of_same {t u : Tensor E} (h : Same t u) (hu : u.Ok) : t.Ok := by
  obtain ⟨h1, h2⟩ := h
  refine ⟨by rw [h1]; exact hu.1, fun idx hi => ?_⟩
  rw [h1] at hi
  rw [h2 idx hi]
  exact hu.2 idx hi

theorem keep_ok {x : Tensor E} (hx : x.Ok) {d n : Nat} (hd : d < x.sizes.length) (hn : x.sizes.getD d 0 = n) {ps : List Nat} (hlt : ∀ p ∈ ps, p < n) :
    (keep x d ps).Ok := by
  refine ⟨fun m hm => ?_, fun idx hi => ?_⟩
  · rcases List.mem_or_eq_of_mem_set hm with h | h
    · exact hx.1 m h
    · omega
  · have hk := inRange_getD hi (d := d) (by simpa [keep] using hd)
    simp only [keep] at hk hi
    rw [getD_set_self hd] at hk
    obtain ⟨k, hk'⟩ := Int.eq_ofNat_of_zero_le hk.1
    have hkl : k < ps.length := by omega
    simp only [keep, hk', Int.toNat_natCast, List.getElem?_eq_getElem hkl]
    refine hx.2 _ (inRange_set hi _ ?_)
    rw [hn]
    have := hlt _ (List.getElem_mem hkl)
    omega

theorem replace_ok {x src : Tensor E} (hx : x.Ok) (hs : src.Ok) {d : Nat} (hd : d < x.sizes.length) {ps : List Nat}
    (hsrc : src.sizes = x.sizes.set d (ps.length : Int)) : (replace x src d ps).Ok := by
  refine ⟨hx.1, fun idx hi => ?_⟩
  simp only [replace] at hi ⊢
  split
  · rename_i hm
    refine hs.2 _ ?_
    rw [hsrc]
    exact inRange_set_both hi _ _ ⟨by omega, by have := List.idxOf_lt_length_iff.2 hm; omega⟩
  · exact hx.2 idx hi

end Verif.Lin
