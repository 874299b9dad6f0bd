import Verif.Lemmas.LinPoolAdaptive

/-!
# C93: poolings lowered to linalg

A pooling has a result for every place of its window, made of the elements that the window sees there: the greatest of them, its index, or
their average.
-/

namespace Verif

open Lin Pool

variable {E : Type}

/-! ## Sizes -/

/-- There is a result for every place of the window, and only for these. -/
theorem C93_sizes (f : E → E → E) (init : E) (x : Tensor E) (A ns : List Int) (hs : x.sizes = A ++ ns) (ceil : Bool) (ps : List Axis)
    (hl : ns.length = ps.length) (hg : ∀ (d : Nat) (n : Int) (p : Axis), ns[d]? = some n → ps[d]? = some p → p.Good n) :
    ∃ outs, (lowerPool f init x A.length ceil ps).sizes = A ++ outs ∧ HasPlaces ceil ns ps outs := by
  refine ⟨outDims ceil ns ps, ?_, outDims_length ceil ns ps hl, ?_⟩
  · simp only [lowerPool, poolOp, hs]
    rw [List.take_left' rfl, List.drop_left' rfl]
  · intro d n p m h1 h2 h3 o
    rw [outDims_get ceil ns ps d n p h1 h2, Option.some.injEq] at h3
    rw [← h3]
    exact outDim_place (hg d n p h1 h2) o

/-- Three places for a window of 3 with stride 2 in 6 elements, with `ceil`; two without. -/
example : outDims true [6] [⟨3, 2, 0, 0, 1⟩] = [3] ∧ outDims false [6] [⟨3, 2, 0, 0, 1⟩] = [2] ∧ outDims true [4] [⟨2, 3, 1, 1, 1⟩] = [2] := by decide

/-! ## Elements -/

namespace Pool

/-- Places of a result. -/
theorem result_places {f : E → E → E} {init : E} {x : Tensor E} {A ns : List Int} (hs : x.sizes = A ++ ns) {ceil : Bool} {ps : List Axis} {l os : List Int}
    (hA : l.length = A.length) (h : inRange (lowerPool f init x A.length ceil ps).sizes (l ++ os) = true) :
    inRange A l = true ∧ inRange (outDims ceil ns ps) os = true := by
  simp only [lowerPool, poolOp, hs] at h
  rw [List.take_left' rfl, List.drop_left' rfl, inRange_split _ _ _ _ hA.symm, Bool.and_eq_true] at h
  exact h

end Pool

/-- Every element is the elements that the window sees, put together in row-major order; padding does not count. -/
theorem C93_pool (f : E → E → E) (init : E) (hf : ∀ a, f a init = a) (x : Tensor E) (val : List Int → E) (hx : Holds x val) (A ns : List Int)
    (hs : x.sizes = A ++ ns) (ceil : Bool) (ps : List Axis) (hl : ns.length = ps.length)
    (hg : ∀ (d : Nat) (n : Int) (p : Axis), ns[d]? = some n → ps[d]? = some p → p.Good n) (l os : List Int) (hA : l.length = A.length)
    (hi : inRange (lowerPool f init x A.length ceil ps).sizes (l ++ os) = true) :
    (lowerPool f init x A.length ceil ps).elem (l ++ os) = some (((window ns ps os).map fun j => val (l ++ j)).foldl f init) :=
  pool_elem hx hs (goodAll_of hl hg) hf (result_places hs hA hi).1 (result_places hs hA hi).2

/-- The greatest of the elements that the window sees. -/
theorem C93_max [LinearOrder E] (lo : E) (hlo : ∀ e, lo ≤ e) (x : Tensor E) (val : List Int → E) (hx : Holds x val) (A ns : List Int)
    (hs : x.sizes = A ++ ns) (ceil : Bool) (ps : List Axis) (hl : ns.length = ps.length)
    (hg : ∀ (d : Nat) (n : Int) (p : Axis), ns[d]? = some n → ps[d]? = some p → p.Good n) (l os : List Int) (hA : l.length = A.length)
    (hi : inRange (lowerPool max lo x A.length ceil ps).sizes (l ++ os) = true) :
    ∃ m, (lowerPool max lo x A.length ceil ps).elem (l ++ os) = some m ∧ IsMax lo m ((window ns ps os).map fun j => val (l ++ j)) :=
  ⟨_, C93_pool max lo (fun a => max_eq_left (hlo a)) x val hx A ns hs ceil ps hl hg l os hA hi, isMax_fold hlo _⟩

namespace Test93

/-- A batch and a channel of four numbers. -/
def four : Tensor Int := ⟨[1, 1, 4], fun idx => some ([3, 7, 5, 6].getD (idx.getD 2 0).toNat 0)⟩

def two : Axis := ⟨2, 2, 1, 1, 1⟩

example : (lowerPool max (-100) four 2 false [two]).sizes = [1, 1, 3] ∧
    [[0, 0, 0], [0, 0, 1], [0, 0, 2]].map (lowerPool max (-100) four 2 false [two]).elem = [some 3, some 7, some 6] ∧ window [4] [two] [1] = [[1], [2]] := by
  decide

end Test93

/-! ## Indices -/

/-- The index of the greatest element is that of the first one, if it is greater than the padding and equals itself.  What is missing:
`C93_violated_index_nan` and `C93_violated_index_low`. -/
theorem C93_index_partial [LinearOrder E] (lo : E) (hlo : ∀ e, lo ≤ e) (eq : E → E → Bool) (x : Tensor E) (val : List Int → E) (hx : Holds x val)
    (A ns : List Int) (hs : x.sizes = A ++ ns) (ceil : Bool) (ps : List Axis) (hl : ns.length = ps.length)
    (hg : ∀ (d : Nat) (n : Int) (p : Axis), ns[d]? = some n → ps[d]? = some p → p.Good n) (l os : List Int) (hA : l.length = A.length)
    (hi : inRange (lowerPool max lo x A.length ceil ps).sizes (l ++ os) = true) (m : E)
    (hm : (lowerPool max lo x A.length ceil ps).elem (l ++ os) = some m) (hne : m ≠ lo) (heq : ∀ e, eq e m = true ↔ e = m) :
    ∃ i, IsFirst (fun j => val (l ++ j)) m (window ns ps os) i ∧
      (lowerMaxIndex eq max lo x A.length ceil ps).elem (l ++ os) = some (position ns i) := by
  obtain ⟨m', h1, h2⟩ := C93_max lo hlo x val hx A ns hs ceil ps hl hg l os hA hi
  rw [hm, Option.some.injEq] at h1
  subst h1
  have hmem := h2.2.resolve_right fun h => hne h.1
  obtain ⟨h3, h4⟩ := result_places hs hA hi
  obtain ⟨i, h5, h6⟩ := poolIndex_ok hx hs (goodAll_of hl hg) heq hne h3 h4 hmem
  refine ⟨i, h5, ?_⟩
  simp only [lowerMaxIndex]
  rw [get_of_range hi, hm]
  exact h6

example : [[0, 0, 0], [0, 0, 1], [0, 0, 2]].map (lowerMaxIndex (fun a b => decide (a = b)) max (-100) Test93.four 2 false [Test93.two]).elem =
    [some 0, some 1, some 3] := by decide

/-- The index of something that is not a number, which is the greatest, is -1. -/
theorem C93_violated_index_nan : ∃ (x : Tensor Fl) (ps : List Axis), x.sizes = [1, 1, 2] ∧ x.elem [0, 0, 0] = some .nan ∧
    (∀ (d : Nat) (n : Int) (p : Axis), [(2 : Int)][d]? = some n → ps[d]? = some p → p.Good n) ∧
    (lowerPool Fl.max .low x 2 false ps).elem [0, 0, 0] = some .nan ∧ (lowerMaxIndex Fl.oeq Fl.max .low x 2 false ps).elem [0, 0, 0] = some (-1) := by
  refine ⟨⟨[1, 1, 2], fun idx => some (if idx = [0, 0, 0] then .nan else .num 1)⟩, [⟨2, 2, 0, 0, 1⟩], rfl, by decide, ?_, by decide, by decide⟩
  intro d n p h1 h2
  cases d with
  | zero =>
    simp only [List.getElem?_cons_zero, Option.some.injEq] at h1 h2
    subst h1 h2
    unfold Axis.Good
    decide
  | succ d => simp at h1

/-- If all elements are as low as the padding, the index is that of padding, which is not an element. -/
theorem C93_violated_index_low : ∃ (x : Tensor Fl) (p : Axis), x.sizes = [1, 1, 2, 2] ∧ p.Good 2 ∧ Holds x (fun _ => .low) ∧
    (lowerMaxIndex Fl.oeq Fl.max .low x 2 false [p, p]).elem [0, 0, 0, 0] = some (-3) := by
  refine ⟨⟨[1, 1, 2, 2], fun _ => some .low⟩, ⟨2, 2, 1, 1, 1⟩, rfl, ?_, fun _ _ => rfl, by decide⟩
  unfold Axis.Good
  decide

/-! ## Averages -/

/-- The sum of the elements that the window sees, divided by their number, or by the number of positions up to the end of the padding.  What is missing:
`C93_violated_average`. -/
theorem C93_average_partial (add : E → E → E) (zero : E) (hz : ∀ a, add a zero = a) (div : E → Int → E) (x : Tensor E) (val : List Int → E)
    (hx : Holds x val) (A ns : List Int) (hs : x.sizes = A ++ ns) (ceil includePad : Bool) (ps : List Axis) (hl : ns.length = ps.length)
    (hg : ∀ (d : Nat) (n : Int) (p : Axis), ns[d]? = some n → ps[d]? = some p → p.Good n)
    (hsym : includePad = true → (∀ p ∈ ps, p.low = p.high) ∨ ceil = false ∧ ∀ p ∈ ps, p.dilation = 1) (l os : List Int) (hA : l.length = A.length)
    (hi : inRange (lowerPool add zero x A.length ceil ps).sizes (l ++ os) = true) :
    (lowerAvgPool add zero div x A.length ceil includePad none ps).elem (l ++ os) =
      some (div (((window ns ps os).map fun j => val (l ++ j)).foldl add zero) (count includePad ns ps os)) := by
  have hga := goodAll_of hl hg
  obtain ⟨h3, h4⟩ := result_places hs hA hi
  simp only [lowerAvgPool]
  rw [get_of_range hi, C93_pool add zero hz x val hx A ns hs ceil ps hl hg l os hA hi, Option.map_some, List.drop_left' hA, hs, List.drop_left' rfl,
    divisor_ok hga (places_of ceil hga h4) hsym]

/-- The divisor can be given. -/
theorem C93_average_given (add : E → E → E) (zero : E) (hz : ∀ a, add a zero = a) (div : E → Int → E) (x : Tensor E) (val : List Int → E)
    (hx : Holds x val) (A ns : List Int) (hs : x.sizes = A ++ ns) (ceil includePad : Bool) (divisor : Int) (ps : List Axis) (hl : ns.length = ps.length)
    (hg : ∀ (d : Nat) (n : Int) (p : Axis), ns[d]? = some n → ps[d]? = some p → p.Good n) (l os : List Int) (hA : l.length = A.length)
    (hi : inRange (lowerPool add zero x A.length ceil ps).sizes (l ++ os) = true) :
    (lowerAvgPool add zero div x A.length ceil includePad (some divisor) ps).elem (l ++ os) =
      some (div (((window ns ps os).map fun j => val (l ++ j)).foldl add zero) divisor) := by
  simp only [lowerAvgPool]
  rw [get_of_range hi, C93_pool add zero hz x val hx A ns hs ceil ps hl hg l os hA hi, Option.map_some]
  rfl

example : [[0, 0, 0], [0, 0, 1], [0, 0, 2]].map (lowerAvgPool (· + ·) 0 (· / ·) Test93.four 2 false true none [Test93.two]).elem =
      [some 1, some 6, some 3] ∧
    [[0, 0, 0], [0, 0, 1], [0, 0, 2]].map (lowerAvgPool (· + ·) 0 (· / ·) Test93.four 2 false false none [Test93.two]).elem =
      [some 3, some 6, some 6] := by decide

/-- With less padding before than after and a dilation, the padding after is not counted as far as it goes: here the last window has one element and one
position in the padding, but the sum is divided by one. -/
theorem C93_violated_average : ∃ (x : Tensor Int) (p : Axis), x.sizes = [1, 1, 4] ∧ p.Good 4 ∧ Holds x (fun _ => 2) ∧
    inRange (lowerPool (· + ·) 0 x 2 false [p]).sizes [0, 0, 3] = true ∧ count true [4] [p] [3] = 2 ∧ window [4] [p] [3] = [[3]] ∧
    (lowerAvgPool (· + ·) 0 (· / ·) x 2 false true none [p]).elem [0, 0, 3] = some 2 := by
  refine ⟨⟨[1, 1, 4], fun _ => some 2⟩, ⟨2, 1, 0, 2, 2⟩, rfl, ?_, fun _ _ => rfl, by decide, by decide, by decide, by decide⟩
  unfold Axis.Good
  decide

/-! ## Adaptive poolings -/

/-- The average of the elements of a part. -/
theorem C93_adaptive_average (add : E → E → E) (zero : E) (hz : ∀ a, add zero a = a) (div : E → Int → E) (x : Tensor E) (val : List Int → E)
    (hx : Holds x val) (A ns outs : List Int) (hs : x.sizes = A ++ ns) (hl : ns.length = outs.length) (hn : ∀ n ∈ ns, 0 < n) :
    (lowerAdaptiveAvg add zero div x A.length outs).sizes = A ++ outs ∧ ∀ (l os : List Int), inRange A l = true → inRange outs os = true →
      (lowerAdaptiveAvg add zero div x A.length outs).elem (l ++ os) =
        some (div (((parts ns outs os).map fun j => val (l ++ j)).foldl (fun a e => add e a) zero) (parts ns outs os).length) :=
  ⟨by simp [lowerAdaptiveAvg, hs], fun _ _ h1 h2 => adaptiveAvg_ok hx hs hz h1 (fits_of hl hn h2)⟩

/-- The greatest of the elements of a part. -/
theorem C93_adaptive_max [LinearOrder E] (lo : E) (hlo : ∀ e, lo ≤ e) (gt : E → E → Bool) (hgt : ∀ a b, gt a b = true ↔ b < a) (x : Tensor E)
    (val : List Int → E) (hx : Holds x val) (A ns outs : List Int) (hs : x.sizes = A ++ ns) (hl : ns.length = outs.length) (hn : ∀ n ∈ ns, 0 < n) :
    (lowerAdaptiveMax gt lo x A.length outs).1.sizes = A ++ outs ∧ ∀ (l os : List Int), inRange A l = true → inRange outs os = true →
      ∃ m, (lowerAdaptiveMax gt lo x A.length outs).1.elem (l ++ os) = some m ∧ IsMax lo m ((parts ns outs os).map fun j => val (l ++ j)) := by
  refine ⟨by simp [lowerAdaptiveMax, hs], fun l os h1 h2 => ⟨((parts ns outs os).map fun j => val (l ++ j)).foldl max lo, ?_, isMax_fold hlo _⟩⟩
  have hlo' : ∀ a, gt lo a = false := fun a => by
    rw [← Bool.not_eq_true, hgt]
    exact not_lt.2 (hlo a)
  have hd : x.sizes.drop A.length = ns := by rw [hs, List.drop_left' rfl]
  simp only [lowerAdaptiveMax]
  rw [hd, adaptiveMax_fold hx hs hlo' h1 (fits_of hl hn h2), Option.map_some, (maxSteps hgt _ _ _ _ _).1]

/-- Its index is that of the first one, if it is not as low as the padding.  What is missing: `C93_violated_adaptive_index` and
`C93_violated_adaptive_nan`. -/
theorem C93_adaptive_index_partial [LinearOrder E] (lo : E) (hlo : ∀ e, lo ≤ e) (gt : E → E → Bool) (hgt : ∀ a b, gt a b = true ↔ b < a) (x : Tensor E)
    (val : List Int → E) (hx : Holds x val) (A ns outs : List Int) (hs : x.sizes = A ++ ns) (hl : ns.length = outs.length) (hn : ∀ n ∈ ns, 0 < n)
    (l os : List Int) (h1 : inRange A l = true) (h2 : inRange outs os = true) (m : E)
    (hm : (lowerAdaptiveMax gt lo x A.length outs).1.elem (l ++ os) = some m) (hne : m ≠ lo) :
    ∃ i, IsFirst (fun j => val (l ++ j)) m (parts ns outs os) i ∧
      (lowerAdaptiveMax gt lo x A.length outs).2.elem (l ++ os) = some (position ns i) := by
  have hlo' : ∀ a, gt lo a = false := fun a => by
    rw [← Bool.not_eq_true, hgt]
    exact not_lt.2 (hlo a)
  have hd : x.sizes.drop A.length = ns := by rw [hs, List.drop_left' rfl]
  obtain ⟨h3, h4⟩ := maxSteps hgt (fun j => val (l ++ j)) (position ns) (parts ns outs os) lo none
  simp only [lowerAdaptiveMax] at hm ⊢
  rw [hd, adaptiveMax_fold hx hs hlo' h1 (fits_of hl hn h2), Option.map_some, h3, Option.some.injEq] at hm
  rw [hd, adaptiveMax_fold hx hs hlo' h1 (fits_of hl hn h2), Option.bind_some]
  rcases h4 with ⟨h4, -⟩ | ⟨-, i, h5, h6⟩
  · exact absurd (hm.symm.trans h4) hne
  · exact ⟨i, hm ▸ h5, h6⟩

/-- Three parts of four elements overlap. -/
example : (parts [4] [3] [0], parts [4] [3] [1], parts [4] [3] [2]) = ([[0], [1]], [[1], [2]], [[2], [3]]) ∧
    [[0, 0, 0], [0, 0, 1], [0, 0, 2]].map (lowerAdaptiveMax (fun a b => decide (b < a)) (-100) Test93.four 2 [3]).1.elem = [some 7, some 7, some 6] ∧
    [[0, 0, 0], [0, 0, 1], [0, 0, 2]].map (lowerAdaptiveMax (fun a b => decide (b < a)) (-100) Test93.four 2 [3]).2.elem = [some 1, some 1, some 3] ∧
    [[0, 0, 0], [0, 0, 1], [0, 0, 2]].map (lowerAdaptiveAvg (· + ·) 0 (· / ·) Test93.four 2 [3]).elem = [some 5, some 6, some 5] := by decide

/-- If all elements are as low as the padding, the index is undefined. -/
theorem C93_violated_adaptive_index : ∃ (x : Tensor Fl), x.sizes = [1, 1, 2] ∧ Holds x (fun _ => .low) ∧
    (lowerAdaptiveMax Fl.ogt .low x 2 [1]).1.elem [0, 0, 0] = some .low ∧ (lowerAdaptiveMax Fl.ogt .low x 2 [1]).2.elem [0, 0, 0] = none :=
  ⟨⟨[1, 1, 2], fun _ => some .low⟩, rfl, fun _ _ => rfl, by decide, by decide⟩

/-- What is not a number is passed over, though it is the greatest for max pooling (`C93_violated_index_nan`). -/
theorem C93_violated_adaptive_nan : ∃ (x : Tensor Fl), x.sizes = [1, 1, 2] ∧ x.elem [0, 0, 0] = some .nan ∧ parts [2] [1] [0] = [[0], [1]] ∧
    (lowerAdaptiveMax Fl.ogt .low x 2 [1]).1.elem [0, 0, 0] = some (.num 1) :=
  ⟨⟨[1, 1, 2], fun idx => some (if idx = [0, 0, 0] then .nan else .num 1)⟩, rfl, by decide, by decide, by decide⟩

end Verif
