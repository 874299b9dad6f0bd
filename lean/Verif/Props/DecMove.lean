import Verif.Lemmas.DecOrder
import Verif.Props.LinView

/-!
# C91: decompositions of data movement into slices, concatenations, flips and permutations
-/

namespace Verif

open Lin Dec

variable {E : Type}

/-- `aten.fliplr` of a tensor of rank two or more reverses the second dimension. -/
theorem C91_fliplr (x : Tensor E) (h : 2 ≤ x.sizes.length) : ∃ t, decFliplr x = .ok t ∧ IsFlipOf t x [1] := fliplr_ok h

/-- `aten.flipud` of a tensor of rank one or more reverses the first dimension. -/
theorem C91_flipud (x : Tensor E) (h : 1 ≤ x.sizes.length) : ∃ t, decFlipud x = .ok t ∧ IsFlipOf t x [0] := flipud_ok h

/-- `aten.select.int`: position `i` of a dimension, counted from either end. -/
theorem C91_select (x : Tensor E) (dim index i : Int) (d : Nat) (h : Dim x.sizes.length dim d) (hi : 0 ≤ i ∧ i < x.sizes.getD d 0)
    (hx : index = i ∨ index = i - x.sizes.getD d 0) : ∃ t, decSelect x dim index = some t ∧ IsSelectOf t x d i :=
  select_ok h hi hx

/-- `aten.split_with_sizes`: consecutive parts of the given sizes. -/
theorem C91_split (x : Tensor E) (dim : Int) (d : Nat) (h : Dim x.sizes.length dim d) (sizes : List Int) (hne : sizes ≠ [])
    (h0 : ∀ n ∈ sizes, 0 ≤ n) (hs : sizes.sum = x.sizes.getD d 0) : ∃ ts, decSplit x sizes dim = .ok ts ∧ IsSplitOf ts x d sizes := by
  obtain ⟨ts, h1, h2, h3⟩ := split_ok h sizes 0 (by omega) h0 (by omega)
  refine ⟨ts, ?_, h2, fun k t n ht hn => by simpa using h3 k t n ht hn⟩
  unfold decSplit
  rw [if_neg hne, h1]
  rfl

/-- `aten.narrow`: `len` positions from `s`, if `s` is counted from the front, or from the end and the part does not go up to the end.  What
is missing: `C91_violated_narrow`. -/
theorem C91_narrow_partial (x : Tensor E) (dim start s len : Int) (d : Nat) (h : Dim x.sizes.length dim d) (hs : 0 ≤ s) (hl : 0 ≤ len)
    (hn : s + len ≤ x.sizes.getD d 0) (hst : start = s ∨ start = s - x.sizes.getD d 0 ∧ s + len < x.sizes.getD d 0) :
    ∃ t, decNarrow x dim start len = some t ∧ IsNarrowOf t x d s len :=
  narrow_ok h hs hl hn hst

/-- The last `len` positions, counted from the end, become an empty tensor. -/
theorem C91_violated_narrow (x : Tensor E) (dim len : Int) (d : Nat) (h : Dim x.sizes.length dim d) (hl : 0 < len) (hn : len ≤ x.sizes.getD d 0) :
    ∃ t, decNarrow x dim (-len) len = some t ∧ t.sizes = x.sizes.set d 0 ∧ ¬IsNarrowOf t x d (x.sizes.getD d 0 - len) len := by
  obtain ⟨t, h1, h2⟩ := narrow_end h hl hn
  refine ⟨t, h1, h2, fun hc => ?_⟩
  have := hc.1
  rw [h2] at this
  have hg := congrArg (fun (l : List Int) => l.getD d 0) this
  replace hg : (x.sizes.set d 0).getD d 0 = (x.sizes.set d len).getD d 0 := hg
  rw [getD_set, getD_set, if_pos ⟨rfl, h.1⟩, if_pos ⟨rfl, h.1⟩] at hg
  omega

/-- `aten.roll` along dimensions, by no more than their sizes or by multiples of them.  What is missing: `C91_violated_roll_far`,
`C91_violated_roll_flat`. -/
theorem C91_roll_partial (x : Tensor E) (hx : ∀ n ∈ x.sizes, 0 ≤ n) (dims : List Int) (moves : List (Int × Nat))
    (hd : Names x.sizes.length dims (moves.map (·.2)))
    (hs : ∀ m ∈ moves, (-x.sizes.getD m.2 0 ≤ m.1 ∧ m.1 ≤ x.sizes.getD m.2 0) ∨ m.1 % x.sizes.getD m.2 0 = 0) :
    ∃ t, decRoll x (moves.map (·.1)) dims = .ok t ∧ IsRollOf t x moves := by
  obtain ⟨t, h1, h2⟩ := roll_loop moves dims x hx hd hs
  refine ⟨t, ?_, h2⟩
  have hl := List.Forall₂.length_eq hd
  unfold decRoll
  rw [if_neg (by simp only [List.length_map, ne_eq, Decidable.not_not] at hl ⊢; exact hl.symm), h1]
  rfl

/-- Rolling by the size of the dimension or more does nothing. -/
theorem C91_roll_far (x : Tensor E) (dim s : Int) (d : Nat) (h : Dim x.sizes.length dim d) (hn : 0 ≤ x.sizes.getD d 0)
    (hs : x.sizes.getD d 0 ≤ s ∨ s ≤ -x.sizes.getD d 0) : ∃ t, decRoll x [s] [dim] = .ok t ∧ Same t x := by
  obtain ⟨t, h1, h2⟩ := roll_far h hn hs
  refine ⟨t, ?_, h2⟩
  unfold decRoll
  rw [if_neg (by simp)]
  show Res.of ((imitateRoll x s dim).bind _) = _
  rw [h1]
  rfl

/-- `aten.stack`: tensors of the same sizes next to each other in a new dimension. -/
theorem C91_stack (xs : List (Tensor E)) (sizes : List Int) (dim : Int) (d : Nat) (hne : xs ≠ []) (h : Dim (sizes.length + 1) dim d)
    (hs : ∀ x ∈ xs, x.sizes = sizes) : ∃ t, decStack xs dim = some t ∧ IsStackOf t xs sizes d :=
  stack_ok hne h hs

/-- `aten.hstack` of tensors that are not scalars: one after the other along the second dimension, or the only one.  What is missing:
`C91_violated_hstack`. -/
theorem C91_hstack_partial (xs : List (Tensor E)) (r : Nat) (base : List Int) (hne : xs ≠ []) (h1 : 1 ≤ r) (hr : ∀ x ∈ xs, x.sizes.length = r)
    (hb : ∀ x ∈ xs, x.sizes.set (if r = 1 then 0 else 1) 0 = base) (hnn : ∀ x ∈ xs, ∀ n ∈ x.sizes, 0 ≤ n) :
    ∃ t, decHstack xs = some t ∧ IsCatOf t xs r (if r = 1 then 0 else 1) :=
  hstack_ok hne h1 hr hb hnn

/-- Scalars are not put into a vector: they are concatenated along a dimension they do not have. -/
theorem C91_violated_hstack (xs : List (Tensor E)) (hs : ∀ x ∈ xs, x.sizes = []) : decHstack xs = none := hstack_scalars hs

/-- `aten.t` of a matrix, vector or scalar. -/
theorem C91_t (x : Tensor E) (h : x.sizes.length ≤ 2) : ∃ t, decT x = .ok t ∧ IsReversalOf t x := t_ok h

/-- `aten.numpy_T` reverses the order of the dimensions. -/
theorem C91_numpy_T (x : Tensor E) : ∃ t, decNumpyT x = some t ∧ IsReversalOf t x := numpyT_ok x

/-- `aten.movedim.int` moves a dimension and keeps the order of the others. -/
theorem C91_movedim (x : Tensor E) (source destination : Int) (s d : Nat) (hs : Dim x.sizes.length source s)
    (hd : Dim x.sizes.length destination d) : ∃ t, decMovedim x source destination = .ok t ∧ IsMoveOf t x s d :=
  movedim_ok hs hd

/-- `aten.rot90` turns by any number of quarters, forwards and backwards. -/
theorem C91_rot90 (x : Tensor E) (k d0 d1 : Int) (a b : Nat) (h0 : Dim x.sizes.length d0 a) (h1 : Dim x.sizes.length d1 b) (hab : a ≠ b) :
    ∃ t, decRot90 x k d0 d1 = some t ∧ IsRot90Of t x k a b :=
  rot_ok h0 h1 hab

/-- `aten.select_scatter` at position `i`, counted from the front, or from the end but for the last.  What is missing:
`C91_violated_select_scatter`. -/
theorem C91_select_scatter_partial (x src : Tensor E) (dim index i : Int) (d : Nat) (h : Dim x.sizes.length dim d)
    (hsrc : src.sizes = x.sizes.eraseIdx d) (hi : 0 ≤ i ∧ i < x.sizes.getD d 0)
    (hx : index = i ∨ index = i - x.sizes.getD d 0 ∧ i < x.sizes.getD d 0 - 1) :
    ∃ t, decSelectScatter x src dim index = some t ∧ IsSelectScatterOf t x src d i :=
  selectScatter_ok h hsrc hi hx

/-- At the last position, -1, the slice is empty and the source does not fit. -/
theorem C91_violated_select_scatter (x src : Tensor E) (dim : Int) (d : Nat) (h : Dim x.sizes.length dim d)
    (hsrc : src.sizes = x.sizes.eraseIdx d) (hn : 1 ≤ x.sizes.getD d 0) : decSelectScatter x src dim (-1) = none :=
  selectScatter_last h hsrc hn

/-- `prims.squeeze` removes dimensions of size one, given in any order. -/
theorem C91_prims_squeeze (x : Tensor E) (ds : List Nat) (hn : ds.Nodup) (h1 : ∀ d ∈ ds, x.sizes[d]? = some 1) :
    ∃ t, decPrimsSqueeze x (ds.map fun (d : Nat) => (d : Int)) = some t ∧ IsDropOf t x ds :=
  primsSqueeze_ok hn h1

/-- `aten.atleast_1d`. -/
theorem C91_atleast_1d (x : Tensor E) : ∃ t, decAtleast1d x = some t ∧ IsAtleast t x 1 := atleast1d_ok x

/-- `aten.atleast_2d`. -/
theorem C91_atleast_2d (x : Tensor E) : ∃ t, decAtleast2d x = some t ∧ IsAtleast t x 2 := atleast2d_ok x

namespace Test91

open Test89

def sees (t : Tensor Int) : List Int × List (Option Int) := (t.sizes, (indices t.sizes).map t.elem)

def vec (l : List Int) : List (Option Int) := l.map some

/-- What is seen of a result. -/
def seen : Option (Tensor Int) → Option (List Int × List (Option Int))
  | some t => some (sees t)
  | none => none

end Test91

open Test91 Test89

/-- A shift beyond the size: three elements shifted by four should be shifted by one. -/
theorem C91_violated_roll_far : ∃ t, decRoll (iota [3]) [4] [0] = .ok t ∧ ¬IsRollOf t (iota [3]) [(4, 0)] := by
  obtain ⟨t, h1, h2⟩ := C91_roll_far (iota [3]) 0 4 0 ⟨by decide, .inl rfl⟩ (by decide) (by decide)
  refine ⟨t, h1, fun hc => ?_⟩
  have e1 := h2.2 [0] (by decide)
  have e2 := hc.2 [0] (by decide)
  rw [e1] at e2
  revert e2
  decide

/-- A shift without dimensions, which rolls the flattened tensor, is an error. -/
theorem C91_violated_roll_flat (x : Tensor E) (s : Int) : decRoll x [s] [] = .error := rfl

example : seen (decSelect (iota [2, 3]) (-1) (-1)) = some ([2], vec [2, 5]) := by decide +kernel

example : seen (decNarrow (iota [5]) 0 (-4) 2) = some ([2], vec [1, 2]) := by decide +kernel

example : seen (decNarrow (iota [5]) 0 (-2) 2) = some ([0], []) := by decide +kernel

example : seen (decRoll (iota [2, 3]) [1, -1] [0, 1]).get? = some ([2, 3], vec [4, 5, 3, 1, 2, 0]) := by decide +kernel

example : seen (decStack [iota [2], iota [2]] (-1)) = some ([2, 2], vec [0, 0, 1, 1]) := by decide +kernel

example : seen (decHstack [iota [2, 1], iota [2, 2]]) = some ([2, 3], vec [0, 0, 1, 1, 2, 3]) := by decide +kernel

example : seen (decRot90 (iota [2, 3]) 1 0 1) = some ([3, 2], vec [2, 5, 1, 4, 0, 3]) := by decide +kernel

example : seen (decRot90 (iota [2, 3]) (-1) 0 1) = some ([3, 2], vec [3, 0, 4, 1, 5, 2]) := by decide +kernel

example : seen (decMovedim (iota [2, 1, 3]) 0 (-1)).get? = some ([1, 3, 2], vec [0, 3, 1, 4, 2, 5]) := by decide +kernel

example : seen (decNumpyT (iota [1, 2, 2])) = some ([2, 2, 1], vec [0, 2, 1, 3]) := by decide +kernel

example : seen (decSelectScatter (iota [3]) ⟨[], fun _ => some 9⟩ 0 (-2)) = some ([3], vec [0, 9, 2]) := by decide +kernel

example : seen (decSelectScatter (iota [3]) ⟨[], fun _ => some 9⟩ 0 (-1)) = none := by decide +kernel

example : (decSplit (iota [4]) [1, 3] 0).get?.map (·.map sees) = some [([1], vec [0]), ([3], vec [1, 2, 3])] := by decide +kernel

example : ∃ t, decPrimsSqueeze (iota [1, 2, 1]) [0, 2] = some t ∧ t.sizes = [2] ∧ t.elem [1] = some 1 := by
  obtain ⟨t, h1, h2, h3⟩ := C91_prims_squeeze (iota [1, 2, 1]) [0, 2] (by decide) (by decide)
  exact ⟨t, h1, h2.trans (by decide), (h3 [0, 1, 0] (by decide)).trans (by decide)⟩

end Verif
