import Verif.Lemmas.DecInterleave
import Verif.Props.DecMove

/-!
# C92: decompositions of shuffles and repetitions into splits, merges and broadcasts
-/

namespace Verif

open Lin Dec

variable {E : Type}

/-- `aten.pixel_shuffle`: the parts of a channel become squares of `r` by `r` pixels. -/
theorem C92_pixel_shuffle (x : Tensor E) (lead : List Int) (C H W r : Int) (hs : x.sizes = lead ++ [C * (r * r), H, W]) (hC : 0 < C) (hr : 0 < r) :
    ∃ t, decPixelShuffle x r = .ok t ∧ IsPixelShuffleOf t x lead C H W r := pixelShuffle_ok hs hC hr

/-- `aten.pixel_unshuffle`: the pixels of a square become channels. -/
theorem C92_pixel_unshuffle (x : Tensor E) (lead : List Int) (C H W r : Int) (hs : x.sizes = lead ++ [C, H * r, W * r]) (hH : 0 < H) (hW : 0 < W)
    (hr : 0 < r) : ∃ t, decPixelUnshuffle x r = .ok t ∧ IsPixelUnshuffleOf t x lead C H W r := pixelUnshuffle_ok hs hH hW hr

/-- One undoes the other. -/
theorem C92_pixel_roundtrip (x : Tensor E) (lead : List Int) (C H W r : Int) (hs : x.sizes = lead ++ [C * (r * r), H, W]) (hC : 0 < C) (hH : 0 < H)
    (hW : 0 < W) (hr : 0 < r) : ∃ t u, decPixelShuffle x r = .ok t ∧ decPixelUnshuffle t r = .ok u ∧ Same u x := by
  obtain ⟨t, t1, t2, t3⟩ := pixelShuffle_ok hs hC hr
  obtain ⟨u, u1, u2, u3⟩ := pixelUnshuffle_ok (x := t) t2 hH hW hr
  refine ⟨t, u, t1, u1, u2.trans hs.symm, ?_⟩
  intro idx hidx
  rw [hs] at hidx
  have hil := inRange_length hidx
  simp only [List.length_append, List.length_cons, List.length_nil] at hil
  obtain ⟨l, v, rfl, hl⟩ : ∃ l v, idx = l ++ v ∧ l.length = lead.length :=
    ⟨idx.take lead.length, idx.drop lead.length, (List.take_append_drop _ _).symm, by rw [List.length_take]; omega⟩
  rw [List.length_append] at hil
  match v, show v.length = 3 by omega with
  | [k, h, w], _ =>
    rw [inRange_split _ _ _ _ hl.symm, Bool.and_eq_true] at hidx
    obtain ⟨h1, h2⟩ := hidx
    simp only [inRange, Bool.and_eq_true, decide_eq_true_eq, and_true] at h2
    obtain ⟨hk, hh, hw⟩ := h2
    have hrr : 0 < r * r := Int.mul_pos hr hr
    have hc : 0 ≤ k / (r * r) ∧ k / (r * r) < C := ⟨Int.ediv_nonneg hk.1 (by omega), Int.ediv_lt_of_lt_mul hrr hk.2⟩
    have hm : 0 ≤ k % (r * r) ∧ k % (r * r) < r * r := ⟨Int.emod_nonneg _ (by omega), Int.emod_lt_of_pos _ hrr⟩
    have hp : 0 ≤ k % (r * r) / r ∧ k % (r * r) / r < r := ⟨Int.ediv_nonneg hm.1 (by omega), Int.ediv_lt_of_lt_mul hr hm.2⟩
    have hq : 0 ≤ k % (r * r) % r ∧ k % (r * r) % r < r := ⟨Int.emod_nonneg _ (by omega), Int.emod_lt_of_pos _ hr⟩
    have hk' : k / (r * r) * (r * r) + k % (r * r) / r * r + k % (r * r) % r = k := by
      have e1 := Int.mul_ediv_add_emod k (r * r)
      have e2 := Int.mul_ediv_add_emod (k % (r * r)) r
      rw [Int.mul_comm] at e1 e2
      rw [Int.add_assoc, e2, e1]
    have a := u3 l _ h w _ _ h1 hc hh hw hp hq
    have b := t3 l _ h w _ _ h1 hc hh hw hp hq
    rw [hk'] at a b
    rw [a, b]

/-- `aten.channel_shuffle` with `g` groups of `c` channels becomes the shuffle with `c` groups of `g` channels, if `prims.split_dim` is what it is in
PyTorch. -/
theorem C92_channel_shuffle_other (x : Tensor E) (n g c : Int) (space : List Int) (hs : x.sizes = n :: (g * c) :: space) (hr : space ≠ []) (hg : 0 < g)
    (hc : 0 < c) : ∃ t, decChannelShuffle x g = .ok t ∧ IsChannelShuffleOf t x n space c g := channelShuffle_ok hs hr hg hc

/-- With as many groups as there are channels in a group it is right.  What is missing: `C92_violated_channel_shuffle`. -/
theorem C92_channel_shuffle_partial (x : Tensor E) (n g : Int) (space : List Int) (hs : x.sizes = n :: (g * g) :: space) (hr : space ≠ []) (hg : 0 < g) :
    ∃ t, decChannelShuffle x g = .ok t ∧ IsChannelShuffleOf t x n space g g := channelShuffle_ok hs hr hg hg

/-- It is right also if the split is done as the type of its result says, as the lowering to linalg does. -/
theorem C92_channel_shuffle_lowered (x : Tensor E) (n g c : Int) (space : List Int) (hs : x.sizes = n :: (g * c) :: space) (hr : space ≠ []) (hg : 0 < g) :
    ∃ t, decChannelShuffleTyped x g = .ok t ∧ IsChannelShuffleOf t x n space g c := channelShuffleTyped_ok hs hr hg

/-- With any other number of groups, there is a tensor whose channels end up in the wrong places. -/
theorem C92_violated_channel_shuffle (n g c : Int) (space : List Int) (hn : 0 < n) (hsp : ∀ m ∈ space, 0 < m) (hr : space ≠ []) (hg : 1 < g) (hc : 1 < c)
    (hne : g ≠ c) : ∃ (x t : Tensor Int), x.sizes = n :: (g * c) :: space ∧ decChannelShuffle x g = .ok t ∧ ¬IsChannelShuffleOf t x n space g c := by
  refine ⟨⟨n :: (g * c) :: space, fun idx => some (idx.getD 1 0)⟩, ?_⟩
  obtain ⟨t, t1, t2, t3⟩ := channelShuffle_ok (x := (⟨n :: (g * c) :: space, fun idx => some (idx.getD 1 0)⟩ : Tensor Int)) rfl hr (by omega) (by omega)
  refine ⟨t, rfl, t1, fun h => ?_⟩
  have hz : inRange space (List.replicate space.length 0) = true := by
    clear t2 t3 t1 h hr
    induction space with
    | nil => rfl
    | cons m ms ih =>
      have := hsp m (by simp)
      rw [List.length_cons, List.replicate_succ, inRange, ih (fun k hk => hsp k (by simp [hk]))]
      simp [this]
  have a := h.2 0 (List.replicate space.length 0) 1 0 (by omega) hz (by omega) (by omega)
  have b := t3 0 (List.replicate space.length 0) 1 0 (by omega) hz (by omega) (by omega)
  rw [Int.zero_mul] at a b
  rw [a] at b
  have := Option.some.inj b
  simp at this
  omega

/-- `aten.repeat`: copies of the tensor next to each other. -/
theorem C92_repeat (x : Tensor E) (type : List (Option Int)) (reps : List Rep) (ht : TypeOf type x.sizes) (hx : ∀ n ∈ x.sizes, 0 ≤ n)
    (hr : ∀ r ∈ reps, 0 ≤ r.value) (hl : x.sizes.length ≤ reps.length) :
    ∃ t, decRepeat x type reps = .ok t ∧ IsRepeatOf t x (reps.map (·.value)) := repeat_ok (typeOf_forall₂ ht) hx hr hl

/-- `aten.tile`. -/
theorem C92_tile (x : Tensor E) (type : List (Option Int)) (reps : List Rep) (ht : TypeOf type x.sizes) (hx : ∀ n ∈ x.sizes, 0 ≤ n)
    (hr : ∀ r ∈ reps, 0 ≤ r.value) : ∃ t, decTile x type reps = .ok t ∧ IsTileOf t x (reps.map (·.value)) := tile_ok ht hx hr

/-- `aten.repeat_interleave.self_int` along a dimension. -/
theorem C92_repeat_interleave (x : Tensor E) (reps dim : Int) (d : Nat) (hd : Dim x.sizes.length dim d) (hr : 0 ≤ reps) (hx : ∀ n ∈ x.sizes, 0 ≤ n) :
    ∃ t, decRepeatInterleave x reps dim = some t ∧ IsInterleaveOf t x d reps := interleave_ok hd hr hx

/-- `aten.repeat_interleave.self_int` of all elements. -/
theorem C92_repeat_interleave_all (x : Tensor E) (reps : Int) (hr : 0 ≤ reps) (hx : ∀ n ∈ x.sizes, 0 ≤ n) :
    ∃ t, decRepeatInterleaveAll x reps = some t ∧ IsInterleaveAll t x reps := interleaveAll_ok hr hx

/-! ## Examples -/

namespace Test92

open Test91

/-- What is seen of a result. -/
def seenRes : Res (Tensor Int) → Option (List Int × List (Option Int))
  | .ok t => some (sees t)
  | _ => none

/-- A tensor whose elements count from 0. -/
def count (sizes : List Int) : Tensor Int := ⟨sizes, fun idx => some (position sizes idx)⟩

end Test92

open Test91 Test92

example : seenRes (decPixelShuffle (count [4, 1, 2]) 2) = some ([1, 2, 4], vec [0, 2, 1, 3, 4, 6, 5, 7]) := by decide +kernel

example : seenRes (decPixelUnshuffle (count [1, 2, 4]) 2) = some ([4, 1, 2], vec [0, 2, 1, 3, 4, 6, 5, 7]) := by decide +kernel

/-- Two groups of three channels: 0, 3, 1, 4, 2, 5 is wanted. -/
example : seenRes (decChannelShuffle (count [1, 6, 1]) 2) = some ([1, 6, 1], vec [0, 2, 4, 1, 3, 5]) := by decide +kernel

example : seenRes (decChannelShuffleTyped (count [1, 6, 1]) 2) = some ([1, 6, 1], vec [0, 3, 1, 4, 2, 5]) := by decide +kernel

example : seenRes (decRepeat (count [2, 1]) [none, some 1] [⟨2, true⟩, ⟨2, false⟩, ⟨3, true⟩]) =
    some ([2, 4, 3], vec [0, 0, 0, 1, 1, 1, 0, 0, 0, 1, 1, 1, 0, 0, 0, 1, 1, 1, 0, 0, 0, 1, 1, 1]) := by decide +kernel

example : seenRes (decTile (count [1, 2]) [some 1, some 2] [⟨2, true⟩]) = some ([1, 4], vec [0, 1, 0, 1]) := by decide +kernel

example : seen (decRepeatInterleave (count [2, 2]) 2 (-2)) = some ([4, 2], vec [0, 1, 0, 1, 2, 3, 2, 3]) := by decide +kernel

example : seen (decRepeatInterleaveAll (count [2, 2]) 2) = some ([8], vec [0, 0, 1, 1, 2, 2, 3, 3]) := by decide +kernel

end Verif
