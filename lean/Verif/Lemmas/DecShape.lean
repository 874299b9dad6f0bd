import Verif.Spec.DecShape
import Verif.Lemmas.DecOrder
import Verif.Lemmas.LinView

/-! # Splitting, merging and broadcasting dimensions -/

namespace Verif.Dec

open Lin

variable {E : Type}

theorem getD_pre {α : Type} {pre : List α} {d : Nat} (h : d = pre.length) (v : α) (post : List α) (z : α) : (pre ++ v :: post).getD d z = v := by
  subst h; simp

theorem splitDim_of {x : Tensor E} {pre post : List Int} {o n : Int} {d : Nat} (hs : x.sizes = pre ++ (o * n) :: post) (hd : d = pre.length) (ho : 0 < o) :
    ∃ t, splitDim x d o = some t ∧ t.sizes = pre ++ o :: n :: post ∧
      ∀ a i k c, a.length = pre.length → t.elem (a ++ i :: k :: c) = x.elem (a ++ (i * n + k) :: c) := by
  subst hd
  have h1 : x.sizes.getD pre.length 0 = o * n := by rw [hs]; exact getD_pre rfl _ _ _
  have h2 : x.sizes.getD pre.length 0 / o = n := by rw [h1]; exact Int.mul_ediv_cancel_left _ (by omega)
  refine ⟨⟨x.sizes.take pre.length ++ o :: (x.sizes.getD pre.length 0 / o) :: x.sizes.drop (pre.length + 1), fun idx => x.elem (idx.take pre.length ++ (idx.getD pre.length 0 * (x.sizes.getD pre.length 0 / o) + idx.getD (pre.length + 1) 0) :: idx.drop (pre.length + 2))⟩, ?_, ?_, ?_⟩
  · unfold splitDim
    exact if_pos ⟨by rw [hs]; simp, ho, by rw [h1]; exact Int.mul_emod_right _ _⟩
  · show x.sizes.take pre.length ++ o :: (x.sizes.getD pre.length 0 / o) :: x.sizes.drop (pre.length + 1) = _
    rw [h2, hs]
    simp
  · intro a i k c ha
    show x.elem _ = _
    rw [h2, ← ha]
    congr 1
    simp

theorem splitDimTyped_of {x : Tensor E} {pre post : List Int} {o n : Int} {d : Nat} (hs : x.sizes = pre ++ (o * n) :: post) (hd : d = pre.length) :
    ∃ t, splitDimTyped x d o n = some t ∧ t.sizes = pre ++ o :: n :: post ∧
      ∀ a i k c, a.length = pre.length → t.elem (a ++ i :: k :: c) = x.elem (a ++ (i * n + k) :: c) := by
  subst hd
  have h1 : x.sizes.getD pre.length 0 = o * n := by rw [hs]; exact getD_pre rfl _ _ _
  refine ⟨⟨x.sizes.take pre.length ++ o :: n :: x.sizes.drop (pre.length + 1), fun idx => x.elem (idx.take pre.length ++ (idx.getD pre.length 0 * n + idx.getD (pre.length + 1) 0) :: idx.drop (pre.length + 2))⟩, ?_, ?_, ?_⟩
  · unfold splitDimTyped
    exact if_pos ⟨by rw [hs]; simp, h1⟩
  · show x.sizes.take pre.length ++ o :: n :: x.sizes.drop (pre.length + 1) = _
    rw [hs]
    simp
  · intro a i k c ha
    show x.elem _ = _
    rw [← ha]
    congr 1
    simp

theorem collapse_of {x : Tensor E} {pre mid post : List Int} {s e : Nat} (hs : x.sizes = pre ++ mid ++ post) (h1 : s = pre.length)
    (h2 : e + 1 = pre.length + mid.length) (h3 : mid ≠ []) :
    ∃ t, collapse x s e = some t ∧ t.sizes = pre ++ mid.prod :: post ∧
      ∀ a v c, a.length = pre.length → t.elem (a ++ v :: c) = x.elem (a ++ delinearize mid v ++ c) := by
  subst h1
  have hl : 0 < mid.length := List.length_pos_iff.2 h3
  have hm : (x.sizes.drop pre.length).take (e + 1 - pre.length) = mid := by
    rw [hs, List.append_assoc, List.drop_left, show e + 1 - pre.length = mid.length by omega, List.take_left]
  refine ⟨⟨x.sizes.take pre.length ++ ((x.sizes.drop pre.length).take (e + 1 - pre.length)).prod :: x.sizes.drop (e + 1), fun idx => x.elem (idx.take pre.length ++ delinearize ((x.sizes.drop pre.length).take (e + 1 - pre.length)) (idx.getD pre.length 0) ++ idx.drop (pre.length + 1))⟩, ?_, ?_, ?_⟩
  · unfold collapse
    exact if_pos ⟨by omega, by rw [hs]; simp only [List.length_append]; omega⟩
  · show x.sizes.take pre.length ++ ((x.sizes.drop pre.length).take (e + 1 - pre.length)).prod :: x.sizes.drop (e + 1) = _
    rw [hm, hs, h2, List.append_assoc, List.take_left, ← List.append_assoc, ← List.length_append, List.drop_left]
  · intro a v c ha
    show x.elem _ = _
    rw [hm, ← ha]
    congr 1
    simp

theorem dimList_map (l u : List Int) (tail : List Nat) :
    (List.range l.length ++ tail.map (l.length + ·)).map (fun d => (l ++ u).getD d 0) = l ++ tail.map (fun k => u.getD k 0) := by
  rw [List.map_append, List.map_map]
  congr 1
  · conv_rhs => rw [← map_getD_range l]
    apply List.map_congr_left
    intro d hd
    have := List.mem_range.1 hd
    rw [List.getD_eq_getElem?_getD, List.getElem?_append_left this, ← List.getD_eq_getElem?_getD]
  · apply List.map_congr_left
    intro k _
    show (l ++ u).getD (l.length + k) 0 = _
    rw [List.getD_eq_getElem?_getD, List.getElem?_append_right (by omega), ← List.getD_eq_getElem?_getD]
    congr 1
    omega

theorem permute_tail {x : Tensor E} {lead u : List Int} {tail : List Nat} (hs : x.sizes = lead ++ u) (hp : tail.Perm (List.range u.length)) :
    ∃ t, permute x (dimList lead.length tail) = some t ∧ t.sizes = lead ++ tail.map (fun k => u.getD k 0) ∧
      ∀ a v, inRange lead a = true → inRange u v = true → t.elem (a ++ tail.map fun k => v.getD k 0) = x.elem (a ++ v) := by
  have hperm : (List.range lead.length ++ tail.map (lead.length + ·)).Perm (List.range x.sizes.length) := by
    rw [hs, List.length_append, List.range_add]
    exact List.Perm.append_left _ (hp.map _)
  obtain ⟨t, h1, h2, h3⟩ := permute_of hperm
  refine ⟨t, h1, ?_, ?_⟩
  · rw [h2, hs, dimList_map]
  · intro a v ha hv
    have hl := inRange_length ha
    rw [← dimList_map, hl]
    refine h3 (a ++ v) ?_
    rw [hs, inRange_split _ _ _ _ hl.symm, ha, hv]
    rfl

theorem pair_bound {i k m n : Int} (hi : 0 ≤ i ∧ i < m) (hk : 0 ≤ k ∧ k < n) : (i * n + k) / n = i ∧ (i * n + k) % n = k ∧ 0 ≤ i * n + k ∧ i * n + k < m * n := by
  have h1 : (i * n + k) / n = i := by
    rw [Int.add_comm, Int.add_mul_ediv_right _ _ (by omega), Int.ediv_eq_zero_of_lt hk.1 hk.2]
    omega
  have h2 : (i * n + k) % n = k := by rw [Int.add_comm, Int.add_mul_emod_self_right, Int.emod_eq_of_lt hk.1 hk.2]
  refine ⟨h1, h2, ?_, ?_⟩
  · have := Int.mul_nonneg hi.1 (show 0 ≤ n by omega); omega
  · have := Int.mul_le_mul_of_nonneg_right (show i + 1 ≤ m by omega) (show 0 ≤ n by omega)
    rw [Int.add_mul, Int.one_mul] at this
    omega

theorem delinearize_pair (m n v : Int) : delinearize [m, n] v = [v / n, v % n] := by simp [delinearize]

theorem of_some {t : Option (Tensor E)} {u : Tensor E} (h : t = some u) : Res.of t = .ok u := by rw [h]; rfl

theorem pixelShuffle_ok {x : Tensor E} {lead : List Int} {C H W r : Int} (hs : x.sizes = lead ++ [C * (r * r), H, W]) (hC : 0 < C) (hr : 0 < r) :
    ∃ t, decPixelShuffle x r = .ok t ∧ IsPixelShuffleOf t x lead C H W r := by
  have hl : x.sizes.length = lead.length + 3 := by rw [hs]; simp
  have hrr : 0 < r * r := Int.mul_pos hr hr
  have hc : x.sizes.getD (x.sizes.length - 3) 0 = C * (r * r) := by rw [hl, hs]; exact getD_pre (by omega) _ _ _
  have ho : Int.fdiv (C * (r * r)) (r * r) = C := by rw [Int.fdiv_eq_ediv_of_nonneg _ (by omega), Int.mul_ediv_cancel _ (by omega)]
  obtain ⟨a, a1, a2, a3⟩ := splitDim_of (x := x) (d := lead.length) hs rfl hC
  obtain ⟨b, b1, b2, b3⟩ := splitDim_of (x := a) (pre := lead ++ [C]) (post := [H, W]) (o := r) (n := r) (d := lead.length + 1)
    (by rw [a2]; simp) (by simp) hr
  obtain ⟨c, c1, c2, c3⟩ := permute_tail (x := b) (lead := lead) (u := [C, r, r, H, W]) (tail := [0, 3, 1, 4, 2]) (by rw [b2]; simp)
    (show List.Perm _ (List.range 5) by decide)
  obtain ⟨d, d1, d2, d3⟩ := collapse_of (x := c) (pre := lead ++ [C, H, r]) (mid := [W, r]) (post := []) (s := lead.length + 3) (e := lead.length + 4)
    (by rw [c2]; simp) (by simp) (by simp) (by simp)
  obtain ⟨e, e1, e2, e3⟩ := collapse_of (x := d) (pre := lead ++ [C]) (mid := [H, r]) (post := [W * r]) (s := lead.length + 1) (e := lead.length + 2)
    (by rw [d2]; simp) (by simp) (by simp) (by simp)
  refine ⟨e, ?_, ?_, ?_⟩
  · unfold decPixelShuffle
    rw [if_neg (by omega)]
    apply of_some
    simp only [hc, ho]
    simp only [hl, Nat.add_sub_cancel, a1, b1, c1, d1, e1, Option.bind_eq_bind, Option.bind_some]
  · rw [e2]; simp
  · intro l c' h w p q hlr h1 h2 h3 h4 h5
    have hll := inRange_length hlr
    have hw := pair_bound h3 h5
    have hh := pair_bound h2 h4
    have e' := e3 (l ++ [c']) (h * r + p) [w * r + q] (by simp [hll])
    rw [delinearize_pair, hh.1, hh.2.1] at e'
    have d' := d3 (l ++ [c', h, p]) (w * r + q) [] (by simp [hll])
    rw [delinearize_pair, hw.1, hw.2.1] at d'
    have c'' := c3 l [c', p, q, h, w] hlr (by simp [inRange]; omega)
    have b' := b3 (l ++ [c']) p q [h, w] (by simp [hll])
    have a' := a3 l c' (p * r + q) [h, w] (by simp [hll])
    simp only [List.append_assoc, List.cons_append, List.nil_append, List.append_nil, List.map_cons, List.map_nil, List.getD_cons_zero, List.getD_cons_succ] at e' d' c'' b' a'
    rw [e', d', c'', b', a', Int.add_assoc]

theorem pixelUnshuffle_ok {x : Tensor E} {lead : List Int} {C H W r : Int} (hs : x.sizes = lead ++ [C, H * r, W * r]) (hH : 0 < H) (hW : 0 < W) (hr : 0 < r) :
    ∃ t, decPixelUnshuffle x r = .ok t ∧ IsPixelUnshuffleOf t x lead C H W r := by
  have hl : x.sizes.length = lead.length + 3 := by rw [hs]; simp
  have hh : x.sizes.getD (x.sizes.length - 2) 0 = H * r := by
    rw [hl, hs, show lead ++ [C, H * r, W * r] = (lead ++ [C]) ++ (H * r) :: [W * r] by simp]; exact getD_pre (by simp) _ _ _
  have hw : x.sizes.getD (x.sizes.length - 1) 0 = W * r := by
    rw [hl, hs, show lead ++ [C, H * r, W * r] = (lead ++ [C, H * r]) ++ (W * r) :: [] by simp]; exact getD_pre (by simp) _ _ _
  have oh : Int.fdiv (H * r) r = H := by rw [Int.fdiv_eq_ediv_of_nonneg _ (by omega), Int.mul_ediv_cancel _ (by omega)]
  have ow : Int.fdiv (W * r) r = W := by rw [Int.fdiv_eq_ediv_of_nonneg _ (by omega), Int.mul_ediv_cancel _ (by omega)]
  obtain ⟨a, a1, a2, a3⟩ := splitDim_of (x := x) (pre := lead ++ [C]) (post := [W * r]) (o := H) (n := r) (d := lead.length + 1)
    (by rw [hs]; simp) (by simp) hH
  obtain ⟨b, b1, b2, b3⟩ := splitDim_of (x := a) (pre := lead ++ [C, H, r]) (post := []) (o := W) (n := r) (d := lead.length + 3)
    (by rw [a2]; simp) (by simp) hW
  obtain ⟨c, c1, c2, c3⟩ := permute_tail (x := b) (lead := lead) (u := [C, H, r, W, r]) (tail := [0, 2, 4, 1, 3]) (by rw [b2]; simp)
    (show List.Perm _ (List.range 5) by decide)
  obtain ⟨d, d1, d2, d3⟩ := collapse_of (x := c) (pre := lead) (mid := [C, r, r]) (post := [H, W]) (s := lead.length) (e := lead.length + 2)
    (by rw [c2]; simp) (by simp) (by simp) (by simp)
  refine ⟨d, ?_, ?_, ?_⟩
  · unfold decPixelUnshuffle
    rw [if_neg (by omega)]
    apply of_some
    simp only [hh, hw, oh, ow]
    simp only [hl, Nat.add_sub_cancel, a1, b1, c1, d1, Option.bind_eq_bind, Option.bind_some]
  · rw [d2]; simp
  · intro l c' h w p q hlr h1 h2 h3 h4 h5
    have hll := inRange_length hlr
    have hm : delinearize [C, r, r] (c' * (r * r) + p * r + q) = [c', p, q] := by
      have := delinearize_position (ns := [C, r, r]) (is := [c', p, q]) (by simp [inRange]; omega)
      simp only [position, List.prod_cons, List.prod_nil, Int.mul_one, Int.add_zero] at this
      rw [← this, Int.add_assoc]
    have d' := d3 l (c' * (r * r) + p * r + q) [h, w] (by simp [hll])
    rw [hm] at d'
    have c'' := c3 l [c', h, p, w, q] hlr (by simp [inRange]; omega)
    have b' := b3 (l ++ [c', h, p]) w q [] (by simp [hll])
    have a' := a3 (l ++ [c']) h p [w * r + q] (by simp [hll])
    simp only [List.append_assoc, List.cons_append, List.nil_append, List.append_nil, List.map_cons, List.map_nil, List.getD_cons_zero, List.getD_cons_succ] at d' c'' b' a'
    rw [d', c'', b', a']

theorem shuffleRest_of {a : Tensor E} {n g c : Int} {space : List Int} {rank : Nat} (hs : a.sizes = n :: g :: c :: space) (hr : rank = space.length + 2) :
    ∃ t, shuffleRest a rank = some t ∧ t.sizes = n :: (c * g) :: space ∧
      ∀ b s p q, 0 ≤ b ∧ b < n → inRange space s = true → 0 ≤ p ∧ p < g → 0 ≤ q ∧ q < c → t.elem (b :: (q * g + p) :: s) = a.elem (b :: p :: q :: s) := by
  subst hr
  have hrange : List.range (space.length + 3) = [0, 1, 2] ++ List.range' 3 space.length := by
    rw [List.range_eq_range', show space.length + 3 = 3 + space.length by omega, ← List.range'_append (s := 0) (m := 3) (n := space.length) (step := 1)]
    rfl
  have hp : ([0, 2, 1] ++ List.range' 3 space.length).Perm (List.range a.sizes.length) := by
    rw [hs]
    show List.Perm _ (List.range (space.length + 3))
    rw [hrange]
    exact List.Perm.append_right _ (by decide)
  have hmap : ∀ (u : List Int) (x y z : Int), u.length = space.length →
      ([0, 2, 1] ++ List.range' 3 space.length).map (fun d => (x :: y :: z :: u).getD d 0) = x :: z :: y :: u := by
    intro u x y z hu
    rw [List.map_append, ← hu]
    have : (List.range' 3 u.length).map (fun d => (x :: y :: z :: u).getD d 0) = u := by
      conv_rhs => rw [← map_getD_range u]
      rw [List.range'_eq_map_range, List.map_map]
      apply List.map_congr_left
      intro k _
      show (x :: y :: z :: u).getD (3 + k) 0 = _
      rw [show 3 + k = k + 1 + 1 + 1 by omega, List.getD_cons_succ, List.getD_cons_succ, List.getD_cons_succ]
    rw [this]
    rfl
  obtain ⟨t, h1, h2, h3⟩ := permute_of hp
  rw [hs, hmap _ _ _ _ rfl] at h2
  obtain ⟨d, d1, d2, d3⟩ := collapse_of (x := t) (pre := [n]) (mid := [c, g]) (post := space) (s := 1) (e := 2) (by rw [h2]; rfl) rfl rfl (by simp)
  refine ⟨d, ?_, ?_, ?_⟩
  · unfold shuffleRest
    simp only [Nat.add_sub_cancel, h1, d1, Option.bind_eq_bind, Option.bind_some]
  · rw [d2]; simp
  · intro b s p q hb hsp hp' hq
    have hsl := inRange_length hsp
    have hpq := pair_bound hq hp'
    have d' := d3 [b] (q * g + p) s rfl
    rw [delinearize_pair, hpq.1, hpq.2.1] at d'
    have h' := h3 (b :: p :: q :: s) (by rw [hs]; simp [inRange, hsp]; omega)
    rw [hmap _ _ _ _ hsl] at h'
    simp only [List.append_assoc, List.cons_append, List.nil_append] at d'
    rw [d', h']

theorem channelShuffle_ok {x : Tensor E} {n g c : Int} {space : List Int} (hs : x.sizes = n :: (g * c) :: space) (hr : space ≠ []) (hg : 0 < g) (hc : 0 < c) :
    ∃ t, decChannelShuffle x g = .ok t ∧ IsChannelShuffleOf t x n space c g := by
  have hl : x.sizes.length = space.length + 2 := by rw [hs]; rfl
  have hpos := List.length_pos_iff.2 hr
  have h1 : x.sizes.getD 1 0 = g * c := by rw [hs]; rfl
  have ho : Int.fdiv (g * c) g = c := by rw [Int.fdiv_eq_ediv_of_nonneg _ (by omega), Int.mul_ediv_cancel_left _ (by omega)]
  obtain ⟨a, a1, a2, a3⟩ := splitDim_of (x := x) (pre := [n]) (post := space) (o := c) (n := g) (d := 1) (by rw [hs, Int.mul_comm]; rfl) rfl hc
  obtain ⟨t, t1, t2, t3⟩ := shuffleRest_of (a := a) (rank := x.sizes.length) a2 hl
  refine ⟨t, ?_, ?_, ?_⟩
  · unfold decChannelShuffle
    rw [if_neg (by omega)]
    apply of_some
    simp only [h1, ho, a1, t1, Option.bind_eq_bind, Option.bind_some]
  · rw [t2, Int.mul_comm]
  · intro b s p q hb hsp hp hq
    have a' := a3 [b] p q s rfl
    simp only [List.append_assoc, List.cons_append, List.nil_append] at a'
    rw [t3 b s p q hb hsp hp hq, a']

theorem channelShuffleTyped_ok {x : Tensor E} {n g c : Int} {space : List Int} (hs : x.sizes = n :: (g * c) :: space) (hr : space ≠ []) (hg : 0 < g) :
    ∃ t, decChannelShuffleTyped x g = .ok t ∧ IsChannelShuffleOf t x n space g c := by
  have hl : x.sizes.length = space.length + 2 := by rw [hs]; rfl
  have hpos := List.length_pos_iff.2 hr
  have h1 : x.sizes.getD 1 0 = g * c := by rw [hs]; rfl
  have ho : Int.fdiv (g * c) g = c := by rw [Int.fdiv_eq_ediv_of_nonneg _ (by omega), Int.mul_ediv_cancel_left _ (by omega)]
  obtain ⟨a, a1, a2, a3⟩ := splitDimTyped_of (x := x) (pre := [n]) (post := space) (o := g) (n := c) (d := 1) (by rw [hs]; rfl) rfl
  obtain ⟨t, t1, t2, t3⟩ := shuffleRest_of (a := a) (rank := x.sizes.length) a2 hl
  refine ⟨t, ?_, ?_, ?_⟩
  · unfold decChannelShuffleTyped
    rw [if_neg (by omega)]
    apply of_some
    simp only [h1, ho, a1, t1, Option.bind_eq_bind, Option.bind_some]
  · rw [t2, Int.mul_comm]
  · intro b s p q hb hsp hp hq
    have a' := a3 [b] p q s rfl
    simp only [List.append_assoc, List.cons_append, List.nil_append] at a'
    rw [t3 b s p q hb hsp hp hq, a']

end Verif.Dec
