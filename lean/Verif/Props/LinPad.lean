import Verif.Lemmas.LinPad

/-!
# C85: reflection padding in the linalg backend
-/

namespace Verif

open Lin

variable {E : Type}

/-- `aten.reflection_pad1d` gives the last dimension mirrored at both ends, whatever rank and size, if the paddings are smaller
than the dimension.  What is missing: other paddings, which PyTorch rejects (`C85_violated_1d`). -/
theorem C85_pad1d_partial (zero : E) (x : Tensor E) (hx : x.Ok) (hr : 0 < x.sizes.length) (left right : Int) (hl : 0 ≤ left) (hr0 : 0 ≤ right)
    (hl' : left < x.sizes.getD (x.sizes.length - 1) 0) (hr' : right < x.sizes.getD (x.sizes.length - 1) 0) :
    (reflectionPad1d zero x left right).Ok ∧ Same (reflectionPad1d zero x left right) (padded x (x.sizes.length - 1) left right) := by
  have main : Same (reflectionPad1d zero x left right) (padded x (x.sizes.length - 1) left right) := by
    obtain ⟨d, hd⟩ : ∃ d, d = x.sizes.length - 1 := ⟨_, rfl⟩
    obtain ⟨n, hn⟩ : ∃ n, n = x.sizes.getD d 0 := ⟨_, rfl⟩
    have hsz : n + (left + right) = left + n + right := by omega
    obtain ⟨r0, h0⟩ : ∃ r, r = fill (x.sizes.set d (left + n + right)) zero := ⟨_, rfl⟩
    obtain ⟨r1, h1⟩ : ∃ r, r = if left > 0 then tile1 x (leftPart left) r0 else r0 := ⟨_, rfl⟩
    obtain ⟨r2, h2⟩ : ∃ r, r = if right > 0 then tile1 x (rightPart n left right) r1 else r1 := ⟨_, rfl⟩
    have heq : reflectionPad1d zero x left right = tile1 x (centerPart n left) r2 := by
      rw [h2, h1, h0, ← hsz, hn, hd]; rfl
    have s0 : r0.sizes = x.sizes.set d (left + n + right) := by rw [h0]; rfl
    have s1 : r1.sizes = x.sizes.set d (left + n + right) := by rw [h1]; split <;> simp only [tile1_sizes, s0]
    have s2 : r2.sizes = x.sizes.set d (left + n + right) := by rw [h2]; split <;> simp only [tile1_sizes, s1]
    rw [heq, ← hd]
    refine ⟨by rw [tile1_sizes, s2, hn]; rfl, fun idx hi => ?_⟩
    replace hi : inRange (x.sizes.set d (left + n + right)) idx = true := by rw [hn]; exact hi
    have hb := inRange_getD hi (d := d) (by rw [List.length_set]; omega)
    rw [getD_set_self (by omega)] at hb
    rw [← hd, ← hn] at hl' hr'
    have hmir : inRange x.sizes (idx.set d (mirror n left (idx.getD d 0))) = true := by
      refine inRange_set hi _ ?_
      rw [← hn]
      exact mirror_range hl hl' hr' hb.1 (by omega)
    have hgoal : (padded x d left right).elem idx = x.get (idx.set d (mirror n left (idx.getD d 0))) := by
      rw [get_of_range hmir, hn]; rfl
    rw [hgoal]
    have e0 := tile1_elem x r2 (centerPart n left) (centerPart_ok _ _) _ hr (by rw [← hd]; exact s2) idx (by rw [s2]; exact hi)
    have e1 := tile1_elem x r1 (rightPart n left right) (rightPart_ok _ _ _) _ hr (by rw [← hd]; exact s1) idx (by rw [s1]; exact hi)
    have e2 := tile1_elem x r0 (leftPart left) (leftPart_ok _) _ hr (by rw [← hd]; exact s0) idx (by rw [s0]; exact hi)
    rw [← hd] at e0 e1 e2
    rw [e0]
    by_cases hc : (centerPart n left).covers (idx.getD d 0)
    · rw [if_pos hc, part_source (n := n) (right := right) (by omega) hl _ (by simp) hc]
    · rw [if_neg hc, get_of_range (by rw [s2]; exact hi), h2]
      by_cases hr1 : right > 0 ∧ (rightPart n left right).covers (idx.getD d 0)
      · rw [if_pos hr1.1, e1, if_pos hr1.2, part_source (n := n) (right := right) (by omega) hl _ (by simp) hr1.2]
      · have hstep : (if right > 0 then tile1 x (rightPart n left right) r1 else r1).elem idx = r1.elem idx := by
          by_cases h : right > 0
          · rw [if_pos h, e1, if_neg (fun h' => hr1 ⟨h, h'⟩), get_of_range (by rw [s1]; exact hi)]
          · rw [if_neg h]
        rw [hstep, h1]
        obtain ⟨p, hp, hcr, hcov⟩ := part_covers (n := n) (left := left) (right := right) hl hb.1 (by omega)
        simp only [List.mem_cons, List.not_mem_nil, or_false] at hp
        rcases hp with rfl | rfl | rfl
        · rw [if_pos (of_decide_eq_true hcr), e2, if_pos hcov, part_source (n := n) (right := right) (by omega) hl _ (by simp) hcov]
        · exact absurd ⟨of_decide_eq_true hcr, hcov⟩ hr1
        · exact absurd hcov hc
  exact ⟨ok_of_same main (padded_ok hx (by omega) hl hr0 hl' hr'), main⟩

/-- `aten.reflection_pad2d` gives the last two dimensions mirrored at both ends. -/
theorem C85_pad2d_partial (zero : E) (x : Tensor E) (hx : x.Ok) (hr : 2 ≤ x.sizes.length) (left right top bottom : Int)
    (hl : 0 ≤ left) (hr0 : 0 ≤ right) (ht : 0 ≤ top) (hb0 : 0 ≤ bottom)
    (hl' : left < x.sizes.getD (x.sizes.length - 1) 0) (hr' : right < x.sizes.getD (x.sizes.length - 1) 0)
    (ht' : top < x.sizes.getD (x.sizes.length - 2) 0) (hb' : bottom < x.sizes.getD (x.sizes.length - 2) 0) :
    ∃ t, reflectionPad2d zero x left right top bottom = some t ∧ t.Ok ∧
      Same t (padded (padded x (x.sizes.length - 1) left right) (x.sizes.length - 2) top bottom) := by
  have hres : reflectionPad2d zero x left right top bottom = some _ := if_pos ⟨by omega, by omega, by omega, by omega⟩
  refine ⟨_, hres, ?_⟩
  clear hres
  obtain ⟨d, hd⟩ : ∃ d, d = x.sizes.length - 1 := ⟨_, rfl⟩
  obtain ⟨e, he⟩ : ∃ e, e = x.sizes.length - 2 := ⟨_, rfl⟩
  have hne : d ≠ e := by omega
  obtain ⟨n, hn⟩ : ∃ n, n = x.sizes.getD d 0 := ⟨_, rfl⟩
  obtain ⟨m, hm⟩ : ∃ m, m = x.sizes.getD e 0 := ⟨_, rfl⟩
  simp only [← hd, ← he, ← hn, ← hm] at hl' hr' ht' hb' ⊢
  have hm' : (padded x d left right).sizes.getD e 0 = m := by rw [hm]; exact getD_set_ne hne
  have hpo : (padded (padded x d left right) e top bottom).Ok := by
    refine padded_ok (padded_ok hx (by omega) hl hr0 (by omega) (by omega)) ?_ ht hb0 (by omega) (by omega)
    show e < (x.sizes.set d _).length
    rw [List.length_set]; omega
  have hsizes : (padded (padded x d left right) e top bottom).sizes = (x.sizes.set d (n + left + right)).set e (m + top + bottom) := by
    rw [show n + left + right = left + n + right by omega, show m + top + bottom = top + m + bottom by omega]
    show (x.sizes.set d (left + x.sizes.getD d 0 + right)).set e (top + (padded x d left right).sizes.getD e 0 + bottom) = _
    rw [hm', ← hn]
  have main : Same ((tiles [leftPart top, rightPart m top bottom, centerPart m top] [leftPart left, rightPart n left right, centerPart n left]).foldl
      (fun result t => tile2 x t.1 t.2 result) (fill ((x.sizes.set e (m + top + bottom)).set d (n + left + right)) zero))
      (padded (padded x d left right) e top bottom) := by
    have hfs : (fill ((x.sizes.set e (m + top + bottom)).set d (n + left + right)) zero).sizes =
        (x.sizes.set (x.sizes.length - 1) (n + left + right)).set (x.sizes.length - 2) (m + top + bottom) := by
      rw [← hd, ← he]; exact List.set_comm _ _ (Ne.symm hne)
    have hall : ∀ idx, inRange ((x.sizes.set d (n + left + right)).set e (m + top + bottom)) idx = true →
        ((tiles [leftPart top, rightPart m top bottom, centerPart m top] [leftPart left, rightPart n left right, centerPart n left]).foldl
          (fun result t => tile2 x t.1 t.2 result) (fill ((x.sizes.set e (m + top + bottom)).set d (n + left + right)) zero)).elem idx =
        (padded (padded x d left right) e top bottom).elem idx := by
      intro idx hi
      have hlen : idx.length = x.sizes.length := by simpa using inRange_length hi
      have b1 := inRange_getD hi (d := d) (by simp only [List.length_set]; omega)
      have b2 := inRange_getD hi (d := e) (by simp only [List.length_set]; omega)
      rw [getD_set_ne (Ne.symm hne), getD_set_self (by omega)] at b1
      rw [getD_set_self (by rw [List.length_set]; omega)] at b2
      have m1 := mirror_range hl hl' hr' b1.1 b1.2
      have m2 := mirror_range ht ht' hb' b2.1 b2.2
      have hin : inRange x.sizes ((idx.set d (mirror n left (idx.getD d 0))).set e (mirror m top (idx.getD e 0))) = true := by
        have h := (inRange_set2 hi hne (by omega) (by omega) n _ m _).2 ⟨m1, m2⟩
        rwa [hn, hm, set_getD_self, set_getD_self, ← hn, ← hm] at h
      have hgoal : (padded (padded x d left right) e top bottom).elem idx =
          x.get ((idx.set d (mirror n left (idx.getD d 0))).set e (mirror m top (idx.getD e 0))) := by
        rw [get_of_range hin]
        show x.elem ((idx.set e (mirror ((padded x d left right).sizes.getD e 0) top (idx.getD e 0))).set d
          (mirror (x.sizes.getD d 0) left ((idx.set e (mirror ((padded x d left right).sizes.getD e 0) top (idx.getD e 0))).getD d 0))) = _
        rw [getD_set_ne (Ne.symm hne), hm', ← hn, List.set_comm _ _ hne]
      rw [hgoal]
      refine (fold_tiles x (m + top + bottom) (n + left + right) hr idx _ _ _ ?_ hfs (by rw [hfs, ← hd, ← he]; exact hi) ?_ ?_).2
      · intro t ht
        rw [mem_tiles] at ht
        exact ⟨parts_ok ht.1, parts_ok ht.2.1⟩
      · intro t htm c1 c2
        rw [mem_tiles] at htm
        rw [← hd] at c1
        rw [← he] at c2
        rw [← hd, ← he, part_source (n := n) (right := right) (by omega) hl _ htm.2.1 c1, part_source (n := m) (right := bottom) (by omega) ht _ htm.1 c2]
      · left
        obtain ⟨v, hv, hvc, hvv⟩ := part_covers (n := m) (left := top) (right := bottom) ht b2.1 b2.2
        obtain ⟨h, hh, hhc, hhv⟩ := part_covers (n := n) (left := left) (right := right) hl b1.1 b1.2
        exact ⟨(v, h), mem_tiles.2 ⟨hv, hh, hhc, hvc⟩, by rw [← hd]; exact hhv, by rw [← he]; exact hvv⟩
    refine ⟨?_, fun idx hi => hall idx (by rw [hsizes] at hi; exact hi)⟩
    have hfold : ∀ (ts : List (Part × Part)) (res : Tensor E), (ts.foldl (fun result t => tile2 x t.1 t.2 result) res).sizes = res.sizes := by
      intro ts
      induction ts with
      | nil => intro res; rfl
      | cons t ts ih => intro res; rw [List.foldl_cons, ih]; rfl
    rw [hfold, hfs, hsizes, ← hd, ← he]
  exact ⟨ok_of_same main hpo, main⟩

/-- The assertions turn down paddings larger than the dimension. -/
theorem C85_rejects (zero : E) (x : Tensor E) (left right top bottom : Int)
    (h : x.sizes.getD (x.sizes.length - 1) 0 < left ∨ x.sizes.getD (x.sizes.length - 1) 0 < right ∨
      x.sizes.getD (x.sizes.length - 2) 0 < top ∨ x.sizes.getD (x.sizes.length - 2) 0 < bottom) :
    reflectionPad2d zero x left right top bottom = none := by
  unfold reflectionPad2d
  exact if_neg (by omega)

namespace Test85

def iota (sizes : List Int) : Tensor (List Int) := ⟨sizes, fun idx => some idx⟩

example : (List.range 7).map (fun i => mirror 4 2 i) = [2, 1, 0, 1, 2, 3, 2] := by decide
example : (List.range 7).map (fun i => (reflectionPad1d [] (iota [2, 4]) 2 1).elem [1, i]) =
    [some [1, 2], some [1, 1], some [1, 0], some [1, 1], some [1, 2], some [1, 3], some [1, 2]] := by decide
example : (reflectionPad2d [] (iota [3, 3]) 1 2 0 1).map (fun t => (t.sizes, t.elem [3, 0], t.elem [3, 5], t.elem [0, 1])) =
    some ([4, 6], some [1, 1], some [1, 0], some [0, 0]) := by decide
example : ∃ t, reflectionPad2d [] (iota [3, 3]) 1 2 0 1 = some t ∧ t.Ok ∧ Same t (padded (padded (iota [3, 3]) 1 1 2) 0 0 1) :=
  C85_pad2d_partial [] (iota [3, 3]) ⟨by decide, fun idx _ => ⟨idx, rfl⟩⟩ (by decide) 1 2 0 1 (by decide) (by decide) (by decide) (by decide)
    (by decide) (by decide) (by decide) (by decide)

end Test85

open Test85

/-- A padding as large as the dimension passes the assertion, and is read from outside of the tensor. -/
theorem C85_violated_assertion :
    (reflectionPad2d [] (iota [3, 3]) 3 0 0 0).map (fun t => (t.sizes, t.elem [0, 0])) = some ([3, 6], none) := by decide +kernel

/-- The paddings of `reflection_pad1d` are not checked at all: a result is given with elements from outside of the tensor. -/
theorem C85_violated_1d : (reflectionPad1d [] (iota [1, 2]) 4 0).sizes = [1, 6] ∧ (reflectionPad1d [] (iota [1, 2]) 4 0).elem [0, 0] = none := by
  refine ⟨?_, ?_⟩ <;> decide +kernel

end Verif
