import Verif.Lemmas.LinUnpool

/-!
# C100: unpoolings lowered to linalg

`aten.max_unpool2d` and `aten.max_unpool3d` put each element at the place its index says, and zero elsewhere.
-/

namespace Verif

open Lin Unpool

variable {E : Type}

theorem Unpool.back_drop {lead ins : List Int} {ty : List (Option Int)} (hl : ty.length = lead.length + ins.length) (h : ty.drop lead.length = ins.map some) :
    back ins.length ty = ins.map some := by
  unfold back
  rw [hl, Nat.add_sub_cancel, h]

/-- Unpooling in three dimensions, with any strides and paddings for which the windows cover the result. Missing: indices of places outside the windows, and windows that begin behind
the end of the result. -/
theorem C100_unpool3d_partial {x : Operand E} {ind : Operand Int} {vx : List Int → E} {vi : List Int → Int} (hvx : Pool.Holds x.tensor vx) (hvi : Pool.Holds ind.tensor vi)
    {lead ins outs ss ps : List Int} (hx : x.tensor.sizes = lead ++ ins) (hi : ind.tensor.sizes = lead ++ ins) (htx : x.Typed) (hti : ind.Typed) (hd : ins.length = 3)
    (hsx : x.type.drop lead.length = ins.map some) (hsi : ind.type.drop lead.length = ins.map some) (hss : ss.length = 3) (hps : ps.length = 3)
    (hg : Unpool.Good (List.zipWith Win.mk ss ps) ins outs) (hc : Covers (List.zipWith Win.mk ss ps) ins outs) (hw : InWindows (List.zipWith Win.mk ss ps) lead ins outs vi)
    {resTy : List (Option Int)} (hr : TypeOf resTy (lead ++ outs)) (hro : resTy.drop lead.length = outs.map some) (zero : E) :
    ∃ t, lowerUnpool3d zero x ind (some outs) (some ss) (some ps) resTy = .ok t ∧ IsUnpool t lead ins outs vx vi zero := by
  have hl := good_lengths hg
  have hwl : (List.zipWith Win.mk ss ps).length = 3 := by simp [hss, hps]
  have bx : back 3 x.type = ins.map some := hd ▸ Unpool.back_drop (by rw [htx.1, hx, List.length_append]) hsx
  have bi : back 3 ind.type = ins.map some := hd ▸ Unpool.back_drop (by rw [hti.1, hi, List.length_append]) hsi
  have br : back 3 resTy = outs.map some := by
    have := Unpool.back_drop (by rw [hr.1, List.length_append]) hro
    rwa [hl.2, hwl] at this
  obtain ⟨t, e, ht⟩ := createUnpool_spec (zero := zero) hvx hvi (by intro h; rw [h] at hwl; simp at hwl) hg hx hi hsx hr hw
  refine ⟨t, ?_, ht⟩
  unfold lowerUnpool3d
  rw [bx, bi, br, known_some, known_some]
  simp only [ne_eq, not_true_eq_false, if_false, hss, hps, or_self, overlap_iff.2 hc, Bool.false_eq_true]
  exact e

/-- Unpooling in two dimensions, of indices of places in windows of size two. Missing: other windows, and windows that begin behind the end of the result. -/
theorem C100_unpool2d_partial {x : Operand E} {ind : Operand Int} {vx : List Int → E} {vi : List Int → Int} (hvx : Pool.Holds x.tensor vx) (hvi : Pool.Holds ind.tensor vi)
    {lead ins outs : List Int} (hx : x.tensor.sizes = lead ++ ins) (hi : ind.tensor.sizes = lead ++ ins) (htx : x.Typed) (hti : ind.Typed)
    (hsx : x.type.drop lead.length = ins.map some) (hsi : ind.type.drop lead.length = ins.map some)
    (hg : Unpool.Good [⟨2, 0⟩, ⟨2, 0⟩] ins outs) (hw : InWindows [⟨2, 0⟩, ⟨2, 0⟩] lead ins outs vi)
    {resTy : List (Option Int)} (hr : TypeOf resTy (lead ++ outs)) (hro : resTy.drop lead.length = outs.map some) (zero : E) :
    ∃ t, lowerUnpool2d zero x ind (some outs) resTy = .ok t ∧ IsUnpool t lead ins outs vx vi zero := by
  have hl := good_lengths hg
  have hd : ins.length = 2 := hl.1
  have bx : back 2 x.type = ins.map some := hd ▸ Unpool.back_drop (by rw [htx.1, hx, List.length_append]) hsx
  have bi : back 2 ind.type = ins.map some := hd ▸ Unpool.back_drop (by rw [hti.1, hi, List.length_append]) hsi
  have br : back 2 resTy = outs.map some := by
    have := Unpool.back_drop (by rw [hr.1, List.length_append]) hro
    rwa [hl.2] at this
  obtain ⟨t, e, ht⟩ := createUnpool_spec (zero := zero) hvx hvi (by simp) hg hx hi hsx hr hw
  refine ⟨t, ?_, ht⟩
  unfold lowerUnpool2d
  rw [bx, bi, br, known_some, known_some]
  simp only [ne_eq, not_true_eq_false, if_false]
  exact e

/-- Indices from a pooling whose windows are no longer than its strides: the elements are put back where they came from. Missing: what `C100_unpool3d_partial` misses. -/
theorem C100_pooled_partial {x : Operand E} {ind : Operand Int} {vx : List Int → E} {vi : List Int → Int} (hvx : Pool.Holds x.tensor vx) (hvi : Pool.Holds ind.tensor vi)
    {lead ins outs ss ps : List Int} {as : List Pool.Axis} (hx : x.tensor.sizes = lead ++ ins) (hi : ind.tensor.sizes = lead ++ ins) (htx : x.Typed) (hti : ind.Typed)
    (hsx : x.type.drop lead.length = ins.map some) (hsi : ind.type.drop lead.length = ins.map some) (has : as.length = 3) (hss : ss.length = 3) (hps : ps.length = 3)
    (ha : Apart (List.zipWith Win.mk ss ps) as) (hp : Pooled as lead ins outs vi)
    (hg : Unpool.Good (List.zipWith Win.mk ss ps) ins outs) (hc : Covers (List.zipWith Win.mk ss ps) ins outs)
    {resTy : List (Option Int)} (hr : TypeOf resTy (lead ++ outs)) (hro : resTy.drop lead.length = outs.map some) (zero : E) :
    ∃ t, lowerUnpool3d zero x ind (some outs) (some ss) (some ps) resTy = .ok t ∧ IsUnpool t lead ins outs vx vi zero := by
  have hl := good_lengths hg
  have hwl : (List.zipWith Win.mk ss ps).length = 3 := by simp [hss, hps]
  exact C100_unpool3d_partial hvx hvi hx hi htx hti (by rw [hl.1, hwl]) hsx hsi hss hps hg hc
    (pooled_windows ha (by rw [hl.2, hwl, has]) (by rw [hl.1, hwl, has]) hp) hr hro zero

/-- What is refused: sizes that are not known or not the same, parameters that are not constant or not three, and windows that may overlap. -/
theorem C100_rejects (zero : E) (x : Operand E) (ind : Operand Int) (output stride padding : Option (List Int)) (resTy : List (Option Int)) :
    (none ∈ back 3 x.type ∨ back 3 ind.type ≠ back 3 x.type ∨ none ∈ back 3 resTy ∨ output.map (·.map some) ≠ some (back 3 resTy) ∨ stride = none ∨ padding = none ∨
      (∃ ss, stride = some ss ∧ ss.length ≠ 3) ∨ (∃ ps, padding = some ps ∧ ps.length ≠ 3) ∨
      (∃ ss ps ins outs, stride = some ss ∧ padding = some ps ∧ back 3 x.type = ins.map some ∧ back 3 resTy = outs.map some ∧ ¬ Covers (List.zipWith Win.mk ss ps) ins outs) →
      lowerUnpool3d zero x ind output stride padding resTy = .unmatched) ∧
    (none ∈ back 2 x.type ∨ back 2 ind.type ≠ back 2 x.type ∨ none ∈ back 2 resTy ∨ output.map (·.map some) ≠ some (back 2 resTy) →
      lowerUnpool2d zero x ind output resTy = .unmatched) := by
  constructor
  · intro h
    unfold lowerUnpool3d
    cases k1 : known (back 3 x.type) with
    | none => rfl
    | some ins =>
      have e1 := known_eq k1
      by_cases q1 : back 3 x.type ≠ back 3 ind.type
      · simp only [if_pos q1]
      simp only [if_neg q1]
      cases k2 : known (back 3 resTy) with
      | none => rfl
      | some outs =>
        have e2 := known_eq k2
        by_cases q2 : output ≠ some outs
        · simp only [if_pos q2]
        simp only [if_neg q2]
        cases stride with
        | none => rfl
        | some ss =>
          cases padding with
          | none => rfl
          | some ps =>
            by_cases q3 : ss.length ≠ 3 ∨ ps.length ≠ 3
            · simp only [if_pos q3]
            simp only [if_neg q3]
            by_cases q4 : overlap ins outs (List.zipWith Win.mk ss ps) = true
            · simp only [if_pos q4]
            exfalso
            rcases h with h | h | h | h | h | h | h | h | h
            · rw [known_none h] at k1; cases k1
            · exact q1 fun e => h e.symm
            · rw [known_none h] at k2; cases k2
            · apply h
              rw [e2, not_not.1 q2]
              rfl
            · cases h
            · cases h
            · obtain ⟨_, r, hh⟩ := h
              cases r
              exact q3 (Or.inl hh)
            · obtain ⟨_, r, hh⟩ := h
              cases r
              exact q3 (Or.inr hh)
            · obtain ⟨_, _, ins', outs', r1, r2, r3, r4, hh⟩ := h
              cases r1
              cases r2
              rw [r3] at e1
              rw [r4] at e2
              rw [some_inj e1, some_inj e2] at hh
              exact hh (overlap_iff.1 (by simpa using q4))
  · intro h
    unfold lowerUnpool2d
    cases k1 : known (back 2 x.type) with
    | none => rfl
    | some ins =>
      by_cases q1 : back 2 x.type ≠ back 2 ind.type
      · simp only [if_pos q1]
      simp only [if_neg q1]
      cases k2 : known (back 2 resTy) with
      | none => rfl
      | some outs =>
        have e2 := known_eq k2
        by_cases q2 : output ≠ some outs
        · simp only [if_pos q2]
        exfalso
        rcases h with h | h | h | h
        · rw [known_none h] at k1; cases k1
        · exact q1 fun e => h e.symm
        · rw [known_none h] at k2; cases k2
        · apply h
          rw [e2, not_not.1 q2]
          rfl

namespace Test100

def ofList (sizes : List Int) (l : List Int) : Tensor Int := ⟨sizes, fun idx => l[(position sizes idx).toNat]?⟩

def some3 (l : List Int) : List (Option Int) := l.map some

/-- The elements of the result. -/
def read (o : Outcome (Tensor Int)) (idxs : List (List Int)) : Option (List (Option Int)) :=
  match o with
  | .ok t => some (idxs.map t.elem)
  | _ => none

end Test100

open Test100 in
/-- A pooling with windows of size three and stride two, with `ceil_mode`: places 0 to 2 and places 2 and 3 of four; the largest elements are at 2 and at 3. The two windows overlap,
which is not noticed: the first element is lost. -/
theorem C100_violated_ceil : ∃ (x : Operand Int) (ind : Operand Int), x.tensor.sizes = [1, 2, 1, 1] ∧ x.Typed ∧ Pool.Holds x.tensor (fun i => i.getD 1 0 + 7) ∧
    Pool.Holds ind.tensor (fun i => i.getD 1 0 + 2) ∧
    (∀ p, Pool.IsPlace true 4 ⟨3, 2, 0, 0, 1⟩ p ↔ 0 ≤ p ∧ p < 2) ∧
    Pooled [⟨3, 2, 0, 0, 1⟩, ⟨1, 1, 0, 0, 1⟩, ⟨1, 1, 0, 0, 1⟩] [1] [2, 1, 1] [4, 1, 1] (fun i => i.getD 1 0 + 2) ∧
    ∃ t, lowerUnpool3d 0 x ind (some [4, 1, 1]) (some [2, 1, 1]) (some [0, 0, 0]) (some3 [1, 4, 1, 1]) = .ok t ∧ t.elem [0, 2, 0, 0] = some 0 ∧ t.elem [0, 3, 0, 0] = some 8 := by
  refine ⟨⟨⟨[1, 2, 1, 1], fun i => some (i.getD 1 0 + 7)⟩, some3 [1, 2, 1, 1]⟩, ⟨⟨[1, 2, 1, 1], fun i => some (i.getD 1 0 + 2)⟩, some3 [1, 2, 1, 1]⟩, rfl, ⟨rfl, ?_⟩, fun _ _ => rfl,
    fun _ _ => rfl, ?_, ?_, _, rfl, rfl, rfl⟩
  · intro d n h
    simp only [some3, List.getElem?_map, Option.map_eq_some_iff, Option.some.injEq] at h
    obtain ⟨m, h1, rfl⟩ := h
    exact h1
  · intro p
    show (0 ≤ p ∧ (p * 2 + 1 * (3 - 1) + 1 < 4 + 0 + 0 + 2 ∧ p * 2 < 4 + 0)) ↔ 0 ≤ p ∧ p < 2
    omega
  · intro b p hb hp
    obtain ⟨b0, b', rfl, b1, b2, b3⟩ := Conv.inRange_uncons hb
    rw [Conv.inRange_nil b3]
    obtain ⟨p0, p', rfl, p1, p2, p3⟩ := Conv.inRange_uncons hp
    obtain ⟨q0, q', rfl, q1, q2, q3⟩ := Conv.inRange_uncons p3
    obtain ⟨r0, r', rfl, r1, r2, r3⟩ := Conv.inRange_uncons q3
    rw [Conv.inRange_nil r3]
    have : q0 = 0 := by omega
    have : r0 = 0 := by omega
    subst q0 r0
    have : p0 = 0 ∨ p0 = 1 := by omega
    rcases this with rfl | rfl
    · exact ⟨[2, 0, 0], by decide, rfl⟩
    · exact ⟨[3, 0, 0], by decide, rfl⟩

open Test100 in
/-- In two dimensions windows are taken to have size two: of a pooling with windows of size three, the last place is never reached. -/
theorem C100_violated_window : ∃ (x : Operand Int) (ind : Operand Int), x.tensor.sizes = [1, 1, 1] ∧ Pool.Holds x.tensor (fun _ => 5) ∧ Pool.Holds ind.tensor (fun _ => 8) ∧
    Pooled [⟨3, 3, 0, 0, 1⟩, ⟨3, 3, 0, 0, 1⟩] [1] [1, 1] [3, 3] (fun _ => 8) ∧
    ∃ t, lowerUnpool2d 0 x ind (some [3, 3]) (some3 [1, 3, 3]) = .ok t ∧ t.elem [0, 2, 2] = some 0 := by
  refine ⟨⟨⟨[1, 1, 1], fun _ => some 5⟩, some3 [1, 1, 1]⟩, ⟨⟨[1, 1, 1], fun _ => some 8⟩, some3 [1, 1, 1]⟩, rfl, fun _ _ => rfl, fun _ _ => rfl, ?_, _, rfl, rfl⟩
  intro b p hb hp
  obtain ⟨p0, p', rfl, p1, p2, p3⟩ := Conv.inRange_uncons hp
  obtain ⟨q0, q', rfl, q1, q2, q3⟩ := Conv.inRange_uncons p3
  rw [Conv.inRange_nil q3]
  have : p0 = 0 := by omega
  have : q0 = 0 := by omega
  subst p0 q0
  exact ⟨[2, 2], by decide, rfl⟩

open Test100 in
/-- Windows of size one with stride one: the input would have to be made smaller, and the program is not valid. -/
theorem C100_violated_size (zero : E) (x : Tensor E) (ind : Tensor Int) :
    lowerUnpool2d zero ⟨x, some3 [1, 2, 2]⟩ ⟨ind, some3 [1, 2, 2]⟩ (some [2, 2]) (some3 [1, 2, 2]) = .bad := rfl

/-! ## Examples -/

open Test100

/-- Five places, windows of size two: the input is padded. -/
example : read (lowerUnpool2d 0 ⟨ofList [1, 1, 2] [7, 9], some3 [1, 1, 2]⟩ ⟨ofList [1, 1, 2] [6, 3], some3 [1, 1, 2]⟩ (some [2, 5]) (some3 [1, 2, 5]))
    [[0, 0, 0], [0, 0, 3], [0, 1, 1], [0, 1, 3], [0, 1, 4]] = some [some 0, some 9, some 7, some 0, some 0] := by decide

/-- Padding one and stride three in one dimension. -/
example : read (lowerUnpool3d 0 ⟨ofList [1, 2, 1, 1] [7, 9], some3 [1, 2, 1, 1]⟩ ⟨ofList [1, 2, 1, 1] [1, 3], some3 [1, 2, 1, 1]⟩ (some [4, 1, 1]) (some [3, 1, 1]) (some [1, 0, 0])
    (some3 [1, 4, 1, 1])) [[0, 0, 0, 0], [0, 1, 0, 0], [0, 2, 0, 0], [0, 3, 0, 0]] = some [some 0, some 7, some 0, some 9] := by decide

/-- The hypotheses hold in that case. -/
example : Unpool.Good [⟨3, 1⟩, ⟨1, 0⟩, ⟨1, 0⟩] [2, 1, 1] [4, 1, 1] ∧ Covers [⟨3, 1⟩, ⟨1, 0⟩, ⟨1, 0⟩] [2, 1, 1] [4, 1, 1] ∧
    Apart [⟨3, 1⟩, ⟨1, 0⟩, ⟨1, 0⟩] [⟨3, 3, 1, 1, 1⟩, ⟨1, 1, 0, 0, 1⟩, ⟨1, 1, 0, 0, 1⟩] := by
  simp [Unpool.Good, Covers, Apart]

/-- The windows of that case do overlap: stride two. -/
example : lowerUnpool3d 0 ⟨ofList [1, 2, 1, 1] [7, 9], some3 [1, 2, 1, 1]⟩ ⟨ofList [1, 2, 1, 1] [1, 3], some3 [1, 2, 1, 1]⟩ (some [4, 1, 1]) (some [2, 1, 1]) (some [1, 0, 0])
    (some3 [1, 4, 1, 1]) = .unmatched := rfl

end Verif
