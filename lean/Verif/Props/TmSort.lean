import Verif.Lemmas.TmAtenSort

/-!
# C78: sorting
-/

namespace Verif

open Tm

/-- C78: `tm_tensor.sort` on any number of operands of the same shape: if the region orders the tuples of elements of a lane (the
elements along the dimension), the lane is sorted, all operands together, and tuples that compare both ways keep their order. -/
theorem C78_sort {E : Type} (region : List E → Bool) (m d n : Nat) (sizes : List Nat) (hn : sizes[d]? = some n) (s : Nat → List Nat → E)
    (o : List Nat) (ho : InBox (sizes.eraseIdx d) o) (p : List E → Prop) (hp : ∀ t ∈ lane (tuple m s) d n o, p t)
    (hord : IsOrder p fun a b => region (pairs a b)) :
    IsStableSort (fun a b => region (pairs a b)) (lane (tuple m s) d n o) (lane (tuple m (sort region m d sizes s)) d n o) := by
  have h := iterate_stable hord _ hp
  rw [lane_length] at h
  have e := sort_lane region m d n sizes hn s o ho
  unfold cmpOf at e
  rw [e]
  exact h

/-- C78: whatever the region does, every lane holds the same tuples afterwards. -/
theorem C78_permutation {E : Type} (region : List E → Bool) (m d n : Nat) (sizes : List Nat) (hn : sizes[d]? = some n)
    (s : Nat → List Nat → E) (o : List Nat) (ho : InBox (sizes.eraseIdx d) o) :
    (lane (tuple m (sort region m d sizes s)) d n o).Perm (lane (tuple m s) d n o) := by
  rw [sort_lane region m d n sizes hn s o ho]
  generalize lane (tuple m s) d n o = l
  induction n with
  | zero => exact .refl _
  | succ k ih =>
    rw [Function.iterate_succ_apply']
    refine (bubble_perm _ _).trans ?_
    have : ∀ j : Nat, ((bubble (cmpOf region))^[j] l).Perm l := by
      intro j
      induction j with
      | zero => exact .refl _
      | succ j ih => rw [Function.iterate_succ_apply']; exact (bubble_perm _ _).trans ih
    exact this k

/-- C78: nothing else is written: no position outside of the shape, no buffer that is not an operand. -/
theorem C78_frame {E : Type} (region : List E → Bool) (m d n : Nat) (sizes : List Nat) (hn : sizes[d]? = some n)
    (s : Nat → List Nat → E) (o : Nat) (idx : List Nat) (h : ¬ (o < m ∧ InBox sizes idx)) :
    sort region m d sizes s o idx = s o idx :=
  sort_frame region m d n sizes hn s o idx h

/-- C78: `aten.sort` of signed integers and of floats, along any dimension, counted from the end or not: each lane without NaN is
sorted as Torch does, the second result has the places the elements had, and equal elements keep their order. -/
theorem C78_aten_partial {F : Type} (fc : FloatCmp F) (nan : F → Bool) (hf : fc.Ok nan) (ty : ElemTy)
    (hty : ty = .float ∨ ∃ w, ty = .int w .signed) (sizes : List Nat) (dim : Int) (d n : Nat)
    (hd : dim = d ∨ dim = (d : Int) - sizes.length) (hn : sizes[d]? = some n) (descending : Bool) (input : List Nat → Sc F) :
    ∃ out, atenSort fc ty sizes dim descending input = some out ∧
      ∀ o, InBox (sizes.eraseIdx d) o → (∀ x ∈ lane input d n o, Plain nan ty x) →
        ∃ values indices, lane (out 0) d n o = values.map .inl ∧ lane (out 1) d n o = indices.map .inr ∧
          IsStableSortOf (inOrder (torchLe fc.ole nan ty) descending) (lane input d n o) values indices :=
  atenSort_lane fc nan hf ty hty sizes dim d n hd hn descending input

/-- C78: the dimension is in range exactly if there is a result. -/
theorem C78_aten_defined {F : Type} (fc : FloatCmp F) (ty : ElemTy) (hty : ty ≠ .other) (sizes : List Nat) (dim : Int)
    (descending : Bool) (input : List Nat → Sc F) :
    (atenSort fc ty sizes dim descending input).isSome = true ↔ -(sizes.length : Int) ≤ dim ∧ dim < sizes.length := by
  have hc : ∃ cmp, compareOp fc ty.toBackend descending true = some cmp := by
    cases ty with
    | other => exact absurd rfl hty
    | float => exact ⟨_, rfl⟩
    | int w s => exact ⟨_, rfl⟩
  obtain ⟨cmp, hc⟩ := hc
  have hv : validDim (positiveDim dim sizes.length) sizes.length = true ↔ -(sizes.length : Int) ≤ dim ∧ dim < sizes.length := by
    unfold validDim positiveDim
    rw [decide_eq_true_iff]
    split <;> omega
  rw [← hv]
  unfold atenSort
  dsimp only
  rw [hc]
  by_cases h : validDim (positiveDim dim sizes.length) sizes.length = true
  · rw [if_pos h]; simp [h]
  · rw [if_neg h]; simp [h]

/-- A tensor of rank 1. -/
def C78_vec {F : Type} (l : List (Sc F)) : List Nat → Sc F
  | [i] => l[i]?.getD (.bits 0)
  | _ => .bits 0

/-- C78, violated: tensors of an unsigned dtype are compared as signed numbers, because the converted element type has no sign:
`[200, 100]` of dtype uint8 stays as it is. -/
theorem C78_violated_unsigned : ∃ out, atenSort testFloats (.int 8 .unsigned) [2] 0 false (C78_vec [.bits 200, .bits 100]) = some out ∧
    ∀ values indices, lane (out 0) 0 2 [] = values.map .inl → lane (out 1) 0 2 [] = indices.map .inr →
      ¬ IsSortOf (torchLe testFloats.ole Option.isNone (.int 8 .unsigned)) [.bits 200, .bits 100] values indices := by
  refine ⟨_, rfl, fun values indices h0 _ h => ?_⟩
  have hv : values = [.bits 200, .bits 100] := by
    apply (List.map_injective_iff.2 (Sum.inl_injective (α := Sc (Option Int)) (β := Int)))
    rw [← h0]; decide +kernel
  subst hv
  exact absurd (sorted_of_sort h) (by decide +kernel)

/-- C78, violated: a bool is a signed number of one bit, true is −1: `[True, False]` stays as it is. -/
theorem C78_violated_bool : ∃ out, atenSort testFloats (.int 1 .signless) [2] 0 false (C78_vec [.bits 1, .bits 0]) = some out ∧
    ∀ values indices, lane (out 0) 0 2 [] = values.map .inl → lane (out 1) 0 2 [] = indices.map .inr →
      ¬ IsSortOf (torchLe testFloats.ole Option.isNone (.int 1 .signless)) [.bits 1, .bits 0] values indices := by
  refine ⟨_, rfl, fun values indices h0 _ h => ?_⟩
  have hv : values = [.bits 1, .bits 0] := by
    apply (List.map_injective_iff.2 (Sum.inl_injective (α := Sc (Option Int)) (β := Int)))
    rw [← h0]; decide +kernel
  subst hv
  exact absurd (sorted_of_sort h) (by decide +kernel)

/-- C78, violated: with a NaN the result is in no order Torch has: `[2, NaN, 1]` gives `[1, NaN, 2]`. -/
theorem C78_violated_nan : ∃ out,
    atenSort testFloats .float [3] 0 false (C78_vec [.flt (some 2), .flt none, .flt (some 1)]) = some out ∧
    ∀ values indices, lane (out 0) 0 3 [] = values.map .inl → lane (out 1) 0 3 [] = indices.map .inr →
      ¬ IsSortOf (torchLe testFloats.ole Option.isNone .float) [.flt (some 2), .flt none, .flt (some 1)] values indices := by
  refine ⟨_, rfl, fun values indices h0 _ h => ?_⟩
  have hv : values = [.flt (some 1), .flt none, .flt (some 2)] := by
    apply (List.map_injective_iff.2 (Sum.inl_injective (α := Sc (Option Int)) (β := Int)))
    rw [← h0]; decide +kernel
  subst hv
  exact absurd (sorted_of_sort h) (by decide +kernel)

/-! The hypotheses can be met. -/

theorem testFloats_ok : testFloats.Ok Option.isNone where
  order := ⟨fun a b ha hb => by
      obtain ⟨a, rfl⟩ := Option.isSome_iff_exists.1 (by simpa using ha)
      obtain ⟨b, rfl⟩ := Option.isSome_iff_exists.1 (by simpa using hb)
      simpa [testFloats] using Int.le_total a b,
    fun a b c ha hb hc h1 h2 => by
      obtain ⟨a, rfl⟩ := Option.isSome_iff_exists.1 (by simpa using ha)
      obtain ⟨b, rfl⟩ := Option.isSome_iff_exists.1 (by simpa using hb)
      obtain ⟨c, rfl⟩ := Option.isSome_iff_exists.1 (by simpa using hc)
      simp only [testFloats, decide_eq_true_eq] at h1 h2 ⊢
      omega⟩
  lt := fun a b ha hb => by
    obtain ⟨a, rfl⟩ := Option.isSome_iff_exists.1 (by simpa using ha)
    obtain ⟨b, rfl⟩ := Option.isSome_iff_exists.1 (by simpa using hb)
    by_cases h : a < b
    · simp [testFloats, h, Int.not_le.2 h]
    · simp [testFloats, h, Int.not_lt.1 h]
  ole_nan := fun a b h => by
    rcases h with h | h
    · cases a with
      | none => rfl
      | some a => simp at h
    · cases b with
      | none => cases a <;> rfl
      | some b => simp at h
  olt_nan := fun a b h => by
    rcases h with h | h
    · cases a with
      | none => rfl
      | some a => simp at h
    · cases b with
      | none => cases a <;> rfl
      | some b => simp at h

/-- `[[3, 1, 2], [0, 200, 5]]` of dtype int8 along the last dimension (200 is −56). -/
example :
    let input : List Nat → Sc (Option Int) := fun idx => .bits ((if idx.headD 0 = 0 then [3, 1, 2] else [0, 200, 5])[idx[1]?.getD 0]?.getD 0)
    ∃ out, atenSort testFloats (.int 8 .signed) [2, 3] (-1) false input = some out ∧
      lane (out 0) 1 3 [0] = [.inl (.bits 1), .inl (.bits 2), .inl (.bits 3)] ∧
      lane (out 1) 1 3 [0] = [.inr 1, .inr 2, .inr 0] ∧
      lane (out 0) 1 3 [1] = [.inl (.bits 200), .inl (.bits 0), .inl (.bits 5)] ∧
      lane (out 1) 1 3 [1] = [.inr 1, .inr 0, .inr 2] ∧
      (∀ x ∈ lane input 1 3 [1], Plain Option.isNone (.int 8 .signed) x) ∧ InBox ([2, 3].eraseIdx 1) [1] := by
  refine ⟨_, rfl, ?_, ?_, ?_, ?_, ?_, ?_⟩
  · decide +kernel
  · decide +kernel
  · decide +kernel
  · decide +kernel
  · intro x hx
    rcases (show x = .bits 0 ∨ x = .bits 200 ∨ x = .bits 5 by simpa [lane, List.range_succ] using hx) with rfl | rfl | rfl <;>
      (show (_ : Nat) < 2 ^ 8; omega)
  · decide

/-- Two operands, sorted by the first: the region compares pairs. -/
example :
    let s : Nat → List Nat → Nat := fun o idx => (if o = 0 then [2, 1, 2] else [7, 8, 9])[idx.headD 0]?.getD 0
    let region : List Nat → Bool := fun args => decide (args[0]?.getD 0 ≤ args[1]?.getD 0)
    lane (tuple 2 (sort region 2 0 [3] s)) 0 3 [] = [[1, 8], [2, 7], [2, 9]] := by decide +kernel

end Verif
