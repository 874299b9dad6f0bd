import Verif.Lemmas.LinPoolCount

/-! # Lemmas on adaptive poolings -/

namespace Verif.Pool

open Lin

variable {E : Type}

/-! ## One dimension -/

theorem range_between {a b N : Nat} (h : b ≤ N) : (List.range N).filter (fun k => decide (a ≤ k ∧ k < b)) = (List.range (b - a)).map (a + ·) := by
  by_cases hab : a ≤ b
  · obtain ⟨c, rfl⟩ := Nat.exists_eq_add_of_le hab
    obtain ⟨e, rfl⟩ := Nat.exists_eq_add_of_le h
    rw [List.range_add, List.range_add, List.filter_append, List.filter_append]
    have h1 : (List.range a).filter (fun k => decide (a ≤ k ∧ k < a + c)) = [] := by
      rw [List.filter_eq_nil_iff]
      intro k hk
      have := List.mem_range.1 hk
      simp only [decide_eq_true_eq]
      omega
    have h2 : ((List.range c).map (a + ·)).filter (fun k => decide (a ≤ k ∧ k < a + c)) = (List.range c).map (a + ·) := by
      rw [List.filter_eq_self]
      intro k hk
      obtain ⟨i, hi, rfl⟩ := List.mem_map.1 hk
      have := List.mem_range.1 hi
      simp only [decide_eq_true_eq]
      omega
    have h3 : ((List.range e).map (a + c + ·)).filter (fun k => decide (a ≤ k ∧ k < a + c)) = [] := by
      rw [List.filter_eq_nil_iff]
      intro k hk
      obtain ⟨i, hi, rfl⟩ := List.mem_map.1 hk
      simp only [decide_eq_true_eq]
      omega
    rw [h1, h2, h3, List.nil_append, List.append_nil, Nat.add_sub_cancel_left]
  · have : b - a = 0 := by omega
    rw [this, List.range_zero, List.map_nil, List.filter_eq_nil_iff]
    intro k hk
    simp only [decide_eq_true_eq]
    omega

theorem startOf_le {n out o i : Int} (h : 0 < out) : startOf n out o ≤ i ↔ o * n < (i + 1) * out := by
  have := fdiv_ge (a := o * n) (c := i + 1) h
  unfold startOf
  omega

theorem lt_endOf {n out o i : Int} (h : 0 < out) : i < endOf n out o ↔ i * out < (o + 1) * n := by
  have := fdiv_ge (a := (o + 1) * n - 1) (c := i) h
  unfold endOf
  omega

theorem start_facts {n out o : Int} (hn : 0 < n) (ho : 0 ≤ o ∧ o < out) : 0 ≤ startOf n out o ∧ startOf n out o < endOf n out o ∧ endOf n out o ≤ n ∧
    endOf n out o - startOf n out o ≤ kMax n out ∧ startOf n out o + kMax n out ≤ n + 1 := by
  have hout : 0 < out := by omega
  have e0 : (o + 1) * n = o * n + n := by rw [Int.add_mul, Int.one_mul]
  have hon : 0 ≤ o * n := Int.mul_nonneg ho.1 (by omega)
  have h1 : 0 ≤ startOf n out o := (fdiv_ge hout).2 (by omega)
  have hle : (o + 1) * n ≤ out * n := Int.mul_le_mul_of_nonneg_right (by omega) (by omega)
  generalize hS : startOf n out o = S at *
  generalize hEn : endOf n out o = T at *
  have kS : ∀ i, S ≤ i ↔ o * n < (i + 1) * out := fun i => by rw [← hS]; exact startOf_le hout
  have kT : ∀ i, i < T ↔ i * out < (o + 1) * n := fun i => by rw [← hEn]; exact lt_endOf hout
  have a1 : S * out ≤ o * n := by
    have := kS (S - 1)
    rw [Int.sub_add_cancel] at this
    omega
  have a2 := (kS S).1 (Int.le_refl S)
  have a3 : (T - 1) * out < (o + 1) * n := (kT (T - 1)).1 (by omega)
  have e1 : (S + 1) * out = S * out + out := by rw [Int.add_mul, Int.one_mul]
  refine ⟨h1, (kT S).2 (by omega), ?_, ?_, ?_⟩
  · by_cases h : T ≤ n
    · exact h
    · have := (kT n).1 (by omega)
      rw [Int.mul_comm n out] at this
      omega
  · have h2 : T - S - 1 ≤ ceilDiv (n - 1) out := by
      have := ceilDiv_lt (a := n - 1) (c := T - S - 2) hout
      have e2 : (T - S - 2) * out = (T - 1) * out - (S + 1) * out := by rw [← Int.sub_mul]; congr 1; omega
      omega
    unfold kMax
    omega
  · have h2 : ceilDiv (n - 1) out ≤ n - S := by
      rw [ceilDiv_le hout, Int.sub_mul, Int.mul_comm n out]
      omega
    unfold kMax
    omega

theorem part_eq {n out o : Int} (hn : 0 < n) (ho : 0 ≤ o ∧ o < out) :
    ((List.range (kMax n out).toNat).map fun (k : Nat) => startOf n out o + k).filter (fun i => decide (i < endOf n out o)) = part n out o := by
  have hout : 0 < out := by omega
  obtain ⟨h1, h2, h3, h4, h5⟩ := start_facts hn ho
  have l1 : ((List.range (kMax n out).toNat).map fun (k : Nat) => startOf n out o + k).filter (fun i => decide (i < endOf n out o)) =
      (List.range (endOf n out o - startOf n out o).toNat).map fun (k : Nat) => startOf n out o + k := by
    rw [List.filter_map]
    have : (List.range (kMax n out).toNat).filter ((fun i => decide (i < endOf n out o)) ∘ fun (k : Nat) => startOf n out o + k) =
        (List.range (kMax n out).toNat).filter (fun k => decide (0 ≤ k ∧ k < (endOf n out o - startOf n out o).toNat)) := by
      apply List.filter_congr
      intro k _
      simp only [Function.comp_apply, decide_eq_decide]
      omega
    rw [this, range_between (by omega)]
    simp
  have l2 : part n out o = (List.range (endOf n out o - startOf n out o).toNat).map fun (k : Nat) => startOf n out o + k := by
    unfold part
    rw [List.filter_map]
    have : (List.range n.toNat).filter ((fun i => decide (i * out < (o + 1) * n ∧ o * n < (i + 1) * out)) ∘ fun (i : Nat) => (i : Int)) =
        (List.range n.toNat).filter (fun k => decide ((startOf n out o).toNat ≤ k ∧ k < (endOf n out o).toNat)) := by
      apply List.filter_congr
      intro k _
      simp only [Function.comp_apply, decide_eq_decide]
      rw [← startOf_le hout, ← lt_endOf hout]
      omega
    rw [this, range_between (by omega), List.map_map]
    have e : (endOf n out o).toNat - (startOf n out o).toNat = (endOf n out o - startOf n out o).toNat := by omega
    rw [e]
    apply List.map_congr_left
    intro k _
    simp only [Function.comp_apply]
    push_cast
    omega
  rw [l1, l2]

theorem part_length {n out o : Int} (hn : 0 < n) (ho : 0 ≤ o ∧ o < out) : ((part n out o).length : Int) = endOf n out o - startOf n out o := by
  obtain ⟨h1, h2, h3, h4, h5⟩ := start_facts hn ho
  rw [← part_eq hn ho, List.filter_map, List.length_map]
  rw [count_of (P := _) (a := 0) (b := endOf n out o - startOf n out o) (by omega) (by omega)]
  · omega
  · intro k _
    simp only [Function.comp_apply, decide_eq_true_eq]
    omega

/-! ## All dimensions -/

/-- Sizes and places. -/
def Fits : List Int → List Int → List Int → Prop
  | [], [], [] => True
  | n :: ns, out :: outs, o :: os => 0 < n ∧ (0 ≤ o ∧ o < out) ∧ Fits ns outs os
  | _, _, _ => False

theorem fits_of : ∀ {ns outs os : List Int}, ns.length = outs.length → (∀ n ∈ ns, 0 < n) → inRange outs os = true → Fits ns outs os
  | [], [], [], _, _, _ => trivial
  | n :: ns, out :: outs, o :: os, h1, h2, h3 => by
    simp only [inRange, Bool.and_eq_true, decide_eq_true_eq] at h3
    exact ⟨h2 n (by simp), h3.1, fits_of (by simpa using h1) (fun m hm => h2 m (by simp [hm])) h3.2⟩
  | [], _ :: _, _, h, _, _ => by simp at h
  | _ :: _, [], _, h, _, _ => by simp at h
  | [], [], _ :: _, _, _, h => by simp [inRange] at h
  | _ :: _, _ :: _, [], _, _, h => by simp [inRange] at h

theorem volume_ok : ∀ {ns outs os : List Int}, Fits ns outs os → volume ns outs os = (parts ns outs os).length
  | [], [], [], _ => rfl
  | n :: ns, out :: outs, o :: os, h => by
    simp only [volume, parts, List.length_flatMap, List.length_map]
    rw [volume_ok h.2.2, ← part_length h.1 h.2.1, List.map_const', List.sum_replicate]
    simp
  | [], [], _ :: _, h => h.elim
  | [], _ :: _, _, h => h.elim
  | _ :: _, [], _, h => h.elim
  | _ :: _, _ :: _, [], h => h.elim

theorem loops_parts : ∀ {ns outs os : List Int}, Fits ns outs os →
    ((loops (List.zipWith kMax ns outs)).map fun k => adaptiveTap ns outs os k).filter (beforeEnds ns outs os) = parts ns outs os
  | [], [], [], _ => rfl
  | n :: ns, out :: outs, o :: os, h => by
    have ih := loops_parts h.2.2
    have e : ((loops (List.zipWith kMax (n :: ns) (out :: outs))).map fun k => adaptiveTap (n :: ns) (out :: outs) (o :: os) k) =
        (List.range (kMax n out).toNat).flatMap fun (i : Nat) =>
          ((loops (List.zipWith kMax ns outs)).map fun k => adaptiveTap ns outs os k).map ((startOf n out o + i) :: ·) := by
      simp only [List.zipWith_cons_cons, loops, List.map_flatMap, List.map_map]
      rfl
    rw [e, filter_product _ (fun (i : Nat) => startOf n out o + i) _ (fun i => decide (i < endOf n out o)) (beforeEnds ns outs os)
      (beforeEnds (n :: ns) (out :: outs) (o :: os)) (fun a b => rfl), ih, part_eq h.1 h.2.1]
    rfl
  | [], [], _ :: _, h => h.elim
  | [], _ :: _, _, h => h.elim
  | _ :: _, [], _, h => h.elim
  | _ :: _, _ :: _, [], h => h.elim

/-- The padding of an adaptive pooling. -/
def onePad (outs : List Int) : List Axis := outs.map fun _ => ⟨1, 1, 0, 1, 1⟩

theorem adaptiveTap_range : ∀ {ns outs os k : List Int}, Fits ns outs os → inRange (List.zipWith kMax ns outs) k = true →
    inRange (paddedSizes false ns (onePad outs)) (adaptiveTap ns outs os k) = true
  | [], [], [], [], _, _ => rfl
  | n :: ns, out :: outs, o :: os, k :: ks, h, hk => by
    simp only [List.zipWith_cons_cons, inRange, Bool.and_eq_true, decide_eq_true_eq] at hk
    obtain ⟨h1, h2, h3, h4, h5⟩ := start_facts h.1 h.2.1
    have ih := adaptiveTap_range h.2.2 hk.2
    simp only [onePad, paddedSizes, List.map_cons, List.zipWith_cons_cons, adaptiveTap, inRange, Bool.and_eq_true, decide_eq_true_eq, highPad,
      Bool.false_eq_true, if_false]
    exact ⟨by omega, ih⟩
  | [], [], [], _ :: _, _, h => by simp [inRange] at h
  | _ :: _, _ :: _, _ :: _, [], _, h => by simp [inRange] at h
  | [], [], _ :: _, _, h, _ => h.elim
  | [], _ :: _, _, _, h, _ => h.elim
  | _ :: _, [], _, _, h, _ => h.elim
  | _ :: _, _ :: _, [], _, h, _ => h.elim

theorem unpad_one : ∀ (outs j : List Int), j.length = outs.length → unpad (onePad outs) j = j
  | [], [], _ => rfl
  | _ :: outs, i :: j, h => by
    have := unpad_one outs j (by simpa using h)
    simp only [unpad, onePad, List.map_cons, List.zipWith_cons_cons] at this ⊢
    rw [this, Int.sub_zero]
  | [], _ :: _, h => by simp at h
  | _ :: _, [], h => by simp at h

theorem fits_length : ∀ {ns outs os : List Int}, Fits ns outs os → ns.length = outs.length ∧ os.length = outs.length
  | [], [], [], _ => ⟨rfl, rfl⟩
  | _ :: _, _ :: _, _ :: _, h => by
    have := fits_length h.2.2
    exact ⟨by simpa using this.1, by simpa using this.2⟩
  | [], [], _ :: _, h => h.elim
  | [], _ :: _, _, h => h.elim
  | _ :: _, [], _, h => h.elim
  | _ :: _, _ :: _, [], h => h.elim

theorem before_inRange : ∀ {ns outs os k : List Int}, Fits ns outs os → inRange (List.zipWith kMax ns outs) k = true →
    beforeEnds ns outs os (adaptiveTap ns outs os k) = true → inRange ns (adaptiveTap ns outs os k) = true
  | [], [], [], [], _, _, _ => rfl
  | n :: ns, out :: outs, o :: os, k :: ks, h, hk, hb => by
    simp only [List.zipWith_cons_cons, inRange, Bool.and_eq_true, decide_eq_true_eq] at hk
    simp only [adaptiveTap, beforeEnds, Bool.and_eq_true, decide_eq_true_eq] at hb
    obtain ⟨h1, h2, h3, h4, h5⟩ := start_facts h.1 h.2.1
    simp only [adaptiveTap, inRange, Bool.and_eq_true, decide_eq_true_eq]
    exact ⟨by omega, before_inRange h.2.2 hk.2 hb.2⟩
  | [], [], [], _ :: _, _, h, _ => by simp [inRange] at h
  | _ :: _, _ :: _, _ :: _, [], _, h, _ => by simp [inRange] at h
  | [], [], _ :: _, _, h, _, _ => h.elim
  | [], _ :: _, _, _, h, _, _ => h.elim
  | _ :: _, [], _, _, h, _, _ => h.elim
  | _ :: _, _ :: _, [], _, h, _, _ => h.elim

theorem adaptiveElems_ok {x : Tensor E} {val : List Int → E} (hx : Holds x val) {A ns : List Int} (hs : x.sizes = A ++ ns) {buf : E} {outs l os : List Int}
    (hl : inRange A l = true) (hf : Fits ns outs os) : adaptiveElems buf x A.length outs (l ++ os) =
      (loops (List.zipWith kMax ns outs)).map fun k => (adaptiveTap ns outs os k,
        some (if beforeEnds ns outs os (adaptiveTap ns outs os k) then val (l ++ adaptiveTap ns outs os k) else buf)) := by
  have hlen := inRange_length hl
  obtain ⟨hl1, hl2⟩ := fits_length hf
  have ep : pad x (List.replicate x.sizes.length 0) (List.replicate A.length 0 ++ outs.map fun _ => 1) buf = padInput x A.length false (onePad outs) buf := by
    unfold padInput
    congr 1
    · rw [hs, List.length_append, ← List.replicate_append_replicate, hl1]
      simp [onePad, List.map_const']
    · simp [onePad, highPad]
  unfold adaptiveElems
  simp only [ep]
  rw [List.take_left' hlen, List.drop_left' hlen, hs, List.drop_left' rfl]
  apply List.map_congr_left
  intro k hk
  have hk' := mem_loops hk
  have hr := adaptiveTap_range hf hk'
  have hjl : (adaptiveTap ns outs os k).length = outs.length := by
    rw [inRange_length hr]
    simp [paddedSizes, onePad, hl1]
  rw [padInput_get hx hs (by simp [onePad, hl1]) hl hr, unpad_one _ _ hjl]
  by_cases hb : beforeEnds ns outs os (adaptiveTap ns outs os k) = true
  · simp [hb, before_inRange hf hk' hb]
  · simp [hb]

theorem adaptiveAvg_ok {x : Tensor E} {val : List Int → E} (hx : Holds x val) {A ns : List Int} (hs : x.sizes = A ++ ns) {add : E → E → E} {zero : E}
    (hz : ∀ a, add zero a = a) {div : E → Int → E} {outs l os : List Int} (hl : inRange A l = true) (hf : Fits ns outs os) :
    (lowerAdaptiveAvg add zero div x A.length outs).elem (l ++ os) =
      some (div (((parts ns outs os).map fun j => val (l ++ j)).foldl (fun a e => add e a) zero) (parts ns outs os).length) := by
  have hlen := inRange_length hl
  simp only [lowerAdaptiveAvg]
  rw [adaptiveElems_ok hx hs hl hf, List.map_map, List.drop_left' hlen, hs, List.drop_left' rfl, volume_ok hf]
  have e : ((fun (q : List Int × Option E) => q.2) ∘ fun k => (adaptiveTap ns outs os k,
        some (if beforeEnds ns outs os (adaptiveTap ns outs os k) then val (l ++ adaptiveTap ns outs os k) else zero))) =
      fun k => some (if beforeEnds ns outs os (adaptiveTap ns outs os k) then val (l ++ adaptiveTap ns outs os k) else zero) := rfl
  rw [e, foldl_step_some _ (fun k => if beforeEnds ns outs os (adaptiveTap ns outs os k) then val (l ++ adaptiveTap ns outs os k) else zero),
    foldl_skip _ zero hz (fun k => beforeEnds ns outs os (adaptiveTap ns outs os k)) (fun k => val (l ++ adaptiveTap ns outs os k)),
    Option.map_some, ← loops_parts hf, List.filter_map, List.map_map, List.length_map]
  rfl

/-! ## Greatest elements -/

theorem rowIndex_position : ∀ (ns is : List Int) (acc : Int), is.length = ns.length → rowIndex ns is acc = acc * ns.prod + position ns is
  | [], [], acc, _ => by simp [rowIndex, position]
  | n :: ns, i :: is, acc, h => by
    simp only [rowIndex, position, List.prod_cons]
    rw [rowIndex_position ns is _ (by simpa using h), Int.add_mul, Int.mul_assoc, Int.add_assoc]
  | [], _ :: _, _, h => by simp at h
  | _ :: _, [], _, h => by simp at h

/-- One step on elements that are there. -/
def maxStep' (gt : E → E → Bool) (val : List Int → E) (pos : List Int → Int) (a : E × Option Int) (j : List Int) : E × Option Int :=
  if gt (val j) a.1 then (val j, some (pos j)) else a

theorem maxSteps [LinearOrder E] {gt : E → E → Bool} (hgt : ∀ a b, gt a b = true ↔ b < a) (val : List Int → E) (pos : List Int → Int) :
    ∀ (js : List (List Int)) (a : E) (r : Option Int), (js.foldl (maxStep' gt val pos) (a, r)).1 = (js.map val).foldl max a ∧
      ((js.map val).foldl max a = a ∧ (js.foldl (maxStep' gt val pos) (a, r)).2 = r ∨
        a < (js.map val).foldl max a ∧ ∃ i, IsFirst val ((js.map val).foldl max a) js i ∧ (js.foldl (maxStep' gt val pos) (a, r)).2 = some (pos i))
  | [], a, r => ⟨rfl, Or.inl ⟨rfl, rfl⟩⟩
  | j :: js, a, r => by
    by_cases h : a < val j
    · have e : maxStep' gt val pos (a, r) j = (val j, some (pos j)) := if_pos ((hgt _ _).2 h)
      obtain ⟨h1, h2⟩ := maxSteps hgt val pos js (val j) (some (pos j))
      simp only [List.foldl_cons, List.map_cons, e, max_eq_right (le_of_lt h)]
      refine ⟨h1, Or.inr ?_⟩
      rcases h2 with ⟨h2, h3⟩ | ⟨h2, i, ⟨p, q, hpq, hv, hn⟩, h3⟩
      · exact ⟨by rw [h2]; exact h, j, ⟨[], js, rfl, h2.symm, by simp⟩, h3⟩
      · refine ⟨lt_trans h h2, i, ⟨j :: p, q, by rw [hpq]; rfl, hv, ?_⟩, h3⟩
        intro k hk
        rcases List.mem_cons.1 hk with rfl | hk
        · exact ne_of_lt h2
        · exact hn k hk
    · have hle : val j ≤ a := not_lt.1 h
      have e : maxStep' gt val pos (a, r) j = (a, r) := if_neg (fun h2 => h ((hgt _ _).1 h2))
      obtain ⟨h1, h2⟩ := maxSteps hgt val pos js a r
      simp only [List.foldl_cons, List.map_cons, e, max_eq_left hle]
      refine ⟨h1, ?_⟩
      rcases h2 with ⟨h2, h3⟩ | ⟨h2, i, ⟨p, q, hpq, hv, hn⟩, h3⟩
      · exact Or.inl ⟨h2, h3⟩
      · refine Or.inr ⟨h2, i, ⟨j :: p, q, by rw [hpq]; rfl, hv, ?_⟩, h3⟩
        intro k hk
        rcases List.mem_cons.1 hk with rfl | hk
        · exact ne_of_lt (lt_of_le_of_lt hle h2)
        · exact hn k hk

theorem adaptiveMax_fold {x : Tensor E} {val : List Int → E} (hx : Holds x val) {A ns : List Int} (hs : x.sizes = A ++ ns) {gt : E → E → Bool} {lo : E}
    (hlo : ∀ a, gt lo a = false) {outs l os : List Int} (hl : inRange A l = true) (hf : Fits ns outs os) :
    (adaptiveElems lo x A.length outs (l ++ os)).foldl (maxStep gt ns) (some (lo, none)) =
      some ((parts ns outs os).foldl (maxStep' gt (fun j => val (l ++ j)) (position ns)) (lo, none)) := by
  obtain ⟨hl1, -⟩ := fits_length hf
  rw [adaptiveElems_ok hx hs hl hf, List.foldl_map]
  rw [List.foldl_ext _ (fun (r : Option (E × Option Int)) k => r.map fun a =>
      if beforeEnds ns outs os (adaptiveTap ns outs os k) then maxStep' gt (fun j => val (l ++ j)) (position ns) a (adaptiveTap ns outs os k) else a) _ ?_]
  · rw [foldl_option (fun k a => if beforeEnds ns outs os (adaptiveTap ns outs os k) then
        maxStep' gt (fun j => val (l ++ j)) (position ns) a (adaptiveTap ns outs os k) else a),
      foldl_filter_skip _ (fun k => beforeEnds ns outs os (adaptiveTap ns outs os k)) (fun k b hk => by simp [hk])]
    congr 1
    rw [← loops_parts hf, List.filter_map, List.foldl_map]
    apply List.foldl_ext
    intro a k hk
    have : beforeEnds ns outs os (adaptiveTap ns outs os k) = true := (List.mem_filter.1 hk).2
    rw [if_pos this]
  · intro r k hk
    have hk' := mem_loops hk
    cases r with
    | none => rfl
    | some a =>
      by_cases hb : beforeEnds ns outs os (adaptiveTap ns outs os k) = true
      · have hr := inRange_length (before_inRange hf hk' hb)
        simp only [maxStep, maxStep', hb, if_true, Option.bind_some, Option.map_some]
        rw [rowIndex_position _ _ _ hr, Int.zero_mul, Int.zero_add]
      · simp [maxStep, hb, hlo]

end Verif.Pool
