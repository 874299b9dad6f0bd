import Verif.Lemmas.LinSqueezeAll

namespace Verif.Lin

variable {E : Type}

/-! ## Nothing but reshapes -/

theorem expandTo_sound {x : Operand E} {r : Tensor E} (hx : ∀ n ∈ x.tensor.sizes, 0 ≤ n) (ht : x.Typed) {outs : List Int} (hn : ∀ n ∈ outs, -1 ≤ n) {groups : List (List Nat)}
    (h : expandTo x outs groups = .ok r) : IsReshapeOf r x.tensor := by
  unfold expandTo at h
  split at h
  · rename_i h0
    have hs : x.tensor.sizes = [] := List.eq_nil_of_length_eq_zero (by rw [← ht.1]; exact h0)
    split at h
    · rename_i hc
      injection h with h
      subst h
      rw [Bool.and_eq_true, List.all_eq_true] at hc
      have hall : ∀ n ∈ outs, n = 1 := fun n hn => of_decide_eq_true (hc.2 n hn)
      have ho : outs = List.replicate outs.length 1 := List.eq_replicate_iff.mpr ⟨rfl, hall⟩
      have hp : outs.prod = 1 := by rw [ho]; simp
      refine reshape_of (fun _ => []) (by rw [hs]; exact hp) (fun n hn => by rw [hall n hn]; decide) (fun i hi => ?_) (fun i _ => rfl)
      rw [hs]
      refine ⟨rfl, ?_⟩
      have := position_bound hi
      dsimp only at this ⊢
      show 0 = _
      omega
    · cases h
  · split at h
    · cases h
    · rename_i hv
      have hv : groupsVerify (typeSizes x.type) outs groups = true := by simpa using hv
      obtain ⟨g1, g2⟩ := groupsVerify_spec hv
      exact expand_reshape hx g1 (by rw [g2]; unfold typeSizes; rw [List.length_map]; exact ht.1) hn h

theorem collapseTo_sound {x : Operand E} {r : Tensor E} (hx : ∀ n ∈ x.tensor.sizes, 0 ≤ n) (ht : x.Typed) {outs : List Int} {groups : List (List Nat)}
    (h : collapseTo x outs groups = .ok r) : IsReshapeOf r x.tensor := by
  unfold collapseTo at h
  split at h
  · split at h
    · rename_i hc
      injection h with h
      subst h
      rw [Bool.and_eq_true, List.all_eq_true] at hc
      have hall : ∀ v ∈ x.type, v.getD unknown = 1 := fun v hv => of_decide_eq_true (hc.2 _ (List.mem_map.mpr ⟨v, hv, rfl⟩))
      have hs : x.tensor.sizes = List.replicate x.type.length 1 := by
        refine agree_ones (a := x.type.length) ?_
        rw [show List.replicate x.type.length 1 = typeSizes x.type by
          symm
          rw [List.eq_replicate_iff]
          unfold typeSizes
          refine ⟨List.length_map _, fun b hb => ?_⟩
          obtain ⟨v, hv, rfl⟩ := List.mem_map.mp hb
          exact hall v hv]
        exact typed_agree ht
      refine reshape_of (fun _ => x.type.map fun _ => 0) (by rw [hs]; simp) (by simp) (fun i hi => ?_) (fun i hi => rfl)
      rw [hs]
      cases i with
      | cons => simp [inRange] at hi
      | nil => exact zeros_position x.type
    · cases h
  · split at h
    · cases h
    · rename_i hv
      have hv : groupsVerify outs (typeSizes x.type) groups = true := by simpa using hv
      injection h with h
      subst h
      refine collapse_reshape hx ?_
      rw [(groupsVerify_spec hv).1]
      unfold typeSizes
      rw [List.length_map, ht.1]

theorem lowerSqueeze_sound {x : Operand E} {r : Tensor E} (hx : ∀ n ∈ x.tensor.sizes, 0 ≤ n) (ht : x.Typed) {resTy : List (Option Int)} (h : lowerSqueeze x resTy = .ok r) :
    IsReshapeOf r x.tensor := by
  unfold lowerSqueeze at h
  dsimp only at h
  split at h
  · cases h
  · split at h
    · split at h
      · injection h with h; subst h; exact IsReshapeOf.refl hx
      · cases h
    · split at h
      · exact collapseTo_sound hx ht h
      · split at h
        · cases h
        · split at h
          · cases h
          · exact collapseTo_sound hx ht h

theorem lowerSqueezeDim_sound {x : Operand E} {r : Tensor E} (hx : ∀ n ∈ x.tensor.sizes, 0 ≤ n) (ht : x.Typed) {dim : Int} (h : lowerSqueezeDim x dim = .ok r) :
    IsReshapeOf r x.tensor := by
  unfold lowerSqueezeDim at h
  dsimp only at h
  split at h
  · injection h with h; subst h; exact IsReshapeOf.refl hx
  · split at h
    · cases h
    · split at h
      · cases h
      · split at h
        · injection h with h; subst h; exact IsReshapeOf.refl hx
        · exact collapseTo_sound hx ht h

theorem agree_getD {o s : List Int} (h : List.Forall₂ (fun v n => v = unknown ∨ v = n) o s) (i : Nat) : o.getD i 0 = unknown ∨ o.getD i 0 = s.getD i 0 := by
  induction h generalizing i with
  | nil => exact Or.inr rfl
  | cons h _ ih =>
    cases i with
    | zero => exact h
    | succ i => exact ih i

theorem collapse_typed {x : Operand E} (ht : x.Typed) {resTy : List (Option Int)} (hr : ∀ n, some n ∈ resTy → 0 ≤ n) {groups : List (List Nat)}
    (hv : groupsVerify (typeSizes resTy) (typeSizes x.type) groups = true) : TypeOf resTy (collapseShape x.tensor groups).sizes := by
  have hl := (groupsVerify_spec hv).2
  have hz : (collapseShape x.tensor groups).sizes = groups.map fun g => (g.map fun d => x.tensor.sizes.getD d 0).prod := by
    show (List.map _ _).map List.prod = _
    rw [List.map_map]
    rfl
  unfold typeSizes at hl
  rw [List.length_map] at hl
  refine ⟨by rw [hz, List.length_map, hl], fun d n hd => ?_⟩
  have hdl : d < resTy.length := (List.getElem?_eq_some_iff.mp hd).1
  have hdg : d < groups.length := by omega
  rw [hz, List.getElem?_map, List.getElem?_eq_getElem hdg]
  unfold groupsVerify at hv
  rw [Bool.and_eq_true, List.all_eq_true] at hv
  have hm := hv.2 _ (List.getElem_mem (l := List.zipWith _ (typeSizes resTy) groups) (n := d) (by rw [List.length_zipWith, typeSizes, List.length_map]; omega))
  rw [List.getElem_zipWith] at hm
  have hn : (typeSizes resTy)[d]'(by rw [typeSizes, List.length_map]; exact hdl) = n := by
    unfold typeSizes
    rw [List.getElem_map, (List.getElem?_eq_some_iff.mp hd).2]
    rfl
  rw [hn] at hm
  have hn0 : 0 ≤ n := hr n (List.mem_of_getElem? hd)
  dsimp only [id] at hm
  split at hm
  · have := of_decide_eq_true hm
    rw [this] at hn0
    exact absurd hn0 (by decide)
  · rename_i hu
    have e := of_decide_eq_true hm
    rw [Option.map_some, e]
    congr 2
    refine List.map_congr_left fun k hk => ?_
    rcases agree_getD (typed_agree ht) k with h | h
    · exact absurd (List.any_eq_true.mpr ⟨k, hk, decide_eq_true h⟩) hu
    · exact h.symm

theorem collapseTo_typed {x : Operand E} (ht : x.Typed) {resTy : List (Option Int)} (hr : ∀ n, some n ∈ resTy → 0 ≤ n) {groups : List (List Nat)} {r : Tensor E}
    (h : collapseTo x (typeSizes resTy) groups = .ok r) : TypeOf resTy r.sizes := by
  unfold collapseTo at h
  split at h
  · rename_i h0
    unfold typeSizes at h0
    rw [List.length_map] at h0
    split at h
    · injection h with h
      subst h
      rw [List.eq_nil_of_length_eq_zero h0]
      exact ⟨rfl, fun d n hd => by simp at hd⟩
    · cases h
  · split at h
    · cases h
    · rename_i hv
      injection h with h
      subst h
      exact collapse_typed ht hr (by simpa using hv)

theorem lowerSqueeze_typed {x : Operand E} {r : Tensor E} (ht : x.Typed) {resTy : List (Option Int)} (hr : ∀ n, some n ∈ resTy → 0 ≤ n) (h : lowerSqueeze x resTy = .ok r) :
    TypeOf resTy r.sizes := by
  unfold lowerSqueeze at h
  dsimp only at h
  split at h
  · cases h
  · split at h
    · split at h
      · rename_i hc
        injection h with h; subst h; exact castOk_iff.mp hc
      · cases h
    · split at h
      · rename_i h0
        have e := List.eq_nil_of_length_eq_zero h0
        subst e
        exact collapseTo_typed (resTy := []) ht hr h
      · split at h
        · cases h
        · split at h
          · cases h
          · exact collapseTo_typed ht hr h

theorem collapse_sizes (x : Tensor E) {S : List (List Int)} (hS : x.sizes = S.flatten) : (collapseShape x (groupsOf 0 (S.map List.length))).sizes = S.map List.prod := by
  show (List.map _ _).map List.prod = _
  rw [hS]
  congr 1
  exact groupsOf_at' S

theorem squeezeLoop_sizes (x : Tensor E) {pre post : List Int} (hs : x.sizes = pre ++ 1 :: post) (hne : pre ++ post ≠ []) :
    (collapseShape x (squeezeLoop (pre.length : Int) (pre.length + post.length) 0 false)).sizes = pre ++ post := by
  by_cases ha : pre = []
  · subst ha
    cases post with
    | nil => exact absurd rfl hne
    | cons n post =>
      have e := collapse_sizes x (S := [1, n] :: units post) (by rw [hs, List.flatten_cons, units_flatten]; rfl)
      have g : squeezeLoop (([] : List Int).length : Int) (([] : List Int).length + (n :: post).length) 0 false = groupsOf 0 (([1, n] :: units post).map List.length) := by
        rw [show ([] : List Int).length + (n :: post).length = post.length + 1 by simp]
        refine (squeezeLoop_zero post.length).trans ?_
        rw [List.map_cons, units_length]
        rfl
      rw [g, e, List.map_cons, units_prod]
      simp
  · obtain ⟨pre', n, rfl⟩ := snoc_of_ne ha
    have e := collapse_sizes x (S := units pre' ++ [n, 1] :: units post) (by rw [hs, List.flatten_append, List.flatten_cons, units_flatten, units_flatten]; simp)
    have g : squeezeLoop ((pre' ++ [n]).length : Int) ((pre' ++ [n]).length + post.length) 0 false = groupsOf 0 ((units pre' ++ [n, 1] :: units post).map List.length) := by
      rw [show (pre' ++ [n]).length + post.length = pre'.length + 1 + post.length by simp]
      refine (squeezeLoop_eq _ pre'.length post.length 0 (by simp)).trans ?_
      rw [List.map_append, List.map_cons, units_length, units_length]
      rfl
    rw [g, e, List.map_append, List.map_cons, units_prod, units_prod]
    simp

theorem isDim_of {dim : Int} {r : Nat} (hr : 1 ≤ r) (h : isValidDim (toPositiveDim dim r) r = true) : Shape.IsDim r dim (toPositiveDim dim r).toNat := by
  unfold isValidDim toPositiveDim at h
  rw [decide_eq_true_eq] at h
  unfold Shape.IsDim toPositiveDim
  rw [Nat.max_eq_left hr]
  by_cases hd : dim ≥ 0
  · rw [if_pos hd] at h ⊢; omega
  · rw [if_neg hd] at h ⊢; omega

theorem isDim_unique {r : Nat} {dim : Int} {a b : Nat} (h1 : Shape.IsDim r dim a) (h2 : Shape.IsDim r dim b) : a = b := by
  unfold Shape.IsDim at h1 h2
  omega

theorem lowerSqueezeDim_sizes {x : Operand E} {r : Tensor E} (ht : x.Typed) {dim : Int} (h : lowerSqueezeDim x dim = .ok r) :
    SqueezedDim x.tensor.sizes dim r.sizes := by
  have hl : x.type.length = x.tensor.sizes.length := ht.1
  unfold lowerSqueezeDim at h
  dsimp only at h
  split at h
  · injection h with h
    subst h
    rename_i h0
    refine Or.inr ⟨?_, rfl⟩
    rintro ⟨c, pre, post, e, _, _⟩
    rw [e] at hl
    simp at hl
    omega
  · rename_i h0
    by_cases hv : isValidDim (toPositiveDim dim x.type.length) x.type.length = true
    · rw [hv, if_neg (by simp)] at h
      have hd := isDim_of (by omega) hv
      have hn0 : 0 ≤ toPositiveDim dim x.type.length := by
        unfold isValidDim at hv
        rw [decide_eq_true_eq] at hv
        exact hv.1
      obtain ⟨d, hdd⟩ := Int.eq_ofNat_of_zero_le hn0
      rw [hdd, Int.toNat_natCast] at h hd
      have hlt : d < x.tensor.sizes.length := by unfold Shape.IsDim at hd; omega
      have hsplit : x.tensor.sizes = x.tensor.sizes.take d ++ x.tensor.sizes[d] :: x.tensor.sizes.drop (d + 1) := by
        rw [← List.drop_eq_getElem_cons, List.take_append_drop]
      have hg : x.tensor.sizes.getD d 0 = x.tensor.sizes[d] := by rw [List.getD_eq_getElem?_getD, List.getElem?_eq_getElem hlt]; rfl
      have hlp : (x.tensor.sizes.take d).length = d := by rw [List.length_take]; omega
      have htd : ∀ m, x.type.getD d none = some m → x.tensor.sizes[d] = m := by
        intro m hm
        rw [List.getD_eq_getElem?_getD] at hm
        cases hq : x.type[d]? with
        | none => rw [hq] at hm; cases hm
        | some o =>
          rw [hq] at hm
          have hm : o = some m := hm
          rw [hm] at hq
          have := ht.2 d m hq
          rw [List.getElem?_eq_getElem hlt] at this
          injection this
      by_cases h1 : x.type.getD d none = none ∧ x.tensor.sizes.getD d 0 ≠ 1
      · rw [if_pos h1] at h; cases h
      · rw [if_neg h1] at h
        by_cases h2 : x.type.getD d none ≠ some 1 ∧ x.type.getD d none ≠ none
        · rw [if_pos h2] at h
          injection h with h
          subst h
          refine Or.inr ⟨?_, rfl⟩
          rintro ⟨c, pre, post, e, hd', _⟩
          rw [hl] at hd
          have hdp := isDim_unique hd hd'
          have h1' : x.tensor.sizes[d] = 1 := by
            have : x.tensor.sizes[d]? = some 1 := by rw [e, hdp, List.getElem?_append_right (Nat.le_refl _)]; simp
            rw [List.getElem?_eq_getElem hlt] at this
            injection this
          cases hty : x.type.getD d none with
          | none => exact h2.2 hty
          | some m => exact h2.1 (by rw [hty, ← htd m hty, h1'])
        · rw [if_neg h2] at h
          have hone : x.tensor.sizes[d] = 1 := by
            cases hty : x.type.getD d none with
            | none =>
              rw [hty, hg] at h1
              by_cases he : x.tensor.sizes[d] = 1
              · exact he
              · exact absurd ⟨rfl, he⟩ h1
            | some m =>
              rw [hty] at h2
              have : m = 1 := by
                by_cases he : m = 1
                · exact he
                · exact absurd ⟨by simpa using he, by simp⟩ h2
              rw [htd m hty, this]
          rw [hone] at hsplit
          refine Or.inl ⟨_, _, hsplit, by rw [hlp, ← hl]; exact hd, ?_⟩
          unfold collapseTo at h
          have hol : ((typeSizes x.type).take d ++ (typeSizes x.type).drop (d + 1)).length = x.type.length - 1 := by
            rw [List.length_append, List.length_take, List.length_drop]
            unfold typeSizes
            rw [List.length_map]
            omega
          rw [hol] at h
          split at h
          · rename_i hz
            split at h
            · injection h with h
              subst h
              symm
              apply List.eq_nil_of_length_eq_zero
              rw [List.length_append, List.length_take, List.length_drop]
              omega
            · cases h
          · rename_i hz
            split at h
            · cases h
            · injection h with h
              subst h
              have := squeezeLoop_sizes x.tensor hsplit (fun e => by
                have := congrArg List.length e
                rw [List.length_append, List.length_take, List.length_drop, List.length_nil] at this
                omega)
              rw [hlp, show d + (x.tensor.sizes.drop (d + 1)).length = x.type.length - 1 by rw [List.length_drop]; omega] at this
              exact this
    · rw [Bool.not_eq_true] at hv
      rw [hv] at h
      cases h

theorem lowerUnflatten_sound {x : Operand E} {r : Tensor E} (hx : ∀ n ∈ x.tensor.sizes, 0 ≤ n) (ht : x.Typed) {dim : Int} {sizes : List Int} {resTy : List (Option Int)}
    (hr : ∀ n, some n ∈ resTy → 0 ≤ n) (h : lowerUnflatten x dim sizes resTy = .ok r) : IsReshapeOf r x.tensor := by
  have hn : ∀ n ∈ typeSizes resTy, -1 ≤ n := by
    intro n hn
    unfold typeSizes at hn
    obtain ⟨v, hv, rfl⟩ := List.mem_map.mp hn
    cases v with
    | none => decide
    | some m => have := hr m hv; show -1 ≤ m; omega
  unfold lowerUnflatten at h
  dsimp only at h
  split at h
  · cases h
  · split at h
    · cases h
    · rename_i hc
      split at h
      · split at h
        · rename_i hq
          have h' := fun a b => expandTo_sound a b hn h
          refine h' hx ?_
          rw [hq] at hc
          simp only [Bool.true_and, Bool.not_eq_true, Bool.not_eq_false'] at hc
          exact castOk_iff.mp hc
        · exact expandTo_sound hx ht hn h
      · obtain ⟨t, h1, h2⟩ := bind_ok h
        split at h2
        · injection h2 with h2; subst h2; exact (reshape_ok hx h1).2
        · cases h2

/-! ## `unflatten` -/

theorem view_length {n : Int} {size c : List Int} (h : Shape.IsView n size c) : c.length = size.length ∧ c.prod = n := by
  rcases h with ⟨_, rfl, h⟩ | ⟨pre, x, post, rfl, _, _, rfl, h, _⟩
  · exact ⟨rfl, by rw [← numel_prod]; exact h⟩
  · exact ⟨by simp, by rw [← numel_prod]; exact h⟩

theorem view_nonneg {n : Int} (hn : 0 ≤ n) {size c : List Int} (h : Shape.IsView n size c) : ∀ m ∈ c, 0 ≤ m := by
  rcases h with ⟨h, rfl, _⟩ | ⟨pre, x, post, rfl, h1, h2, rfl, h, h0⟩
  · exact h
  · rw [numel_prod, List.prod_append, List.prod_cons] at h
    rw [numel_prod, numel_prod] at h0
    have hp : ∀ l : List Int, (∀ m ∈ l, 0 ≤ m) → 0 ≤ l.prod := fun l hl => prod_nonneg hl
    have a1 := hp pre h1
    have a2 := hp post h2
    have hx : 0 ≤ x := by
      have hpos : 0 < pre.prod * post.prod := lt_of_le_of_ne (Int.mul_nonneg a1 a2) (Ne.symm h0)
      have : n = x * (pre.prod * post.prod) := by rw [← h]; ring
      by_cases hx : 0 ≤ x
      · exact hx
      · have := Int.mul_neg_of_neg_of_pos (show x < 0 by omega) hpos
        omega
    intro m hm
    rcases List.mem_append.mp hm with hm | hm
    · exact h1 m hm
    · rcases List.mem_cons.mp hm with rfl | hm
      · exact hx
      · exact h2 m hm

theorem typeSizes_append (a b : List (Option Int)) : typeSizes (a ++ b) = typeSizes a ++ typeSizes b := List.map_append

theorem typeSizes_length (a : List (Option Int)) : (typeSizes a).length = a.length := List.length_map _

theorem types_agree {ty : List (Option Int)} {c : List Int} (h : TypeOf ty c) : List.Forall₂ (fun v n => v = unknown ∨ v = n) (typeSizes ty) c :=
  typed_agree (E := Unit) (x := ⟨⟨c, fun _ => none⟩, ty⟩) h

theorem agree_known {o s : List Int} (h : List.Forall₂ (fun v n => v = unknown ∨ v = n) o s) (hu : unknown ∉ o) : o = s := by
  induction h with
  | nil => rfl
  | cons h _ ih => rw [ih (fun hm => hu (by simp [hm])), h.resolve_left (fun e => hu (by simp [e]))]

/-- The groups of the expansion. -/
theorem unflatten_groups (d n k : Nat) : ((List.range d).map (fun i => [i]) ++ List.range' d n :: (List.range' (d + n) k).map fun i => [i]) =
    groupsOf 0 (List.replicate d 1 ++ n :: List.replicate k 1) := by
  rw [groupsOf_append, groupsOf_ones, groupsOf, groupsOf_ones, List.range_eq_range']
  simp

theorem unflatten_expand {y : Operand E} (ht : y.Typed) (hx : ∀ n ∈ y.tensor.sizes, 0 ≤ n) {pre post v tA tM tB : List Int} {n w : Int}
    (hs : y.tensor.sizes = pre ++ n :: post) (hn : v.prod = n) (hA : List.Forall₂ (fun v n => v = unknown ∨ v = n) tA pre)
    (hB : List.Forall₂ (fun v n => v = unknown ∨ v = n) tB post) (hM : Piece tM v) (hty : typeSizes y.type = tA ++ w :: tB) (hw : Verifies w tM) :
    ∃ t, expandTo y (tA ++ tM ++ tB) ((List.range pre.length).map (fun i => [i]) ++ List.range' pre.length v.length ::
      (List.range' (pre.length + v.length) post.length).map fun i => [i]) = .ok t ∧ t.sizes = pre ++ v ++ post ∧ IsReshapeOf t y.tensor := by
  have h0 : y.type.length ≠ 0 := by rw [ht.1, hs]; simp
  have := expandTo_ok hx ht h0 (O := units tA ++ tM :: units tB) (S := units pre ++ v :: units post) ?_ ?_ ?_
  · have e1 : (units tA ++ tM :: units tB).flatten = tA ++ tM ++ tB := by
      rw [List.flatten_append, List.flatten_cons, units_flatten, units_flatten, List.append_assoc]
    have e2 : (units pre ++ v :: units post).flatten = pre ++ v ++ post := by
      rw [List.flatten_append, List.flatten_cons, units_flatten, units_flatten, List.append_assoc]
    have e3 : (units tA ++ tM :: units tB).map List.length = List.replicate pre.length 1 ++ v.length :: List.replicate post.length 1 := by
      rw [List.map_append, List.map_cons, units_length, units_length, hA.length_eq, hB.length_eq, hM.agree.length_eq]
    rw [e1, e2, e3, ← unflatten_groups] at this
    exact this
  · rw [hty]
    exact forall2_append (units_verify tA) (List.Forall₂.cons hw (units_verify tB))
  · rw [hs, List.map_append, List.map_cons, units_prod, units_prod, hn]
  · exact forall2_append (units_piece hA (fun m hm => hx m (by rw [hs]; simp [hm]))) (List.Forall₂.cons hM
      (units_piece hB (fun m hm => hx m (by rw [hs]; simp [hm]))))

theorem piece_known {v : List Int} (h : ∀ m ∈ v, 0 ≤ m) : Piece v v ∧ unknown ∉ v := by
  have hu : unknown ∉ v := fun hm => absurd (h _ hm) (by decide)
  refine ⟨⟨?_, h, by rw [List.count_eq_zero_of_not_mem hu]; decide, fun hm => absurd hm hu⟩, hu⟩
  clear h hu
  induction v with
  | nil => exact List.Forall₂.nil
  | cons a v ih => exact List.Forall₂.cons (Or.inr rfl) ih

theorem count_typeSizes {M : List (Option Int)} (h : ∀ v ∈ M, v ≠ some unknown) : (typeSizes M).count unknown = M.count none := by
  unfold typeSizes
  induction M with
  | nil => rfl
  | cons o M ih =>
    rw [List.map_cons, List.count_cons, List.count_cons, ih fun v hv => h v (by simp [hv])]
    cases o with
    | none => rfl
    | some m =>
      have : m ≠ unknown := fun e => h (some m) (by simp) (by rw [e])
      simp [this]

theorem typeOf_nonneg {ty : List (Option Int)} {c : List Int} (h : TypeOf ty c) (hc : ∀ n ∈ c, 0 ≤ n) : ∀ v ∈ ty, v ≠ some unknown := by
  rintro v hv rfl
  obtain ⟨i, hi, e⟩ := List.mem_iff_getElem.mp hv
  have := h.2 i unknown (by rw [List.getElem?_eq_getElem hi, e])
  have := hc unknown (List.mem_of_getElem? this)
  exact absurd this (by decide)

theorem lowerUnflatten_spec {x : Operand E} (ht : x.Typed) (hx : ∀ n ∈ x.tensor.sizes, 0 ≤ n) {dim : Int} {size pre post v : List Int} {n : Int}
    {A M B : List (Option Int)} (hs : x.tensor.sizes = pre ++ n :: post) (hd : Shape.IsDim x.tensor.sizes.length dim pre.length) (hv : Shape.IsView n size v)
    (hr : TypeOf (A ++ M ++ B) (pre ++ v ++ post)) (hA : A.length = pre.length) (hM : M.length = size.length)
    (hc : (∀ o ∈ A ++ M ++ B, o ≠ none) ∨ (∃ w, x.type = A ++ w :: B ∧ (w = none ↔ none ∈ M) ∧ M.count none ≤ 1 ∧ (none ∈ M → ∀ k ∈ v, 1 ≤ k)) ∨
      (2 ≤ M.count none ∧ v = size)) :
    ∃ t, lowerUnflatten x dim size (A ++ M ++ B) = .ok t ∧ t.sizes = pre ++ v ++ post ∧ IsReshapeOf t x.tensor := by
  obtain ⟨hvl, hvp⟩ := view_length hv
  have hn0 : 0 ≤ n := hx n (by rw [hs]; simp)
  have hv0 := view_nonneg hn0 hv
  have hl : x.type.length = x.tensor.sizes.length := ht.1
  have hlen : x.tensor.sizes.length = pre.length + post.length + 1 := by rw [hs]; simp; omega
  obtain ⟨p1, p2⟩ := toPositiveDim_of hd (by omega)
  have hc0 : ∀ m ∈ pre ++ v ++ post, 0 ≤ m := by
    intro m hm
    rcases List.mem_append.mp hm with hm | hm
    · rcases List.mem_append.mp hm with hm | hm
      · exact hx m (by rw [hs]; simp [hm])
      · exact hv0 m hm
    · exact hx m (by rw [hs]; simp [hm])
  have hnu := typeOf_nonneg hr hc0
  have hag := types_agree hr
  rw [typeSizes_append, typeSizes_append, List.append_assoc] at hag
  obtain ⟨a', r1, q1, hAa, hag2⟩ := forall2_split _ hag
  obtain ⟨m', b', q2, hMm, hBb⟩ := forall2_split _ hag2
  subst q2
  rw [List.append_assoc] at q1
  obtain ⟨q1, q2⟩ := List.append_inj q1 (by rw [← hAa.length_eq, typeSizes_length, hA])
  obtain ⟨q2, q3⟩ := List.append_inj q2 (by rw [← hMm.length_eq, typeSizes_length, hM, hvl])
  subst q1 q2 q3
  have hBl : B.length = post.length := by rw [← hBb.length_eq, typeSizes_length]
  have tk : (typeSizes (A ++ M ++ B)).take pre.length = typeSizes A := by
    rw [typeSizes_append, typeSizes_append, List.append_assoc, List.take_append_of_le_length (by rw [typeSizes_length]; omega), List.take_of_length_le (by rw [typeSizes_length]; omega)]
  have dr : (typeSizes (A ++ M ++ B)).drop pre.length = typeSizes M ++ typeSizes B := by
    rw [typeSizes_append, typeSizes_append, List.append_assoc, ← hA, ← typeSizes_length A, List.drop_left]
  have mid : (typeSizes M ++ typeSizes B).take size.length = typeSizes M := by rw [← hM, ← typeSizes_length M, List.take_left]
  have rst : (typeSizes (A ++ M ++ B)).drop (pre.length + size.length) = typeSizes B := by
    rw [← List.drop_drop, dr, ← hM, ← typeSizes_length M, List.drop_left]
  unfold lowerUnflatten
  dsimp only
  rw [hl, p1, p2, if_neg (by simp), Int.toNat_natCast, tk, dr, mid, rst, count_typeSizes (fun v hv => hnu v (by simp [hv])), typeSizes_append, typeSizes_append, hlen,
    show pre.length + post.length + 1 - (pre.length + 1) = post.length by omega, ← hvl]
  by_cases hcast : (x.type.any (·.isNone) && (A ++ M ++ B).all (·.isSome)) = true
  · -- everything is known of the result
    have hall : ∀ o ∈ A ++ M ++ B, o ≠ none := by
      intro o ho e
      have := List.all_eq_true.mp (Bool.and_eq_true _ _ ▸ hcast).2 o ho
      rw [e] at this
      cases this
    have known : ∀ (l : List (Option Int)), (∀ o ∈ l, o ∈ A ++ M ++ B) → unknown ∉ typeSizes l := by
      intro l hl hm
      obtain ⟨o, ho, e⟩ := List.mem_map.mp hm
      cases o with
      | none => exact hall _ (hl _ ho) rfl
      | some k => exact hnu _ (hl _ ho) (by rw [show k = unknown from e])
    have eA := agree_known hAa (known A (by simp +contextual))
    have eM := agree_known hMm (known M (by simp +contextual))
    have eB := agree_known hBb (known B (by simp +contextual))
    rw [hcast, eA, eM, eB, hvp, ← hs]
    have hok : TypeOf (x.tensor.sizes.map some) x.tensor.sizes := by
      refine ⟨by simp, fun d k hd => ?_⟩
      rw [List.getElem?_map] at hd
      cases hq : x.tensor.sizes[d]? with
      | none => rw [hq] at hd; cases hd
      | some j => rw [hq] at hd; simp at hd; rw [hd]
    rw [castOk_iff.mpr hok, if_neg (by simp)]
    have hcount : M.count none = 0 := List.count_eq_zero_of_not_mem fun hm => hall none (by simp [hm]) rfl
    rw [if_pos (by omega), if_pos rfl]
    have hts : typeSizes (x.tensor.sizes.map some) = x.tensor.sizes := by
      unfold typeSizes
      rw [List.map_map, List.map_congr_left (g := id), List.map_id]
      intro a _
      rfl
    refine unflatten_expand (y := ⟨x.tensor, x.tensor.sizes.map some⟩) hok hx hs hvp ?_ ?_ (piece_known hv0).1 (w := n) (by rw [hts, hs]) (Or.inr ⟨(piece_known hv0).2, hvp.symm⟩)
    · rw [eA] at hAa; exact hAa
    · rw [eB] at hBb; exact hBb
  · rw [Bool.not_eq_true] at hcast
    rw [hcast, Bool.false_and, if_neg (show ¬(false = true) by simp), if_neg (show ¬(false = true) by simp)]
    by_cases h2 : M.count none < 2
    · rw [if_pos h2]
      have hty : ∃ w, x.type = A ++ w :: B ∧ (w = none ↔ none ∈ M) ∧ (none ∈ M → ∀ k ∈ v, 1 ≤ k) := by
        rcases hc with hc | ⟨w, e1, e2, _, e3⟩ | ⟨hc, _⟩
        · -- the input is known
          have hall2 : ∀ o ∈ x.type, o ≠ none := by
            rintro o ho rfl
            rw [Bool.and_eq_false_iff] at hcast
            rcases hcast with h | h
            · exact absurd (List.any_eq_false.mp h none ho) (by simp)
            · rw [List.all_eq_false] at h
              obtain ⟨o, ho, h⟩ := h
              cases o with
              | none => exact hc none ho rfl
              | some => simp at h
          have full : ∀ {ty : List (Option Int)} {c : List Int}, TypeOf ty c → (∀ o ∈ ty, o ≠ none) → ty = c.map some := by
            intro ty c h hk
            refine List.ext_getElem? fun i => ?_
            by_cases hi : i < ty.length
            · have hm : ty[i] ∈ ty := List.getElem_mem hi
              cases hq : ty[i] with
              | none => exact absurd hq (hk _ hm)
              | some k =>
                rw [List.getElem?_eq_getElem hi, hq, List.getElem?_map, h.2 i k (by rw [List.getElem?_eq_getElem hi, hq])]
                rfl
            · rw [List.getElem?_eq_none (by omega), List.getElem?_eq_none (by rw [List.length_map, ← h.1]; omega)]
          have f1 := full ht hall2
          have f2 := full hr hc
          rw [List.map_append, List.map_append] at f2
          obtain ⟨f2, f3⟩ := List.append_inj f2 (by simp [hA, hM, hvl])
          obtain ⟨f2, f4⟩ := List.append_inj f2 (by simp [hA])
          refine ⟨some n, by rw [f1, hs, f2, f3]; simp, ⟨(fun h => by cases h), fun h => absurd rfl (hc none (by simp [h]))⟩, fun h => absurd rfl (hc none (by simp [h]))⟩
        · exact ⟨w, e1, e2, e3⟩
        · omega
      obtain ⟨w, e1, e2, e3⟩ := hty
      have hun : none ∈ M ↔ unknown ∈ typeSizes M := by
        rw [← List.count_pos_iff, ← List.count_pos_iff (l := typeSizes M), count_typeSizes (fun v hv => hnu v (by simp [hv]))]
      refine unflatten_expand ht hx hs hvp hAa hBb ⟨hMm, hv0, by rw [count_typeSizes (fun v hv => hnu v (by simp [hv]))]; omega, fun hm => ?_⟩
        (w := w.getD unknown) (by rw [e1, typeSizes_append]; rfl) ?_
      · have hpos := e3 (hun.mpr hm)
        have : ∀ {o s : List Int}, List.Forall₂ (fun v n => v = unknown ∨ v = n) o s → (∀ k ∈ s, 1 ≤ k) → (o.filter fun v => decide (v ≠ unknown)).prod ≠ 0 := by
          intro o s h
          induction h with
          | nil => intro _; decide
          | @cons p q o s h _ ih =>
            intro hk
            have ih := ih fun k hk' => hk k (by simp [hk'])
            rw [List.filter_cons]
            split
            · rename_i hp
              rw [List.prod_cons]
              refine mul_ne_zero ?_ ih
              have := hk q (by simp)
              rcases h with h | h
              · exact absurd h (of_decide_eq_true hp)
              · omega
            · exact ih
        exact this hMm hpos
      · by_cases hw : w = none
        · exact Or.inl ⟨hun.mp (e2.mp hw), by rw [hw]; rfl⟩
        · have hm : unknown ∉ typeSizes M := fun h => hw (e2.mpr (hun.mpr h))
          refine Or.inr ⟨hm, ?_⟩
          rw [agree_known hMm hm, hvp]
          cases w with
          | none => exact absurd rfl hw
          | some k =>
            have := ht.2 pre.length k (by rw [e1, List.getElem?_append_right (by omega), hA, Nat.sub_self]; simp)
            rw [hs, List.getElem?_append_right (Nat.le_refl _), Nat.sub_self] at this
            simp at this
            exact this.symm
    · rw [if_neg h2]
      have hsz : v = size := by
        rcases hc with hc | ⟨_, _, _, e, _⟩ | ⟨_, e⟩
        · have : M.count none = 0 := List.count_eq_zero_of_not_mem fun hm => hc none (by simp [hm]) rfl
          omega
        · omega
        · exact e
      subst hsz
      have e : x.tensor.sizes.take pre.length ++ v ++ x.tensor.sizes.drop (pre.length + 1) = pre ++ v ++ post := by
        rw [hs, List.take_left, ← List.drop_drop, List.drop_left]
        rfl
      rw [e]
      have hres : ∃ t, reshape x.tensor (pre ++ v ++ post) = .ok t := by
        unfold reshape
        rw [if_pos]
        · exact ⟨_, rfl⟩
        · refine ⟨by rw [List.all_eq_true]; intro m hm; exact decide_eq_true (hc0 m hm), ?_⟩
          rw [hs, List.prod_append, List.prod_append, List.prod_append, List.prod_cons, hvp]
          ring
      obtain ⟨t, he⟩ := hres
      obtain ⟨o1, o2⟩ := reshape_ok hx he
      refine ⟨t, ?_, o1, o2⟩
      rw [he]
      show (if castOk (A ++ M ++ B) t.sizes = true then Outcome.ok t else .bad) = _
      rw [o1, if_pos (castOk_iff.mpr hr)]

end Verif.Lin
