import Verif.Lemmas.LinMatmul

/-! # Lemmas for C96: batches -/

namespace Verif.Mat

open Lin Red

variable {A B C R : Type}

theorem broadcasts_matrix {lb batch : List Int} (h : BroadcastsTo lb batch) (m k : Int) : BroadcastsTo (lb ++ [m, k]) (batch ++ [m, k]) := by
  refine ⟨by simpa using h.1, fun d n hd => ?_⟩
  have hle := h.1
  rw [show (batch ++ [m, k]).length - (lb ++ [m, k]).length = batch.length - lb.length by simp]
  rcases Nat.lt_or_ge d lb.length with hlt | hge
  · rw [List.getElem?_append_left hlt] at hd
    rcases h.2 d n hd with h1 | h1
    · exact .inl h1
    · right
      rw [List.getElem?_append_left (by omega)]
      exact h1
  · rw [List.getElem?_append_right hge] at hd
    right
    rw [List.getElem?_append_right (by omega), show d + (batch.length - lb.length) - batch.length = d - lb.length by omega]
    exact hd

theorem bcIndex_matrix {lb batch b : List Int} (hle : lb.length ≤ batch.length) (hb : b.length = batch.length) {m k i l : Int} (hi : 0 ≤ i ∧ i < m)
    (hl : 0 ≤ l ∧ l < k) : bcIndex (lb ++ [m, k]) (b ++ [i, l]) = bcIndex lb b ++ [i, l] := by
  unfold bcIndex
  rw [show (b ++ [i, l]).length - (lb ++ [m, k]).length = b.length - lb.length by simp, List.drop_append_of_le_length (by omega),
    List.zipWith_append (by rw [List.length_drop]; omega)]
  congr 1
  simp only [List.zipWith_cons_cons, List.zipWith_nil_left]
  congr 1
  · by_cases h : m = 1
    · rw [if_pos h]; omega
    · rw [if_neg h]
  · congr 1
    by_cases h : k = 1
    · rw [if_pos h]; omega
    · rw [if_neg h]

theorem inRange_matrix {batch b : List Int} (hb : inRange batch b = true) {m n i j : Int} (hi : 0 ≤ i ∧ i < m) (hj : 0 ≤ j ∧ j < n) :
    inRange (batch ++ [m, n]) (b ++ [i, j]) = true := by
  rw [inRange_append (inRange_length hb), hb]
  simp [inRange, hi, hj]

theorem broadcast_get {E : Type} {L x : Tensor E} {lb batch b : List Int} {m k i l : Int} {vx : List Int → E} (hs : x.sizes = lb ++ [m, k])
    (hx : Pool.Holds x vx) (hbc : BroadcastsTo lb batch) (hL : IsBroadcastOf L x (batch ++ [m, k])) (hb : inRange batch b = true) (hi : 0 ≤ i ∧ i < m)
    (hl : 0 ≤ l ∧ l < k) : inRange L.sizes (b ++ [i, l]) = true ∧ L.elem (b ++ [i, l]) = some (vx (bcIndex lb b ++ [i, l])) := by
  have hr := inRange_matrix hb hi hl
  refine ⟨by rw [hL.1]; exact hr, ?_⟩
  have hr2 := bcIndex_range (broadcasts_matrix hbc m k) hr
  rw [hL.2 _ hr, hs, hx _ (by rw [hs]; exact hr2), bcIndex_matrix hbc.1 (inRange_length hb) hi hl]

theorem foldMul_none : ∀ (l : List (Option Int)), (∀ v, some v ∈ l → v ≠ 0) → l.foldl foldMul none = none
  | [], _ => rfl
  | none :: l, h => by rw [List.foldl_cons]; exact foldMul_none l fun v hv => h v (by simp [hv])
  | some v :: l, h => by
    rw [List.foldl_cons, show foldMul none (some v) = none from if_neg (h v (by simp))]
    exact foldMul_none l fun v hv => h v (by simp [hv])

theorem foldMul_spec {l : List (Option Int)} {sizes : List Int} (ht : List.Forall₂ (fun o n => ∀ v, o = some v → v = n) l sizes) (hpos : ∀ n ∈ sizes, 0 < n) :
    ∀ a : Int, a ≠ 0 → (none ∈ l ∧ l.foldl foldMul (some a) = none) ∨ (none ∉ l ∧ l = sizes.map some ∧ l.foldl foldMul (some a) = some (a * sizes.prod)) := by
  induction ht with
  | nil => intro a _; right; simp
  | @cons o n l sizes h1 h2 ih =>
    intro a ha
    have hl : ∀ v, some v ∈ l → v ≠ 0 := by
      intro v hv
      obtain ⟨i, hi⟩ := List.getElem?_of_mem hv
      have hlen := h2.length_eq
      have hil : i < l.length := by
        by_cases h : i < l.length
        · exact h
        · rw [List.getElem?_eq_none (by omega)] at hi; cases hi
      rw [List.getElem?_eq_getElem hil, Option.some.injEq] at hi
      have h3 := (List.forall₂_iff_get.1 h2).2 i hil (by omega)
      simp only [List.get_eq_getElem] at h3
      have h4 := h3 v hi
      have h5 := hpos sizes[i] (by simp)
      omega
    cases o with
    | none =>
      left
      refine ⟨by simp, ?_⟩
      rw [List.foldl_cons, show foldMul (some a) none = none from if_neg ha]
      exact foldMul_none l hl
    | some v =>
      have hv := h1 v rfl
      subst hv
      have hv0 : v ≠ 0 := by have := hpos v (by simp); omega
      rw [List.foldl_cons]
      show _ ∨ _
      rcases ih (fun n hn => hpos n (by simp [hn])) (a * v) (Int.mul_ne_zero ha hv0) with ⟨g1, g2⟩ | ⟨g1, g2, g3⟩
      · left
        exact ⟨by simp [g1], g2⟩
      · right
        refine ⟨by simp [g1], by rw [List.map_cons, ← g2], ?_⟩
        rw [List.prod_cons, ← Int.mul_assoc]
        exact g3

theorem count_unknown {l : List (Option Int)} {sizes : List Int} (ht : List.Forall₂ (fun o n => ∀ v, o = some v → v = n) l sizes) (hpos : ∀ n ∈ sizes, 0 < n) :
    (typeSizes l).count unknown ≤ l.count none := by
  induction ht with
  | nil => simp [typeSizes]
  | @cons o n l sizes h1 h2 ih =>
    have := ih fun n hn => hpos n (by simp [hn])
    unfold typeSizes at this ⊢
    rw [List.map_cons]
    cases o with
    | none => simpa using this
    | some v =>
      have hv := h1 v rfl
      have hn := hpos n (by simp)
      have : v ≠ unknown := by rw [hv]; intro h; rw [h] at hn; revert hn; decide
      simp only [Option.getD_some]
      rw [List.count_cons_of_ne this, List.count_cons_of_ne (by simp)]
      assumption

theorem batchGroups_eq (n : Nat) : batchGroups n = groupsOf 0 [n, 1, 1] := by
  unfold batchGroups
  simp [groupsOf, List.range_eq_range']

theorem typeSizes_append (a b : List (Option Int)) : typeSizes (a ++ b) = typeSizes a ++ typeSizes b := by simp [typeSizes]

/-- A tensor with the batch in one dimension. -/
theorem collapsed_get {E : Type} {L : Tensor E} {batch b : List Int} {m k i l : Int} (hs : L.sizes = batch ++ [m, k]) (hpos : ∀ n ∈ L.sizes, 0 ≤ n)
    (hb : inRange batch b = true) (hi : 0 ≤ i ∧ i < m) (hl : 0 ≤ l ∧ l < k) :
    (collapseShape L (batchGroups batch.length)).get [position batch b, i, l] = L.elem (b ++ [i, l]) := by
  have hre : IsReshapeOf (collapseShape L (batchGroups batch.length)) L := collapse_reshape hpos (by
    rw [batchGroups_eq, groupsOf_flatten, hs, List.range_eq_range']
    simp)
  have hz : (collapseShape L (batchGroups batch.length)).sizes = [batch.prod, m, k] := by
    unfold collapseShape batchGroups
    simp only [List.map_cons, List.map_nil, List.prod_cons, List.prod_nil, Int.mul_one, hs]
    congr 1
    · congr 1
      apply List.ext_getElem?
      intro d
      rcases Nat.lt_or_ge d batch.length with h | h
      · simp [List.getElem?_map, List.getElem?_range h, List.getD_eq_getElem?_getD, List.getElem?_append_left h, List.getElem?_eq_getElem h]
      · rw [List.getElem?_eq_none (by simpa using h), List.getElem?_eq_none h]
    · simp [List.getD_eq_getElem?_getD]
  have hp := position_bound hb
  have hr : inRange (collapseShape L (batchGroups batch.length)).sizes [position batch b, i, l] = true := by
    rw [hz]
    simp [inRange, hi, hl, hp]
  rw [get_of_range hr]
  refine hre.2.2.2 _ _ hr (by rw [hs]; exact inRange_matrix hb hi hl) ?_
  rw [hz, hs, position_append _ _ _ _ (inRange_length hb).symm]
  simp [position]

theorem batched_spec (kind : Kind) (ar : Arith A B C R) (x : Operand A) (y : Operand B) (hx : x.Typed) (hy : y.Typed) {lb rb batch : List Int} {m k n : Int}
    (hl : x.tensor.sizes = lb ++ [m, k]) (hr : y.tensor.sizes = rb ++ [k, n]) (hm : 0 ≤ m) (hk : 0 ≤ k) (hn : 0 ≤ n) (vx : List Int → A) (vy : List Int → B)
    (hvx : Pool.Holds x.tensor vx) (hvy : Pool.Holds y.tensor vy) (hbl : BroadcastsTo lb batch) (hbr : BroadcastsTo rb batch) (hpos : ∀ d ∈ batch, 0 < d)
    (hne : batch ≠ []) (bty : List (Option Int)) (hbty : List.Forall₂ (fun o n => ∀ v, o = some v → v = n) bty batch) (L : Tensor A) (Rt : Tensor B)
    (hL : IsBroadcastOf L x.tensor (batch ++ [m, k])) (hR : IsBroadcastOf Rt y.tensor (batch ++ [k, n])) (resTy : List (Option Int))
    (hres : resTy = bty ++ [dimTy x (x.type.length - 2), dimTy y (y.type.length - 1)])
    (hkind : kind = .float ∨ batch.length ≤ 1 ∨ bty.count none ≤ 1) (bd : List (Int × Option Int)) (h1 : bd.map (·.1) = batch) (h2 : bd.map (·.2) = bty) :
    ∃ t, batched kind ar x y bd L Rt resTy = .ok t ∧ IsProduct ar t batch lb rb m k n vx vy := by
  obtain ⟨hlx, hx2, hx1⟩ := dim_last hl hx
  obtain ⟨hly, hy2, hy1⟩ := dim_last hr hy
  have hlen : bd.length = batch.length := by rw [← h1, List.length_map]
  have hbl' : bty.length = batch.length := by rw [← h2, ← hlen, List.length_map]
  have htype : TypeOf resTy (batch ++ [m, n]) := by
    rw [hres]
    refine ⟨by simp [hbl'], fun d v hd => ?_⟩
    rcases Nat.lt_or_ge d bty.length with hlt | hge
    · rw [List.getElem?_append_left hlt, List.getElem?_eq_getElem hlt, Option.some.injEq] at hd
      rw [List.getElem?_append_left (by omega), List.getElem?_eq_getElem (by omega)]
      have := (List.forall₂_iff_get.1 hbty).2 d hlt (by omega)
      simp only [List.get_eq_getElem] at this
      rw [this v hd]
    · rw [List.getElem?_append_right hge] at hd
      rw [List.getElem?_append_right (by omega), ← hbl']
      match hq : d - bty.length with
      | 0 =>
        rw [hq] at hd
        simp only [List.getElem?_cons_zero, Option.some.injEq] at hd ⊢
        rw [← hx2]
        exact (dimTy_dim hx hd).symm
      | 1 =>
        rw [hq] at hd
        simp only [List.getElem?_cons_succ, List.getElem?_cons_zero, Option.some.injEq] at hd ⊢
        rw [← hy1]
        exact (dimTy_dim hy hd).symm
      | q + 2 => rw [hq] at hd; simp at hd
  have hgL : ∀ b i l, inRange batch b = true → 0 ≤ i ∧ i < m → 0 ≤ l ∧ l < k → L.get (b ++ [i, l]) = some (vx (bcIndex lb b ++ [i, l])) := by
    intro b i l hb hi hl'
    obtain ⟨g1, g2⟩ := broadcast_get hl hvx hbl hL hb hi hl'
    rw [get_of_range g1, g2]
  have hgR : ∀ b l j, inRange batch b = true → 0 ≤ l ∧ l < k → 0 ≤ j ∧ j < n → Rt.get (b ++ [l, j]) = some (vy (bcIndex rb b ++ [l, j])) := by
    intro b l j hb hi hl'
    obtain ⟨g1, g2⟩ := broadcast_get hr hvy hbr hR hb hi hl'
    rw [get_of_range g1, g2]
  unfold batched
  simp only [hx2, hx1, hy1, h1, h2, hlen]
  by_cases h0 : batch.length = 1
  · rw [if_pos h0]
    obtain ⟨t, e1, e2, e3⟩ := close_ok ar resTy (contract ar L Rt (batch ++ at2 m n) k (fun idx k => idx.take 1 ++ at2 (idx.getD 1 0) k)
      (fun idx k => idx.take 1 ++ at2 k (idx.getD (1 + 1) 0))) htype
    refine ⟨t, e1, e2, fun b i j hb hi0 hi hj0 hj => ?_⟩
    rw [e3 _ (inRange_matrix hb ⟨hi0, hi⟩ ⟨hj0, hj⟩)]
    have hbl1 : b.length = 1 := by rw [inRange_length hb, h0]
    obtain ⟨b0, rfl⟩ := List.length_eq_one_iff.1 hbl1
    exact contract_elem _ _ _ _ _ _ _ _ _ _ (fun l l0 l1 => hgL _ _ _ hb ⟨hi0, hi⟩ ⟨l0, l1⟩) (fun l l0 l1 => hgR _ _ _ hb ⟨l0, l1⟩ ⟨hj0, hj⟩)
  rw [if_neg h0]
  have hcount : resTy.take (resTy.length - 2) = bty := by
    rw [hres, show (bty ++ [dimTy x (x.type.length - 2), dimTy y (y.type.length - 1)]).length - 2 = bty.length by simp, List.take_left']
    rfl
  rw [hcount]
  by_cases hc : bty.count none ≤ 1
  · rw [if_pos hc]
    generalize ht : contract ar (collapseShape L (batchGroups batch.length)) (collapseShape Rt (batchGroups batch.length)) (batch.prod :: at2 m n) k
      (fun idx k => idx.take 1 ++ at2 (idx.getD 1 0) k) (fun idx k => idx.take 1 ++ at2 k (idx.getD (1 + 1) 0)) = t
    have hts : t.sizes = [batch.prod, m, n] := by rw [← ht]; rfl
    have hfm := foldMul_spec hbty hpos 1 (by decide)
    have hposL : ∀ d ∈ batch ++ [m, k], 0 ≤ d := by
      intro d hd
      rcases List.mem_append.1 hd with h | h
      · exact Int.le_of_lt (hpos d h)
      · simp only [List.mem_cons, List.not_mem_nil, or_false] at h
        rcases h with rfl | rfl <;> assumption
    have hposR : ∀ d ∈ batch ++ [k, n], 0 ≤ d := by
      intro d hd
      rcases List.mem_append.1 hd with h | h
      · exact Int.le_of_lt (hpos d h)
      · simp only [List.mem_cons, List.not_mem_nil, or_false] at h
        rcases h with rfl | rfl <;> assumption
    have hprod : 0 < batch.prod := by
      clear hfm ht hts hL hR hgL hgR hbl hbr hbty hlen hbl' hne htype h0 h1 hposL hposR hc hkind
      induction batch with
      | nil => decide
      | cons a l ih => rw [List.prod_cons]; exact Int.mul_pos (hpos a (by simp)) (ih fun d hd => hpos d (by simp [hd]))
    have hagree : List.Forall₂ (fun v n => v = unknown ∨ v = n) (typeSizes bty) batch := by
      rw [typeSizes, List.forall₂_map_left_iff]
      refine hbty.imp fun o n h => ?_
      cases o with
      | none => exact .inl rfl
      | some v => exact .inr (h v rfl)
    have hknown : ∀ {E : Type} (o : Operand E) (_ : o.Typed) (d : Nat), (dimTy o d).getD unknown = unknown ∨ (dimTy o d).getD unknown = dim o d := by
      intro E o ho d
      cases h : dimTy o d with
      | none => exact .inl rfl
      | some v => exact .inr (dimTy_dim ho h)
    have hxm := hknown x hx (x.type.length - 2)
    have hyn := hknown y hy (y.type.length - 1)
    rw [hx2] at hxm
    rw [hy1] at hyn
    obtain ⟨T, e1, e2, e3⟩ := expandTo_ok (x := ⟨t, [bty.foldl foldMul (some 1), dimTy x (x.type.length - 2), dimTy y (y.type.length - 1)]⟩)
      (O := [typeSizes bty, [(dimTy x (x.type.length - 2)).getD unknown], [(dimTy y (y.type.length - 1)).getD unknown]]) (S := [batch, [m], [n]])
      (by
        rw [hts]
        intro d hd
        simp only [List.mem_cons, List.not_mem_nil, or_false] at hd
        rcases hd with rfl | rfl | rfl
        · exact Int.le_of_lt hprod
        · exact hm
        · exact hn)
      (by
        refine ⟨by rw [hts]; rfl, ?_⟩
        rw [hts]
        intro d v hd
        match d with
        | 0 =>
          simp only [List.getElem?_cons_zero, Option.some.injEq] at hd ⊢
          rcases hfm with ⟨_, g⟩ | ⟨_, _, g⟩
          · rw [g] at hd; cases hd
          · rw [g, Option.some.injEq, Int.one_mul] at hd
            exact hd
        | 1 =>
          simp only [List.getElem?_cons_succ, List.getElem?_cons_zero, Option.some.injEq] at hd ⊢
          rw [dimTy_dim hx hd, hx2]
        | 2 =>
          simp only [List.getElem?_cons_succ, List.getElem?_cons_zero, Option.some.injEq] at hd ⊢
          rw [dimTy_dim hy hd, hy1]
        | d + 3 => simp at hd)
      (by simp)
      (by
        have hone : ∀ v : Int, Verifies v [v] := fun v => (List.forall₂_cons.1 (units_verify [v])).1
        refine .cons ?_ (.cons (hone _) (.cons (hone _) .nil))
        rcases hfm with ⟨g0, g⟩ | ⟨g0, g1, g⟩
        · left
          rw [g]
          exact ⟨List.mem_map.2 ⟨none, g0, rfl⟩, rfl⟩
        · right
          rw [g]
          have : typeSizes bty = batch := by
            rw [g1, typeSizes, List.map_map]
            exact List.map_id'' (fun _ => rfl) _
          rw [this]
          refine ⟨fun h => ?_, by simp⟩
          have := hpos _ h
          revert this
          decide)
      (by rw [hts]; simp)
      (by
        refine .cons ?_ (.cons (piece_one hxm hm) (.cons (piece_one hyn hn) .nil))
        refine ⟨hagree, fun d hd => Int.le_of_lt (hpos d hd), ?_, fun _ => ?_⟩
        · have := count_unknown hbty hpos
          omega
        · refine Int.ne_of_gt ?_
          clear * - hagree hpos
          generalize typeSizes bty = o at hagree
          induction hagree with
          | nil => decide
          | @cons v n o s h1 h2 ih =>
            have hn := hpos n (by simp)
            have := ih fun d hd => hpos d (by simp [hd])
            rw [List.filter_cons]
            by_cases hv : v = unknown
            · simpa [hv] using this
            · rcases h1 with h1 | h1
              · exact absurd h1 hv
              · simp only [hv, ne_eq, not_false_eq_true, decide_true, if_true, List.prod_cons]
                rw [h1]
                exact Int.mul_pos hn this)
    rw [show groupsOf 0 (List.map List.length [typeSizes bty, [(dimTy x (x.type.length - 2)).getD unknown], [(dimTy y (y.type.length - 1)).getD unknown]]) =
      batchGroups batch.length by rw [batchGroups_eq]; simp [typeSizes, hbl']] at e1
    rw [show List.flatten [typeSizes bty, [(dimTy x (x.type.length - 2)).getD unknown], [(dimTy y (y.type.length - 1)).getD unknown]] = typeSizes resTy by
      rw [hres, typeSizes_append]; simp [typeSizes]] at e1
    rw [e1]
    have e2' : T.sizes = batch ++ [m, n] := by rw [e2]; simp
    obtain ⟨r, c1, c2, c3⟩ := close_ok ar resTy T (by rw [e2']; exact htype)
    refine ⟨r, c1, by rw [c2, e2'], fun b i j hb hi0 hi hj0 hj => ?_⟩
    have hin := inRange_matrix hb ⟨hi0, hi⟩ ⟨hj0, hj⟩
    rw [c3 _ (by rw [e2']; exact hin)]
    have hp := position_bound hb
    rw [e3.2.2.2 (b ++ [i, j]) [position batch b, i, j] (by rw [e2']; exact hin) (by rw [hts]; simp [inRange, hp, hi0, hi, hj0, hj])
      (by rw [e2', hts, position_append _ _ _ _ (inRange_length hb).symm]; simp [position]), ← ht]
    change Option.map ar.finish ((contract ar (collapseShape L (batchGroups batch.length)) (collapseShape Rt (batchGroups batch.length))
      (batch.prod :: at2 m n) k (fun idx k => idx.take 1 ++ at2 (idx.getD 1 0) k) (fun idx k => idx.take 1 ++ at2 k (idx.getD (1 + 1) 0))).elem
        [position batch b, i, j]) = _
    refine contract_elem ar _ _ _ _ _ _ _ (fun l => vx (bcIndex lb b ++ [i, l])) (fun l => vy (bcIndex rb b ++ [l, j])) (fun l l0 l1 => ?_) (fun l l0 l1 => ?_)
    · have := collapsed_get hL.1 (by rw [hL.1]; exact hposL) hb ⟨hi0, hi⟩ ⟨l0, l1⟩
      obtain ⟨g1, g2⟩ := broadcast_get hl hvx hbl hL hb ⟨hi0, hi⟩ ⟨l0, l1⟩
      exact this.trans g2
    · have := collapsed_get hR.1 (by rw [hR.1]; exact hposR) hb ⟨l0, l1⟩ ⟨hj0, hj⟩
      obtain ⟨g1, g2⟩ := broadcast_get hr hvy hbr hR hb ⟨l0, l1⟩ ⟨hj0, hj⟩
      exact this.trans g2
  · rw [if_neg hc, if_neg (by rcases hkind with h | h | h <;> [simp [h]; (exfalso; exact h0 (by have := List.length_pos_iff.2 hne; omega)); exact absurd h hc])]
    obtain ⟨t, e1, e2, e3⟩ := close_ok ar resTy (contract ar L Rt (batch ++ at2 m n) k (fun idx k => idx.take batch.length ++ at2 (idx.getD batch.length 0) k)
      (fun idx k => idx.take batch.length ++ at2 k (idx.getD (batch.length + 1) 0))) htype
    refine ⟨t, e1, e2, fun b i j hb hi0 hi hj0 hj => ?_⟩
    rw [e3 _ (inRange_matrix hb ⟨hi0, hi⟩ ⟨hj0, hj⟩)]
    have hbl1 : b.length = batch.length := inRange_length hb
    have t1 : (b ++ [i, j]).take batch.length = b := by rw [← hbl1, List.take_left']; rfl
    have t2 : (b ++ [i, j]).getD batch.length 0 = i := by rw [← hbl1, List.getD_eq_getElem?_getD, List.getElem?_append_right (by omega)]; simp
    have t3 : (b ++ [i, j]).getD (batch.length + 1) 0 = j := by rw [← hbl1, List.getD_eq_getElem?_getD, List.getElem?_append_right (by omega)]; simp
    exact contract_elem _ _ _ _ _ _ _ _ _ _ (fun l l0 l1 => by rw [t1, t2]; exact hgL _ _ _ hb ⟨hi0, hi⟩ ⟨l0, l1⟩)
      (fun l l0 l1 => by rw [t1, t3]; exact hgR _ _ _ hb ⟨l0, l1⟩ ⟨hj0, hj⟩)

end Verif.Mat
