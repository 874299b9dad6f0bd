import Verif.Lemmas.LinMatmulBatch

/-! # Lemmas for C96: all batches, vectors and integers -/

namespace Verif.Mat

open Lin Red

variable {A B C R : Type}

theorem type_matrix {E : Type} {x : Operand E} {lb batch : List Int} {m k : Int} (hx : x.Typed) (hl : x.tensor.sizes = lb ++ [m, k]) {bty : List (Option Int)}
    (hbty : List.Forall₂ (fun o n => ∀ v, o = some v → v = n) bty batch) :
    TypeOf (bty ++ [dimTy x (x.type.length - 2), dimTy x (x.type.length - 1)]) (batch ++ [m, k]) := by
  obtain ⟨hlx, hx2, hx1⟩ := dim_last hl hx
  have hlen := hbty.length_eq
  refine ⟨by simp [hlen], fun d v hd => ?_⟩
  rcases Nat.lt_or_ge d bty.length with hlt | hge
  · rw [List.getElem?_append_left hlt, List.getElem?_eq_getElem hlt, Option.some.injEq] at hd
    rw [List.getElem?_append_left (by omega), List.getElem?_eq_getElem (by omega)]
    have := (List.forall₂_iff_get.1 hbty).2 d hlt (by omega)
    simp only [List.get_eq_getElem] at this
    rw [this v hd]
  · rw [List.getElem?_append_right hge] at hd
    rw [List.getElem?_append_right (by omega), ← hlen]
    match hq : d - bty.length with
    | 0 =>
      rw [hq] at hd
      simp only [List.getElem?_cons_zero, Option.some.injEq] at hd ⊢
      rw [← hx2]
      exact (dimTy_dim hx hd).symm
    | 1 =>
      rw [hq] at hd
      simp only [List.getElem?_cons_succ, List.getElem?_cons_zero, Option.some.injEq] at hd ⊢
      rw [← hx1]
      exact (dimTy_dim hx hd).symm
    | q + 2 => rw [hq] at hd; simp at hd

theorem matmul_spec (strict : Bool) (kind : Kind) (ar : Arith A B C R) (x : Operand A) (y : Operand B) (hx : x.Typed) (hy : y.Typed)
    {lb rb batch : List Int} {m k n : Int} (hl : x.tensor.sizes = lb ++ [m, k]) (hr : y.tensor.sizes = rb ++ [k, n]) (hm : 0 ≤ m) (hk : 0 ≤ k) (hn : 0 ≤ n)
    (vx : List Int → A) (vy : List Int → B) (hvx : Pool.Holds x.tensor vx) (hvy : Pool.Holds y.tensor vy) (hc : IsCommonShape [lb, rb] batch)
    (hpos : ∀ d ∈ batch, 0 < d) (hne : batch ≠ []) (hdx : NoDynamicBroadcast x (batch ++ [m, k]) fun _ => True)
    (hdy : NoDynamicBroadcast y (batch ++ [k, n]) fun _ => True) (resTy : List (Option Int)) (hty : TypeOf resTy (batch ++ [m, n]))
    (hres : Precise resTy x.type y.type) (hkind : kind = .float ∨ batch.length ≤ 1 ∨ (resTy.take batch.length).count none ≤ 1) :
    ∃ t, lowerMatmul strict kind ar x y resTy = .ok t ∧ IsProduct ar t batch lb rb m k n vx vy := by
  obtain ⟨hlx, hx2, hx1⟩ := dim_last hl hx
  obtain ⟨hly, hy2, hy1⟩ := dim_last hr hy
  have hN := common_length hc
  have hNpos := List.length_pos_iff.2 hne
  have hbl := hc.1 lb (by simp)
  have hbr := hc.1 rb (by simp)
  have hspec := fun p (hp : p < batch.length) => batchDim_spec hx hy hl hr hc hpos hp
  have hlenR : resTy.length = batch.length + 2 := by rw [hty.1]; simp
  generalize hbd : (List.range (max x.type.length y.type.length - 2)).map (batchDim x y) = bd
  have hrange : max x.type.length y.type.length - 2 = batch.length := by omega
  rw [hrange] at hbd
  have hb1 : bd.map (·.1) = batch := by
    rw [← hbd, List.map_map]
    apply List.ext_getElem
    · simp
    · intro i h1 h2
      simp only [List.getElem_map, List.getElem_range, Function.comp_apply]
      rw [(hspec i h2).1, List.getD_eq_getElem?_getD, List.getElem?_eq_getElem h2]
      rfl
  generalize hb2 : bd.map (·.2) = bty
  have hbty : List.Forall₂ (fun o n => ∀ v, o = some v → v = n) bty batch := by
    rw [List.forall₂_iff_get]
    have hlen : bty.length = batch.length := by rw [← hb2, ← hbd]; simp
    refine ⟨hlen, fun i h1 h2 v hv => ?_⟩
    simp only [List.get_eq_getElem] at hv ⊢
    have : bty[i] = (batchDim x y i).2 := by
      simp only [← hb2, ← hbd, List.getElem_map, List.getElem_range]
    rw [this] at hv
    have := (hspec i h2).2.1 v hv
    rw [this, List.getD_eq_getElem?_getD, List.getElem?_eq_getElem h2]
    rfl
  have hblen : bty.length = batch.length := hbty.length_eq
  have htake : resTy.take batch.length = bty := by
    apply List.ext_getElem
    · rw [List.length_take]; omega
    · intro i h1 h2
      have hi : i < batch.length := by omega
      rw [List.getElem_take]
      have hb : bty[i] = (batchDim x y i).2 := by
        simp only [← hb2, ← hbd, List.getElem_map, List.getElem_range]
      have hg : resTy[i]? = some resTy[i] := List.getElem?_eq_getElem (by omega)
      have hiff := hres.1 i (by omega)
      unfold Unknown at hiff
      rw [hlenR, ← (hspec i hi).2.2, ← hb, hg, Option.some.injEq] at hiff
      cases hr : resTy[i] with
      | none => rw [hr] at hiff; exact (hiff.1 rfl).symm
      | some v =>
        rw [hr] at hiff
        cases hb' : bty[i] with
        | none => rw [hb'] at hiff; exact absurd (hiff.2 rfl) (by simp)
        | some w =>
          have h3 := (hspec i hi).2.1 w (by rw [← hb, hb'])
          have h4 := hty.2 i v (by rw [hg, hr])
          rw [List.getElem?_append_left hi, List.getElem?_eq_getElem hi, Option.some.injEq] at h4
          rw [h3, List.getD_eq_getElem?_getD, List.getElem?_eq_getElem hi, ← h4]
          rfl
  have hgd : ∀ {E : Type} (o : Operand E) (d : Nat), d < o.type.length → some (dimTy o d) = o.type[d]? := by
    intro E o d hd
    unfold dimTy
    rw [List.getD_eq_getElem?_getD, List.getElem?_eq_getElem hd]
    rfl
  have hresTy : resTy = bty ++ [dimTy x (x.type.length - 2), dimTy y (y.type.length - 1)] := by
    rw [← List.take_append_drop batch.length resTy, htake]
    congr 1
    apply List.ext_getElem?
    intro i
    rw [List.getElem?_drop]
    have hr1 := hres.2.1
    have hr2 := hres.2.2
    rw [hlenR] at hr1 hr2
    match i with
    | 0 =>
      rw [List.getElem?_cons_zero, hgd x _ (by omega), ← hr1]
      congr 1
    | 1 =>
      rw [List.getElem?_cons_succ, List.getElem?_cons_zero, hgd y _ (by omega), ← hr2]
      congr 1
    | i + 2 =>
      rw [List.getElem?_eq_none (by omega)]
      simp
  have hposk : ∀ (a b : Int), 0 ≤ a → 0 ≤ b → ∀ d ∈ batch ++ [a, b], 0 ≤ d := by
    intro a b ha hb d hd
    rcases List.mem_append.1 hd with h | h
    · exact Int.le_of_lt (hpos d h)
    · simp only [List.mem_cons, List.not_mem_nil, or_false] at h
      rcases h with rfl | rfl <;> assumption
  obtain ⟨L, eL, hL⟩ := broadcast_given strict x (batch ++ [m, k]) _ (type_matrix hx hl hbty) (hposk m k hm hk) hx
    (by rw [hl]; exact broadcasts_matrix hbl m k) hdx
  obtain ⟨Rt, eR, hR⟩ := broadcast_given strict y (batch ++ [k, n]) _ (type_matrix hy hr hbty) (hposk k n hk hn) hy
    (by rw [hr]; exact broadcasts_matrix hbr k n) hdy
  obtain ⟨t, e1, e2⟩ := batched_spec kind ar x y hx hy hl hr hm hk hn vx vy hvx hvy hbl hbr hpos hne bty hbty L Rt hL hR resTy hresTy
    (by rw [htake] at hkind; exact hkind) bd hb1 hb2
  refine ⟨t, ?_, e2⟩
  unfold lowerMatmul
  simp only
  have c1 : ¬(x.type.length = 1 ∧ y.type.length = 1) := by omega
  have c2 : ¬(x.type.length = 1 ∧ y.type.length = 2) := by omega
  have c3 : ¬(x.type.length = 2 ∧ y.type.length = 1) := by omega
  have c4 : ¬(x.type.length = 2 ∧ y.type.length = 2) := by omega
  have c5 : 1 < x.type.length ∧ 1 < y.type.length := by omega
  have c0 : ¬(kind = .quantized ∧ (x.type.length = 1 ∧ y.type.length ≤ 2 ∨ x.type.length ≤ 2 ∧ y.type.length = 1)) := by
    rintro ⟨-, h⟩
    omega
  rw [if_neg c0, if_neg c1, if_neg c2, if_neg c3, if_neg c4, if_pos c5, hrange, hbd, hb1, hb2]
  simp only [hx2, hx1, hy2, hy1] at eL eR ⊢
  rw [show at2 m k = [m, k] from rfl, show at2 k n = [k, n] from rfl, eL, eR]
  simp only [ne_eq, not_true_eq_false, if_false]
  exact e1

/-! ## Vectors -/

/-- The products of matrices and vectors: `lm` and `rn` are empty for a vector. -/
theorem range_nil {q : List Int} (h : inRange [] q = true) : q = [] := List.length_eq_zero_iff.1 (inRange_length h)

theorem range_one {m : Int} {q : List Int} (h : inRange [m] q = true) : ∃ i, q = [i] ∧ 0 ≤ i ∧ i < m := by
  obtain ⟨i, rfl⟩ := List.length_eq_one_iff.1 (inRange_length h)
  refine ⟨i, rfl, ?_⟩
  have := inRange_getD h (d := 0) (by simp)
  simpa using this

theorem range_pair {m n i j : Int} (hi : 0 ≤ i ∧ i < m) (hj : 0 ≤ j ∧ j < n) : inRange [m, n] [i, j] = true := by simp [inRange, hi, hj]

theorem range_single {m i : Int} (hi : 0 ≤ i ∧ i < m) : inRange [m] [i] = true := by simp [inRange, hi]

theorem plain_spec (ar : Arith A B C R) (x : Operand A) (y : Operand B) {lm rn : List Int} {k : Int} (hl : x.tensor.sizes = lm ++ [k])
    (hr : y.tensor.sizes = k :: rn) (vx : List Int → A) (vy : List Int → B) (hvx : Pool.Holds x.tensor vx) (hvy : Pool.Holds y.tensor vy)
    (resTy : List (Option Int)) (hty : TypeOf resTy (lm ++ rn)) (li ri : List Int → Int → List Int)
    (hli : ∀ i j l, inRange lm i = true → inRange rn j = true → li (i ++ j) l = i ++ [l])
    (hri : ∀ i j l, inRange lm i = true → inRange rn j = true → ri (i ++ j) l = l :: j) :
    ∃ t, close ar resTy (contract ar x.tensor y.tensor (lm ++ rn) k li ri) = .ok t ∧ t.sizes = lm ++ rn ∧ ∀ i j, inRange lm i = true → inRange rn j = true →
      t.elem (i ++ j) = some (total ar k (fun l => vx (i ++ [l])) (fun l => vy (l :: j))) := by
  obtain ⟨t, e1, e2, e3⟩ := close_ok ar resTy (contract ar x.tensor y.tensor (lm ++ rn) k li ri) hty
  refine ⟨t, e1, e2, fun i j hi hj => ?_⟩
  rw [e3 (i ++ j) (by show inRange (lm ++ rn) _ = true; rw [inRange_append (inRange_length hi), hi, hj]; rfl)]
  refine contract_elem _ _ _ _ _ _ _ _ _ _ (fun l l0 l1 => ?_) (fun l l0 l1 => ?_)
  · rw [hli i j l hi hj]
    have : inRange x.tensor.sizes (i ++ [l]) = true := by rw [hl, inRange_append (inRange_length hi), hi]; simp [inRange, l0, l1]
    rw [get_of_range this, hvx _ this]
  · rw [hri i j l hi hj]
    have : inRange y.tensor.sizes (l :: j) = true := by rw [hr]; simp [inRange, l0, l1, hj]
    rw [get_of_range this, hvy _ this]

theorem expand_row {E : Type} (x : Operand E) (hx : x.Typed) {k : Int} (hk : 0 ≤ k) (hl : x.tensor.sizes = [k]) (vx : List Int → E) (hvx : Pool.Holds x.tensor vx) :
    (∃ t, expandTo x [1, (dimTy x 0).getD unknown] [[0, 1]] = .ok t ∧ t.sizes = [1, k] ∧ Pool.Holds t fun idx => vx [idx.getD 1 0]) ∧
    (∃ t, expandTo x [(dimTy x 0).getD unknown, 1] [[0, 1]] = .ok t ∧ t.sizes = [k, 1] ∧ Pool.Holds t fun idx => vx [idx.getD 0 0]) := by
  have hlen : x.type.length = 1 := by rw [hx.1, hl]; rfl
  have hts : typeSizes x.type = [(dimTy x 0).getD unknown] := by
    obtain ⟨o, ho⟩ := List.length_eq_one_iff.1 hlen
    unfold dimTy
    rw [ho]
    rfl
  have hv : (dimTy x 0).getD unknown = unknown ∨ (dimTy x 0).getD unknown = k := by
    cases h : dimTy x 0 with
    | none => exact .inl rfl
    | some v =>
      right
      have := dimTy_dim hx h
      unfold dim at this
      rw [hl] at this
      exact this
  have hpos : ∀ n ∈ x.tensor.sizes, 0 ≤ n := by rw [hl]; simpa using hk
  constructor
  · obtain ⟨t, e1, e2, e3⟩ := expandTo_ok (O := [[1, (dimTy x 0).getD unknown]]) (S := [[1, k]]) hpos hx (by omega)
      (by rw [hts]; exact .cons (verify_pair _).1 .nil) (by rw [hl]; simp) (.cons (piece_pair hv hk).1 .nil)
    have e2' : t.sizes = [1, k] := by rw [e2]; rfl
    refine ⟨t, e1, e2', fun idx hi => ?_⟩
    rw [e2'] at hi
    obtain ⟨i, j, rfl⟩ : ∃ i j, idx = [i, j] := List.length_eq_two.1 (inRange_length hi)
    have h0 := inRange_getD hi (d := 0) (by simp)
    have h1 := inRange_getD hi (d := 1) (by simp)
    simp only [List.getD_cons_zero, List.getD_cons_succ] at h0 h1
    have hj : inRange x.tensor.sizes [j] = true := by rw [hl]; exact range_single h1
    rw [e3.2.2.2 [i, j] [j] (by rw [e2']; exact hi) hj (by have hi0 : i = 0 := (by omega); subst hi0; rw [e2', hl]; simp [position]), hvx _ hj]
    rfl
  · obtain ⟨t, e1, e2, e3⟩ := expandTo_ok (O := [[(dimTy x 0).getD unknown, 1]]) (S := [[k, 1]]) hpos hx (by omega)
      (by rw [hts]; exact .cons (verify_pair _).2 .nil) (by rw [hl]; simp) (.cons (piece_pair hv hk).2 .nil)
    have e2' : t.sizes = [k, 1] := by rw [e2]; rfl
    refine ⟨t, e1, e2', fun idx hi => ?_⟩
    rw [e2'] at hi
    obtain ⟨i, j, rfl⟩ : ∃ i j, idx = [i, j] := List.length_eq_two.1 (inRange_length hi)
    have h0 := inRange_getD hi (d := 0) (by simp)
    have h1 := inRange_getD hi (d := 1) (by simp)
    simp only [List.getD_cons_zero, List.getD_cons_succ] at h0 h1
    have hj : inRange x.tensor.sizes [i] = true := by rw [hl]; exact range_single h0
    rw [e3.2.2.2 [i, j] [i] (by rw [e2']; exact hi) hj (by rw [e2', hl]; simp [position]; omega), hvx _ hj]
    rfl

/-- The product of two matrices collapsed to the sizes of the result. -/
theorem quant_close (ar : Arith A B C R) (t : Tensor C) {m n : Int} (hm : 0 ≤ m) (hn : 0 ≤ n) (hs : t.sizes = [m, n]) (tm tn : Option Int) (htm : ∀ v, tm = some v → v = m)
    (htn : ∀ v, tn = some v → v = n) :
    (tm = some 1 → tn = some 1 → ∃ r, ((collapseTo ⟨t, [tm, tn]⟩ (typeSizes []) []).bind fun t => close ar [] t) = .ok r ∧ r.sizes = [] ∧ r.elem [] = (t.elem [0, 0]).map ar.finish) ∧
    (tm = some 1 → ∃ r, ((collapseTo ⟨t, [tm, tn]⟩ (typeSizes [tn]) [[0, 1]]).bind fun t => close ar [tn] t) = .ok r ∧ r.sizes = [n] ∧
      ∀ j, 0 ≤ j → j < n → r.elem [j] = (t.elem [0, j]).map ar.finish) ∧
    (tn = some 1 → ∃ r, ((collapseTo ⟨t, [tm, tn]⟩ (typeSizes [tm]) [[0, 1]]).bind fun t => close ar [tm] t) = .ok r ∧ r.sizes = [m] ∧
      ∀ i, 0 ≤ i → i < m → r.elem [i] = (t.elem [i, 0]).map ar.finish) := by
  have hpos : ∀ d ∈ t.sizes, 0 ≤ d := by rw [hs]; simp [hm, hn]
  refine ⟨?_, ?_, ?_⟩
  · rintro rfl rfl
    have h1 := htm 1 rfl
    have h2 := htn 1 rfl
    subst h1 h2
    refine ⟨⟨[], fun idx => ((⟨[], fun _ => t.get [0, 0]⟩ : Tensor C).get idx).map ar.finish⟩, rfl, rfl, ?_⟩
    show ((⟨[], fun _ => t.get [0, 0]⟩ : Tensor C).get []).map ar.finish = _
    rw [get_of_range (by rfl)]
    show (t.get [0, 0]).map ar.finish = _
    rw [get_of_range (by rw [hs]; exact range_pair (by omega) (by omega))]
  · rintro rfl
    have h1 := htm 1 rfl
    subst h1
    obtain ⟨u, e1, e2, e3⟩ := collapseTo_ok (x := ⟨t, [some 1, tn]⟩) (outs := [tn.getD unknown]) (O := [[1, tn.getD unknown]]) (S := [[1, n]]) hpos (by simp)
      rfl (.cons (verify_pair _).1 .nil) hs rfl
    have e2' : u.sizes = [n] := by rw [e2]; simp
    obtain ⟨r, c1, c2, c3⟩ := close_ok ar [tn] u (by
      rw [e2']
      refine ⟨rfl, fun d v hd => ?_⟩
      match d with
      | 0 => rw [List.getElem?_cons_zero, Option.some.injEq] at hd ⊢; rw [htn v hd]
      | d + 1 => simp at hd)
    refine ⟨r, ?_, by rw [c2, e2'], fun j j0 j1 => ?_⟩
    · rw [show collapseTo ⟨t, [some 1, tn]⟩ (typeSizes [tn]) [[0, 1]] = .ok u from e1]
      exact c1
    · have hj : inRange u.sizes [j] = true := by rw [e2']; exact range_single ⟨j0, j1⟩
      have hj' : inRange t.sizes [0, j] = true := by rw [hs]; exact range_pair (by omega) ⟨j0, j1⟩
      rw [c3 _ hj, e3.2.2.2 [j] [0, j] hj hj' (by rw [e2']; show _ = position t.sizes _; rw [hs]; simp [position])]
  · rintro rfl
    have h1 := htn 1 rfl
    subst h1
    obtain ⟨u, e1, e2, e3⟩ := collapseTo_ok (x := ⟨t, [tm, some 1]⟩) (outs := [tm.getD unknown]) (O := [[tm.getD unknown, 1]]) (S := [[m, 1]]) hpos (by simp)
      rfl (.cons (verify_pair _).2 .nil) hs rfl
    have e2' : u.sizes = [m] := by rw [e2]; simp
    obtain ⟨r, c1, c2, c3⟩ := close_ok ar [tm] u (by
      rw [e2']
      refine ⟨rfl, fun d v hd => ?_⟩
      match d with
      | 0 => rw [List.getElem?_cons_zero, Option.some.injEq] at hd ⊢; rw [htm v hd]
      | d + 1 => simp at hd)
    refine ⟨r, ?_, by rw [c2, e2'], fun i i0 i1 => ?_⟩
    · rw [show collapseTo ⟨t, [tm, some 1]⟩ (typeSizes [tm]) [[0, 1]] = .ok u from e1]
      exact c1
    · have hj : inRange u.sizes [i] = true := by rw [e2']; exact range_single ⟨i0, i1⟩
      have hj' : inRange t.sizes [i, 0] = true := by rw [hs]; exact range_pair ⟨i0, i1⟩ (by omega)
      rw [c3 _ hj, e3.2.2.2 [i] [i, 0] hj hj' (by rw [e2']; show _ = position t.sizes _; rw [hs]; simp [position])]

theorem product_elem (ar : Arith A B C R) (x : Tensor A) (y : Tensor B) {m k n : Int} (hl : x.sizes = [m, k]) (hr : y.sizes = [k, n]) (vx : List Int → A)
    (vy : List Int → B) (hvx : Pool.Holds x vx) (hvy : Pool.Holds y vy) {i j : Int} (hi : 0 ≤ i ∧ i < m) (hj : 0 ≤ j ∧ j < n) :
    ((contract ar x y [m, n] k (fun idx k => at2 (idx.getD 0 0) k) (fun idx k => at2 k (idx.getD 1 0))).elem [i, j]).map ar.finish =
      some (total ar k (fun l => vx [i, l]) (fun l => vy [l, j])) := by
  refine contract_elem _ _ _ _ _ _ _ _ _ _ (fun l l0 l1 => ?_) (fun l l0 l1 => ?_)
  · have : inRange x.sizes [i, l] = true := by rw [hl]; exact range_pair hi ⟨l0, l1⟩
    show x.get [i, l] = _
    rw [get_of_range this, hvx _ this]
  · have : inRange y.sizes [l, j] = true := by rw [hr]; exact range_pair ⟨l0, l1⟩ hj
    show y.get [l, j] = _
    rw [get_of_range this, hvy _ this]

theorem types_two {E : Type} {x : Operand E} (hx : x.Typed) {a b : Int} (h : x.tensor.sizes = [a, b]) :
    x.type = [dimTy x 0, dimTy x 1] ∧ dim x 0 = a ∧ dim x 1 = b := by
  have hlen : x.type.length = 2 := by rw [hx.1, h]; rfl
  obtain ⟨p, q, hpq⟩ := List.length_eq_two.1 hlen
  unfold dimTy dim
  rw [hpq, h]
  exact ⟨rfl, rfl, rfl⟩

theorem types_one {E : Type} {x : Operand E} (hx : x.Typed) {a : Int} (h : x.tensor.sizes = [a]) : x.type = [dimTy x 0] ∧ dim x 0 = a := by
  have hlen : x.type.length = 1 := by rw [hx.1, h]; rfl
  obtain ⟨p, hp⟩ := List.length_eq_one_iff.1 hlen
  unfold dimTy dim
  rw [hp, h]
  exact ⟨rfl, rfl⟩

theorem dimTy_at {E : Type} {x : Operand E} (hx : x.Typed) {d : Nat} {n : Int} (h : dim x d = n) : ∀ v, dimTy x d = some v → v = n :=
  fun v hv => by rw [← h, dimTy_dim hx hv]

theorem vec_spec (strict : Bool) (kind : Kind) (ar : Arith A B C R) (x : Operand A) (y : Operand B) (hx : x.Typed) (hy : y.Typed) {lm rn : List Int} {k : Int}
    (hl : x.tensor.sizes = lm ++ [k]) (hr : y.tensor.sizes = k :: rn) (hlm : lm.length ≤ 1) (hrn : rn.length ≤ 1) (hmp : ∀ d ∈ lm, 0 ≤ d) (hk : 0 ≤ k)
    (hnp : ∀ d ∈ rn, 0 ≤ d) (vx : List Int → A) (vy : List Int → B) (hvx : Pool.Holds x.tensor vx) (hvy : Pool.Holds y.tensor vy) (resTy : List (Option Int))
    (hty : if kind = .quantized then resTy = x.type.take lm.length ++ y.type.drop 1 else TypeOf resTy (lm ++ rn)) :
    ∃ t, lowerMatmul strict kind ar x y resTy = .ok t ∧ t.sizes = lm ++ rn ∧ ∀ i j, inRange lm i = true → inRange rn j = true →
      t.elem (i ++ j) = some (total ar k (fun l => vx (i ++ [l])) (fun l => vy (l :: j))) := by
  match lm, rn, hlm, hrn with
  | [], [], _, _ =>
    obtain ⟨tx, d1⟩ := types_one hx hl
    obtain ⟨ty, d2⟩ := types_one hy hr
    have l1 : x.type.length = 1 := by rw [tx]; rfl
    have l2 : y.type.length = 1 := by rw [ty]; rfl
    unfold lowerMatmul
    dsimp only
    rw [l1, l2]
    by_cases hq : kind = .quantized
    · rw [if_pos hq, ty] at hty
      rw [if_pos ⟨hq, .inl ⟨rfl, by decide⟩⟩]
      obtain ⟨⟨lt, a1, a2, a3⟩, -⟩ := expand_row x hx hk hl vx hvx
      obtain ⟨-, ⟨rt, b1, b2, b3⟩⟩ := expand_row y hy hk hr vy hvy
      have hres : resTy = [] := by rw [hty]; simp
      subst hres
      unfold quantizedVec
      simp only [l1, l2, if_true, a1, b1, Outcome.bind, List.length_nil]
      have q1 : dim (⟨lt, [some 1, dimTy x 0]⟩ : Operand A) 1 = k := by unfold dim; rw [a2]; rfl
      have q2 : dim (⟨lt, [some 1, dimTy x 0]⟩ : Operand A) 0 = 1 := by unfold dim; rw [a2]; rfl
      have q3 : dim (⟨rt, [dimTy y 0, some 1]⟩ : Operand B) 1 = 1 := by unfold dim; rw [b2]; rfl
      have q4 : dim (⟨rt, [dimTy y 0, some 1]⟩ : Operand B) 0 = k := by unfold dim; rw [b2]; rfl
      simp only [q1, q2, q3, q4, ne_eq, not_true_eq_false, if_false]
      obtain ⟨r, c1, c2, c3⟩ := (quant_close ar (contract ar lt rt [1, 1] k (fun idx k => at2 (idx.getD 0 0) k) (fun idx k => at2 k (idx.getD 1 0)))
        (by decide) (by decide) rfl (some 1) (some 1) (by simp) (by simp)).1 rfl rfl
      refine ⟨r, c1, c2, fun i j hi hj => ?_⟩
      rw [range_nil hi, range_nil hj]
      show r.elem [] = _
      rw [c3, product_elem ar lt rt a2 b2 _ _ a3 b3 (by omega) (by omega)]
      rfl
    · rw [if_neg hq] at hty
      rw [if_neg (fun h => hq h.1), if_pos ⟨rfl, rfl⟩, d1, d2, if_neg (by simp)]
      exact plain_spec ar x y hl hr vx vy hvx hvy resTy hty _ _ (fun i j l hi hj => by rw [range_nil hi]; rfl) (fun i j l hi hj => by rw [range_nil hj])
  | [], [n], _, _ =>
    obtain ⟨tx, d1⟩ := types_one hx hl
    obtain ⟨ty, d2, d3⟩ := types_two hy hr
    have l1 : x.type.length = 1 := by rw [tx]; rfl
    have l2 : y.type.length = 2 := by rw [ty]; rfl
    have hn : 0 ≤ n := hnp n (by simp)
    unfold lowerMatmul
    dsimp only
    rw [l1, l2]
    by_cases hq : kind = .quantized
    · rw [if_pos hq, ty] at hty
      rw [if_pos ⟨hq, .inl ⟨rfl, by decide⟩⟩]
      obtain ⟨⟨lt, a1, a2, a3⟩, -⟩ := expand_row x hx hk hl vx hvx
      have hres : resTy = [dimTy y 1] := by rw [hty]; simp
      subst hres
      unfold quantizedVec
      have q1 : ¬((2 : Nat) = 1) := by decide
      have q2 : ¬([dimTy y 1].length = 0) := by simp
      simp only [l1, l2, if_true, a1, Outcome.bind, q1, q2, if_false, d2, d3]
      have q3 : dim (⟨lt, [some 1, dimTy x 0]⟩ : Operand A) 1 = k := by unfold dim; rw [a2]; rfl
      have q4 : dim (⟨lt, [some 1, dimTy x 0]⟩ : Operand A) 0 = 1 := by unfold dim; rw [a2]; rfl
      simp only [q3, q4, ne_eq, not_true_eq_false, if_false]
      obtain ⟨r, c1, c2, c3⟩ := (quant_close ar (contract ar lt y.tensor [1, n] k (fun idx k => at2 (idx.getD 0 0) k) (fun idx k => at2 k (idx.getD 1 0)))
        (by decide) hn rfl (some 1) (dimTy y 1) (by simp) (dimTy_at hy d3)).2.1 rfl
      refine ⟨r, c1, c2, fun i j hi hj => ?_⟩
      obtain ⟨q, rfl, hq0⟩ := range_one hj
      rw [range_nil hi]
      show r.elem [q] = _
      rw [c3 q hq0.1 hq0.2, product_elem ar lt y.tensor a2 hr _ _ a3 hvy (by omega) hq0]
      rfl
    · rw [if_neg hq] at hty
      have c1 : ¬(1 = 1 ∧ 2 = 1) := by decide
      rw [if_neg (fun h => hq h.1), if_neg c1, if_pos ⟨rfl, rfl⟩, d1, d2, d3, if_neg (by simp)]
      exact plain_spec ar x y hl hr vx vy hvx hvy resTy hty _ _ (fun i j l hi hj => by rw [range_nil hi]; rfl) (fun i j l hi hj => by
        obtain ⟨q, rfl, -⟩ := range_one hj
        rw [range_nil hi]; rfl)
  | [m], [], _, _ =>
    obtain ⟨tx, d1, d3⟩ := types_two hx hl
    obtain ⟨ty, d2⟩ := types_one hy hr
    have l1 : x.type.length = 2 := by rw [tx]; rfl
    have l2 : y.type.length = 1 := by rw [ty]; rfl
    have hm : 0 ≤ m := hmp m (by simp)
    unfold lowerMatmul
    dsimp only
    rw [l1, l2]
    by_cases hq : kind = .quantized
    · rw [if_pos hq, tx, ty] at hty
      rw [if_pos ⟨hq, .inr ⟨by decide, rfl⟩⟩]
      obtain ⟨-, ⟨rt, b1, b2, b3⟩⟩ := expand_row y hy hk hr vy hvy
      have hres : resTy = [dimTy x 0] := by rw [hty]; simp
      subst hres
      unfold quantizedVec
      have q1 : ¬((2 : Nat) = 1) := by decide
      have q2 : ¬([dimTy x 0].length = 0) := by simp
      simp only [l1, l2, if_true, b1, Outcome.bind, q1, q2, if_false, d1, d3]
      have q3 : dim (⟨rt, [dimTy y 0, some 1]⟩ : Operand B) 1 = 1 := by unfold dim; rw [b2]; rfl
      have q4 : dim (⟨rt, [dimTy y 0, some 1]⟩ : Operand B) 0 = k := by unfold dim; rw [b2]; rfl
      simp only [q3, q4, ne_eq, not_true_eq_false, if_false]
      obtain ⟨r, c1, c2, c3⟩ := (quant_close ar (contract ar x.tensor rt [m, 1] k (fun idx k => at2 (idx.getD 0 0) k) (fun idx k => at2 k (idx.getD 1 0)))
        hm (by decide) rfl (dimTy x 0) (some 1) (dimTy_at hx d1) (by simp)).2.2 rfl
      refine ⟨r, c1, c2, fun i j hi hj => ?_⟩
      obtain ⟨q, rfl, hq0⟩ := range_one hi
      rw [range_nil hj]
      show r.elem [q] = _
      rw [c3 q hq0.1 hq0.2, product_elem ar x.tensor rt hl b2 _ _ hvx b3 hq0 (by omega)]
      rfl
    · rw [if_neg hq] at hty
      have c1 : ¬(2 = 1 ∧ 1 = 1) := by decide
      have c2 : ¬(2 = 1 ∧ 1 = 2) := by decide
      rw [if_neg (fun h => hq h.1), if_neg c1, if_neg c2, if_pos ⟨rfl, rfl⟩, d1, d2, d3, if_neg (by simp)]
      exact plain_spec ar x y hl hr vx vy hvx hvy resTy hty _ _ (fun i j l hi hj => by
        obtain ⟨q, rfl, -⟩ := range_one hi
        rw [range_nil hj]; rfl) (fun i j l hi hj => by rw [range_nil hj])
  | [m], [n], _, _ =>
    obtain ⟨tx, d1, d3⟩ := types_two hx hl
    obtain ⟨ty, d2, d4⟩ := types_two hy hr
    have l1 : x.type.length = 2 := by rw [tx]; rfl
    have l2 : y.type.length = 2 := by rw [ty]; rfl
    have hty' : TypeOf resTy ([m] ++ [n]) := by
      by_cases hq : kind = .quantized
      · rw [if_pos hq, tx, ty] at hty
        rw [hty]
        refine ⟨rfl, fun d v hd => ?_⟩
        match d with
        | 0 =>
          have hd' : dimTy x 0 = some v := by simpa using hd
          rw [dimTy_at hx d1 v hd']; rfl
        | 1 =>
          have hd' : dimTy y 1 = some v := by simpa using hd
          rw [dimTy_at hy d4 v hd']; rfl
        | d + 2 => simp at hd
      · rwa [if_neg hq] at hty
    unfold lowerMatmul
    dsimp only
    rw [l1, l2]
    have c0 : ¬(kind = .quantized ∧ (2 = 1 ∧ 2 ≤ 2 ∨ 2 ≤ 2 ∧ 2 = 1)) := fun h => by have := h.2; omega
    have c1 : ¬(2 = 1 ∧ 2 = 1) := by decide
    have c2 : ¬(2 = 1 ∧ 2 = 2) := by decide
    have c3 : ¬(2 = 2 ∧ 2 = 1) := by decide
    rw [if_neg c0, if_neg c1, if_neg c2, if_neg c3, if_pos ⟨rfl, rfl⟩, d1, d2, d3, d4, if_neg (by simp)]
    exact plain_spec ar x y hl hr vx vy hvx hvy resTy hty' _ _ (fun i j l hi hj => by
        obtain ⟨q, rfl, -⟩ := range_one hi
        rfl) (fun i j l hi hj => by
        obtain ⟨q, rfl, -⟩ := range_one hi
        obtain ⟨q', rfl, -⟩ := range_one hj
        rfl)
  | _ :: _ :: _, _, h, _ => simp at h
  | _, _ :: _ :: _, _, h => simp at h

/-! ## Integers -/

theorem foldl_dot {v : Nat} (f g : Nat → Int) : ∀ (l : List Nat) (a : Int),
    l.foldl (fun c k => c + BitVec.ofInt v (f k) * BitVec.ofInt v (g k)) (BitVec.ofInt v a) = BitVec.ofInt v (a + (l.map fun k => f k * g k).sum)
  | [], a => by simp
  | k :: l, a => by
    rw [List.foldl_cons, ← BitVec.ofInt_mul, ← BitVec.ofInt_add, foldl_dot f g l, List.map_cons, List.sum_cons]
    congr 1
    omega

theorem dot_congr {v : Nat} (f g f' g' : Nat → Int) (l : List Nat) (hf : ∀ k, BitVec.ofInt v (f k) = BitVec.ofInt v (f' k))
    (hg : ∀ k, BitVec.ofInt v (g k) = BitVec.ofInt v (g' k)) :
    BitVec.ofInt v (l.map fun k => f k * g k).sum = BitVec.ofInt v (l.map fun k => f' k * g' k).sum := by
  have h1 := foldl_dot (v := v) f g l 0
  have h2 := foldl_dot (v := v) f' g' l 0
  rw [Int.zero_add] at h1 h2
  rw [← h1, ← h2]
  simp only [hf, hg]

theorem setWidth_ofInt {w v : Nat} (h : v ≤ w) (s : Int) : (BitVec.ofInt w s).setWidth v = BitVec.ofInt v s := by
  apply BitVec.eq_of_toInt_eq
  rw [BitVec.toInt_setWidth, BitVec.toInt_ofInt, BitVec.toNat_ofInt]
  have hd : ((2 ^ v : Nat) : Int) ∣ ((2 ^ w : Nat) : Int) := by exact_mod_cast Nat.pow_dvd_pow 2 h
  have hp : (0 : Int) < ((2 ^ w : Nat) : Int) := by exact_mod_cast Nat.two_pow_pos w
  rw [Int.toNat_of_nonneg (Int.emod_nonneg _ (by omega))]
  rw [← Int.emod_bmod (x := s % _), Int.emod_emod_of_dvd _ hd, Int.emod_bmod]

theorem widen_toInt {w v : Nat} (h : w ≤ v) (e : BitVec w) : widen false v e = BitVec.ofInt v e.toInt := by
  unfold widen
  rw [if_neg (by simp)]
  by_cases hw : w = v
  · subst hw
    rw [if_pos rfl, BitVec.setWidth_eq, BitVec.ofInt_toInt]
  · rw [if_neg hw]
    rfl

theorem widen_value {t : IntTy} {v : Nat} (h : t.width ≤ v) (h1 : t.width ≠ 1 ∨ v = 1) (e : BitVec t.width) :
    widen t.unsigned v e = BitVec.ofInt v (value t e) := by
  obtain ⟨w, u⟩ := t
  simp only at *
  cases u with
  | true =>
    unfold widen value
    simp only [if_true, true_or]
    rw [BitVec.ofInt_natCast, BitVec.ofNat_toNat]
  | false =>
    rw [widen_toInt h]
    unfold value
    simp only [Bool.false_eq_true, false_or]
    by_cases hw : w = 1
    · have hv : v = 1 := by omega
      subst hw hv
      rw [if_pos rfl, BitVec.ofInt_toInt, BitVec.ofInt_natCast, BitVec.ofNat_toNat, BitVec.setWidth_eq]
    · rw [if_neg hw]

theorem toInt_value (t : IntTy) (e : BitVec t.width) : BitVec.ofInt t.width e.toInt = BitVec.ofInt t.width (value t e) := by
  unfold value
  by_cases h : t.unsigned ∨ t.width = 1
  · rw [if_pos h, BitVec.ofInt_toInt, BitVec.ofInt_natCast, BitVec.ofNat_toNat, BitVec.setWidth_eq]
  · rw [if_neg h]

theorem convert_ofInt {w v : Nat} (h : v ≤ w) (h1 : v ≠ 1 ∨ w = 1) (s : Int) : convert w v (BitVec.ofInt w s) = BitVec.ofInt v s := by
  unfold convert
  by_cases e : w = v
  · subst e
    rw [if_pos rfl, BitVec.setWidth_eq]
  · have h2 : ¬(v = 1) := by omega
    rw [if_neg e, if_neg h2, if_pos (by omega), setWidth_ofInt h]

theorem accWidth_ge (w : Nat) : w ≤ accWidth w := by
  unfold accWidth
  by_cases h : w = 8
  · rw [if_pos h]; omega
  · rw [if_neg h]
    by_cases h2 : w = 16 ∨ w = 32 ∨ w = 64
    · rw [if_pos h2]; omega
    · rw [if_neg h2]

theorem accWidth_one (w : Nat) : w ≠ 1 ∨ accWidth w = 1 := by
  by_cases h : w = 1
  · subst h; right; rfl
  · exact .inl h

theorem shift_value {t : IntTy} (h1 : 2 ≤ t.width) (h2 : t.width ≤ 32) (e : BitVec t.width) (z : BitVec 32) :
    widen false 32 (shiftElem t.unsigned e) - shiftZero t.unsigned t.width z = BitVec.ofInt 32 (value t e - z.toInt) := by
  obtain ⟨w, u⟩ := t
  simp only at *
  rw [widen_toInt h2]
  unfold value shiftElem shiftZero
  cases u with
  | false =>
    simp only [Bool.false_eq_true, if_false, false_or]
    rw [if_neg (by omega), Int.sub_eq_add_neg, BitVec.ofInt_add, BitVec.ofInt_neg, BitVec.ofInt_toInt, ← BitVec.sub_eq_add_neg]
  | true =>
    simp only [if_true, true_or]
    have he : (e + BitVec.ofInt w (-2 ^ (w - 1))).toInt = (e.toNat : Int) - 2 ^ (w - 1) := by
      have : e + BitVec.ofInt w (-2 ^ (w - 1)) = BitVec.ofInt w ((e.toNat : Int) - 2 ^ (w - 1)) := by
        rw [Int.sub_eq_add_neg, BitVec.ofInt_add, BitVec.ofInt_natCast, BitVec.ofNat_toNat, BitVec.setWidth_eq]
      rw [this, BitVec.toInt_ofInt]
      have hlt : e.toNat < 2 ^ w := e.isLt
      have hp : (2 : Nat) ^ w = 2 * 2 ^ (w - 1) := by
        conv_lhs => rw [show w = (w - 1) + 1 by omega]
        rw [Nat.pow_succ]; omega
      have hc : ((2 : Int) ^ (w - 1)) = ((2 ^ (w - 1) : Nat) : Int) := by push_cast; rfl
      change Int.bmod _ (2 ^ w) = _
      rw [hp] at hlt ⊢
      rw [hc]
      generalize 2 ^ (w - 1) = q at *
      apply Int.bmod_eq_of_le <;> omega
    rw [he]
    have : BitVec.ofInt 32 ((e.toNat : Int) - z.toInt) = BitVec.ofInt 32 ((e.toNat : Int) - 2 ^ (w - 1)) - (z + BitVec.ofInt 32 (-2 ^ (w - 1))) := by
      have hz : z + BitVec.ofInt 32 (-2 ^ (w - 1)) = BitVec.ofInt 32 (z.toInt + (-2 ^ (w - 1))) := by rw [BitVec.ofInt_add, BitVec.ofInt_toInt]
      rw [hz, BitVec.sub_eq_add_neg, ← BitVec.ofInt_neg, ← BitVec.ofInt_add]
      congr 1
      generalize (2 : Int) ^ (w - 1) = q
      omega
    rw [this]

end Verif.Mat
