import Verif.Lemmas.DimOps
import Verif.Model.ShapePool
import Verif.Model.ShapeConv
import Verif.Spec.Window
import Mathlib.Tactic.Ring
import Mathlib.Tactic.Linarith

/-! # Lemmas on window counts (C34, C35) -/

namespace Verif.Shape

theorem count_multiples (m e s : Nat) (hs : 0 < s) :
    countBelow m (fun i => decide (s ∣ i ∧ i < e)) = (min m e + s - 1) / s := by
  have h := count_up 0 e s m hs
  rw [Nat.sub_zero] at h
  rw [← h]
  apply countBelow_congr
  intro i _
  apply decide_eq_decide.mpr
  rw [Nat.sub_zero]
  constructor
  · rintro ⟨ha, hb⟩; exact ⟨by omega, hb, ha⟩
  · rintro ⟨_, hb, ha⟩; exact ⟨ha, hb⟩

/-- The number of multiples of `s` below `m`, from its characterisation. -/
theorem ceil_unique (m s : Nat) (c : Int) (hs : 0 < s) (h1 : (m : Int) ≤ c * s) (h2 : (c - 1) * s < m) :
    (((m + s - 1) / s : Nat) : Int) = c := by
  have hc : 0 ≤ c := by
    rcases Int.lt_or_le c 0 with h | h
    · have : c * s ≤ 0 := Int.mul_nonpos_of_nonpos_of_nonneg (by omega) (by omega)
      have h3 : (c - 1) * (s : Int) = c * s - s := by ring
      have : c * (s : Int) < 0 := Int.mul_neg_of_neg_of_pos h (by omega)
      omega
    · exact h
  obtain ⟨q, rfl⟩ := Int.eq_ofNat_of_zero_le hc
  have h3 : ((q : Int) - 1) * s = q * s - s := by ring
  have h4 : ((q * s : Nat) : Int) = (q : Int) * s := by push_cast; ring
  have h5 : (m + s - 1) / s = q := by
    apply Nat.div_eq_of_lt_le
    · omega
    · rw [Nat.succ_mul]; omega
  rw [h5]

theorem fdiv_bounds (a : Int) (s : Nat) (hs : 0 < s) :
    Int.fdiv a s * s ≤ a ∧ a < Int.fdiv a s * s + s := by
  rw [Int.fdiv_eq_ediv_of_nonneg _ (by omega)]
  have h1 := Int.ediv_mul_le a (b := (s : Int)) (by omega)
  have h2 := Int.lt_ediv_add_one_mul_self a (b := (s : Int)) (by omega)
  have h3 : (a / (s : Int) + 1) * s = a / s * s + s := by ring
  omega

theorem span_int (w : Window) (hk : 0 < w.kernel) :
    (w.span : Int) = w.dilation * ((w.kernel : Int) - 1) + 1 := by
  unfold Window.span
  rw [Int.natCast_add, Int.natCast_mul, Int.natCast_sub (by omega)]
  rfl

theorem places_ceil (w : Window) (n : Nat) (hs : 0 < w.stride) :
    w.places n true = (min (n + w.padding) (n + 2 * w.padding + w.stride - w.span) + w.stride - 1) / w.stride := by
  unfold Window.places
  rw [if_pos rfl, ← count_multiples _ _ _ hs]
  apply countBelow_congr
  intro i _
  apply decide_eq_decide.mpr
  constructor
  · rintro ⟨ha, hb⟩; exact ⟨ha, by omega⟩
  · rintro ⟨ha, hb⟩; exact ⟨ha, by omega⟩

/-- What `pooling_output_shape` computes: the number of places, or a number below one when there is
none. -/
theorem poolOut_places (w : Window) (n : Nat) (ceil : Bool) (hk : 0 < w.kernel) (hs : 0 < w.stride)
    (hp : w.padding ≤ w.span) :
    ∃ o, poolOut n w.kernel w.padding w.stride w.dilation ceil = .ok o ∧ o.toNat = w.places n ceil := by
  have hspan := span_int w hk
  unfold poolOut
  rw [if_neg (by omega)]
  cases ceil with
  | false =>
    rw [if_neg (by simp)]
    refine ⟨_, rfl, ?_⟩
    unfold poolRaw
    simp only [Bool.false_eq_true, if_false]
    unfold Window.places
    simp only [Bool.false_eq_true, if_false]
    have he : (n : Int) + w.padding + w.padding - w.dilation * ((w.kernel : Int) - 1) - 1 + 0 =
        ((n + 2 * w.padding : Nat) : Int) - (w.span : Int) := by
      rw [hspan]; push_cast; ring
    rw [he]
    rcases Nat.lt_or_ge (n + 2 * w.padding) w.span with h | h
    · rw [windows_zero _ _ _ h]
      have hb := fdiv_bounds (((n + 2 * w.padding : Nat) : Int) - (w.span : Int)) w.stride hs
      have : Int.fdiv (((n + 2 * w.padding : Nat) : Int) - (w.span : Int)) w.stride < 0 := by
        rcases Int.lt_or_le (Int.fdiv (((n + 2 * w.padding : Nat) : Int) - (w.span : Int)) w.stride) 0 with h' | h'
        · exact h'
        · have := Int.mul_nonneg h' (show (0 : Int) ≤ w.stride by omega)
          omega
      omega
    · rw [windows_int _ _ _ hs h]; omega
  | true =>
    have he : poolRaw n w.kernel w.padding w.stride w.dilation true =
        Int.fdiv ((n : Int) + 2 * w.padding - w.span + w.stride - 1) w.stride + 1 := by
      unfold poolRaw
      simp only [if_true]
      congr 2
      rw [hspan]; ring
    rw [he, places_ceil w n hs]
    have hb := fdiv_bounds ((n : Int) + 2 * w.padding - w.span + w.stride - 1) w.stride hs
    generalize Int.fdiv ((n : Int) + 2 * w.padding - w.span + w.stride - 1) w.stride = q at hb ⊢
    simp only [true_and]
    have e1 : (q + 1 - 1) * (w.stride : Int) = q * w.stride := by ring
    have e2 : (q + 1) * (w.stride : Int) = q * w.stride + w.stride := by ring
    have e3 : (q - 1) * (w.stride : Int) = q * w.stride - w.stride := by ring
    rw [e1]
    by_cases hz : n + 2 * w.padding + w.stride ≤ w.span
    · have hq : q < 0 := by
        rcases Int.lt_or_le q 0 with h' | h'
        · exact h'
        · have := Int.mul_nonneg h' (show (0 : Int) ≤ w.stride by omega)
          omega
      have hq' : q * (w.stride : Int) < 0 := Int.mul_neg_of_neg_of_pos hq (by omega)
      rw [if_neg (by omega)]
      refine ⟨_, rfl, ?_⟩
      rw [show min (n + w.padding) (n + 2 * w.padding + w.stride - w.span) = 0 by omega,
        Nat.div_eq_of_lt (by omega)]
      omega
    · by_cases hc : q * (w.stride : Int) ≥ n + w.padding
      · rw [if_pos hc]
        refine ⟨_, rfl, ?_⟩
        rw [show min (n + w.padding) (n + 2 * w.padding + w.stride - w.span) = n + w.padding by omega]
        have := ceil_unique (n + w.padding) w.stride q hs (by push_cast; omega) (by rw [e3]; push_cast; omega)
        rw [show q + 1 - 1 = q by omega, ← this, Int.toNat_natCast]
      · rw [if_neg hc]
        refine ⟨_, rfl, ?_⟩
        have := ceil_unique (min (n + w.padding) (n + 2 * w.padding + w.stride - w.span)) w.stride (q + 1) hs
          (by rw [e2]; omega) (by rw [e1]; omega)
        rw [← this, Int.toNat_natCast]

theorem Window.Pool.padding_le {w : Window} (h : w.Pool) : w.padding ≤ w.span := by
  obtain ⟨h1, _, h3, h4⟩ := h
  unfold Window.span
  have : 1 * (w.kernel - 1) ≤ w.dilation * (w.kernel - 1) := Nat.mul_le_mul_right _ h3
  omega

theorem poolOut_ok {n k p s d o : Int} {ceil : Bool} (h : poolOut n k p s d ceil = .ok o) : s ≠ 0 := by
  intro hs
  rw [poolOut, if_pos hs] at h
  cases h

theorem pair_perDim {l : List Int} {a b : Nat} (h : PerDim l [a, b]) : pair l = .ok (a, b) := by
  rcases h with rfl | ⟨x, rfl, h⟩
  · rfl
  · have h1 := h a (by simp)
    have h2 := h b (by simp)
    subst h1 h2
    rfl

theorem triple_perDim {l : List Int} {a b c : Nat} (h : PerDim l [a, b, c]) : triple l = .ok (a, b, c) := by
  rcases h with rfl | ⟨x, rfl, h⟩
  · rfl
  · have h1 := h a (by simp)
    have h2 := h b (by simp)
    have h3 := h c (by simp)
    subst h1 h2 h3
    rfl

theorem perDim_ne_nil {l : List Int} {a : Nat} {v : List Nat} (h : PerDim l (a :: v)) : l ≠ [] := by
  rcases h with rfl | ⟨x, rfl, h⟩ <;> simp

theorem stridePair_args {l : List Int} {k1 k2 s1 s2 : Nat}
    (h : PerDim l [s1, s2] ∨ (l = [] ∧ s1 = k1 ∧ s2 = k2)) :
    stridePair (k1, k2) l = .ok (s1, s2) := by
  rcases h with h | ⟨rfl, rfl, rfl⟩
  · have hn := perDim_ne_nil h
    cases l with
    | nil => exact absurd rfl hn
    | cons x xs => exact pair_perDim h
  · rfl

theorem strideTriple_args {l : List Int} {k s1 s2 s3 : Nat} {k2 k3 : Int}
    (h : PerDim l [s1, s2, s3] ∨ (l = [] ∧ s1 = k ∧ s2 = k ∧ s3 = k)) :
    strideTriple (k, k2, k3) l = .ok (s1, s2, s3) := by
  rcases h with h | ⟨rfl, rfl, rfl, rfl⟩
  · have hn := perDim_ne_nil h
    cases l with
    | nil => exact absurd rfl hn
    | cons x xs => exact triple_perDim h
  · rfl

theorem half_ge (k p : Nat) : Int.fdiv (k : Int) 2 ≥ p ↔ 2 * p ≤ k := by
  rw [Int.fdiv_eq_ediv_of_nonneg _ (by omega)]
  omega

theorem pool2dWith_iff (wh ww : Window) (lead : List Int) (c : Int) (h w : Nat) (ceil : Bool) (r : List Int) :
    pool2d.pool2dWith (wh.kernel, ww.kernel) (wh.stride, ww.stride) (wh.padding, ww.padding)
      (wh.dilation, ww.dilation) ceil lead c h w = .ok r ↔
      wh.Pool ∧ ww.Pool ∧ c ≠ 0 ∧ h ≠ 0 ∧ w ≠ 0 ∧ 1 ≤ wh.places h ceil ∧ 1 ≤ ww.places w ceil ∧
        r = lead ++ [(wh.places h ceil : Int), (ww.places w ceil : Int)] := by
  unfold pool2d.pool2dWith
  by_cases hp : wh.Pool ∧ ww.Pool
  · obtain ⟨h1, h2⟩ := hp
    obtain ⟨o1, e1, p1⟩ := poolOut_places wh h ceil h1.1 h1.2.1 h1.padding_le
    obtain ⟨o2, e2, p2⟩ := poolOut_places ww w ceil h2.1 h2.2.1 h2.padding_le
    simp only [e1, e2]
    have key : pool2dOk c h w wh.kernel ww.kernel wh.stride ww.stride wh.padding ww.padding wh.dilation ww.dilation
        o1 o2 = true ↔ c ≠ 0 ∧ h ≠ 0 ∧ w ≠ 0 ∧ 1 ≤ o1 ∧ 1 ≤ o2 := by
      unfold pool2dOk
      simp only [Bool.and_eq_true, decide_eq_true_eq, half_ge]
      obtain ⟨a1, a2, a3, a4⟩ := h1
      obtain ⟨b1, b2, b3, b4⟩ := h2
      omega
    by_cases hk : pool2dOk c h w wh.kernel ww.kernel wh.stride ww.stride wh.padding ww.padding wh.dilation
        ww.dilation o1 o2 = true
    · rw [if_pos hk]
      obtain ⟨k1, k2, k3, k4, k5⟩ := key.mp hk
      have q1 : o1 = (wh.places h ceil : Int) := by omega
      have q2 : o2 = (ww.places w ceil : Int) := by omega
      constructor
      · intro hr
        refine ⟨h1, h2, k1, k2, k3, by omega, by omega, ?_⟩
        rw [← Except.ok.inj hr, q1, q2]
      · rintro ⟨_, _, _, _, _, _, _, rfl⟩
        rw [q1, q2]
    · rw [if_neg hk]
      constructor
      · intro hr; cases hr
      · rintro ⟨_, _, k1, k2, k3, k4, k5, _⟩
        exact absurd (key.mpr ⟨k1, k2, k3, by omega, by omega⟩) hk
  · constructor
    · intro hr
      exfalso
      apply hp
      split at hr
      · cases hr
      · split at hr
        · cases hr
        · split at hr
          · rename_i hk
            unfold pool2dOk at hk
            simp only [Bool.and_eq_true, decide_eq_true_eq, half_ge] at hk
            unfold Window.Pool
            omega
          · cases hr
    · rintro ⟨h1, h2, _⟩
      exact absurd ⟨h1, h2⟩ hp

theorem pool2d_iff (wh ww : Window) (batch : List Int) (hb : batch.length ≤ 1) (c : Int) (h w : Nat)
    (ceil : Bool) (r : List Int) :
    pool2d (batch ++ [c, (h : Int), (w : Int)]) (wh.kernel, ww.kernel) (wh.stride, ww.stride)
      (wh.padding, ww.padding) (wh.dilation, ww.dilation) ceil = .ok r ↔
      wh.Pool ∧ ww.Pool ∧ c ≠ 0 ∧ h ≠ 0 ∧ w ≠ 0 ∧ 1 ≤ wh.places h ceil ∧ 1 ≤ ww.places w ceil ∧
        r = batch ++ [c, (wh.places h ceil : Int), (ww.places w ceil : Int)] := by
  match batch with
  | [] => exact pool2dWith_iff wh ww [c] c h w ceil r
  | [n] => exact pool2dWith_iff wh ww [n, c] c h w ceil r
  | _ :: _ :: _ => simp at hb

theorem pool3dWith_iff (wd wh ww : Window) (lead : List Int) (x h w : Nat) (ceil : Bool) (r : List Int) :
    pool3d.pool3dWith (wd.kernel, wh.kernel, ww.kernel) (wd.stride, wh.stride, ww.stride)
      (wd.padding, wh.padding, ww.padding) (wd.dilation, wh.dilation, ww.dilation) ceil lead x h w = .ok r ↔
      wd.Pool ∧ wh.Pool ∧ ww.Pool ∧ 0 ∉ lead ∧ x ≠ 0 ∧ h ≠ 0 ∧ w ≠ 0 ∧ 1 ≤ wd.places x ceil ∧
        1 ≤ wh.places h ceil ∧ 1 ≤ ww.places w ceil ∧
        r = lead ++ [(wd.places x ceil : Int), (wh.places h ceil : Int), (ww.places w ceil : Int)] := by
  unfold pool3d.pool3dWith
  have hall : ∀ y z t : Int, (lead ++ [y, z, t]).all (fun x => decide (x ≠ 0)) = true ↔
      0 ∉ lead ∧ y ≠ 0 ∧ z ≠ 0 ∧ t ≠ 0 := by
    intro y z t
    rw [List.all_eq_true]
    constructor
    · intro hh
      refine ⟨fun h0 => ?_, ?_, ?_, ?_⟩
      · have := hh 0 (by simp [h0]); simp at this
      · have := hh y (by simp); simpa using this
      · have := hh z (by simp); simpa using this
      · have := hh t (by simp); simpa using this
    · rintro ⟨h0, h1, h2, h3⟩ v hv
      rw [List.mem_append] at hv
      rcases hv with hv | hv
      · rw [decide_eq_true_eq]; rintro rfl; exact h0 hv
      · simp only [List.mem_cons, List.not_mem_nil, or_false] at hv
        rw [decide_eq_true_eq]
        rcases hv with rfl | rfl | rfl <;> assumption
  by_cases hp : wd.Pool ∧ wh.Pool ∧ ww.Pool
  · obtain ⟨h0, h1, h2⟩ := hp
    obtain ⟨o0, e0, p0⟩ := poolOut_places wd x ceil h0.1 h0.2.1 h0.padding_le
    obtain ⟨o1, e1, p1⟩ := poolOut_places wh h ceil h1.1 h1.2.1 h1.padding_le
    obtain ⟨o2, e2, p2⟩ := poolOut_places ww w ceil h2.1 h2.2.1 h2.padding_le
    simp only [e0, e1, e2]
    have key : pool3dOk (lead ++ [(x : Int), (h : Int), (w : Int)]) (wd.kernel, wh.kernel, ww.kernel)
        (wd.stride, wh.stride, ww.stride) (wd.padding, wh.padding, ww.padding)
        (wd.dilation, wh.dilation, ww.dilation) (o0, o1, o2) = true ↔
        0 ∉ lead ∧ x ≠ 0 ∧ h ≠ 0 ∧ w ≠ 0 ∧ 1 ≤ o0 ∧ 1 ≤ o1 ∧ 1 ≤ o2 := by
      unfold pool3dOk
      simp only [Bool.and_eq_true, hall, decide_eq_true_eq, half_ge]
      obtain ⟨c1, c2, c3, c4⟩ := h0
      obtain ⟨a1, a2, a3, a4⟩ := h1
      obtain ⟨b1, b2, b3, b4⟩ := h2
      generalize (0 ∉ lead) = P
      constructor
      · rintro ⟨⟨⟨_, hP, _⟩, _⟩, _⟩
        exact ⟨hP, by omega, by omega, by omega, by omega, by omega, by omega⟩
      · rintro ⟨hP, _⟩
        refine ⟨⟨⟨⟨⟨?_, ?_⟩, ?_⟩, hP, ?_⟩, ?_⟩, ?_⟩ <;> omega
    by_cases hk : pool3dOk (lead ++ [(x : Int), (h : Int), (w : Int)]) (wd.kernel, wh.kernel, ww.kernel)
        (wd.stride, wh.stride, ww.stride) (wd.padding, wh.padding, ww.padding)
        (wd.dilation, wh.dilation, ww.dilation) (o0, o1, o2) = true
    · rw [if_pos hk]
      obtain ⟨k0, k1, k2, k3, k4, k5, k6⟩ := key.mp hk
      have q0 : o0 = (wd.places x ceil : Int) := by omega
      have q1 : o1 = (wh.places h ceil : Int) := by omega
      have q2 : o2 = (ww.places w ceil : Int) := by omega
      constructor
      · intro hr
        refine ⟨h0, h1, h2, k0, k1, k2, k3, by omega, by omega, by omega, ?_⟩
        rw [← Except.ok.inj hr, q0, q1, q2]
      · rintro ⟨_, _, _, _, _, _, _, _, _, _, rfl⟩
        rw [q0, q1, q2]
    · rw [if_neg hk]
      constructor
      · intro hr; cases hr
      · rintro ⟨_, _, _, k0, k1, k2, k3, k4, k5, k6, _⟩
        exact absurd (key.mpr ⟨k0, k1, k2, k3, by omega, by omega, by omega⟩) hk
  · constructor
    · intro hr
      exfalso
      apply hp
      split at hr
      · cases hr
      · split at hr
        · cases hr
        · split at hr
          · cases hr
          · split at hr
            · rename_i hk
              unfold pool3dOk at hk
              simp only [Bool.and_eq_true, decide_eq_true_eq, half_ge] at hk
              obtain ⟨⟨⟨⟨⟨u1, u2⟩, u3⟩, _⟩, u4⟩, _⟩ := hk
              unfold Window.Pool
              omega
            · cases hr
    · rintro ⟨h0, h1, h2, _⟩
      exact absurd ⟨h0, h1, h2⟩ hp

theorem pool3d_iff (wd wh ww : Window) (batch : List Int) (hb : batch.length ≤ 1) (c : Int) (x h w : Nat)
    (ceil : Bool) (r : List Int) :
    pool3d (batch ++ [c, (x : Int), (h : Int), (w : Int)]) (wd.kernel, wh.kernel, ww.kernel)
      (wd.stride, wh.stride, ww.stride) (wd.padding, wh.padding, ww.padding)
      (wd.dilation, wh.dilation, ww.dilation) ceil = .ok r ↔
      wd.Pool ∧ wh.Pool ∧ ww.Pool ∧ 0 ∉ batch ++ [c] ∧ x ≠ 0 ∧ h ≠ 0 ∧ w ≠ 0 ∧ 1 ≤ wd.places x ceil ∧
        1 ≤ wh.places h ceil ∧ 1 ≤ ww.places w ceil ∧
        r = batch ++ [c, (wd.places x ceil : Int), (wh.places h ceil : Int), (ww.places w ceil : Int)] := by
  match batch with
  | [] => exact pool3dWith_iff wd wh ww [c] x h w ceil r
  | [n] => exact pool3dWith_iff wd wh ww [n, c] x h w ceil r
  | _ :: _ :: _ => simp at hb

theorem pyGet_map {α : Type} (f : α → Int) (l : List α) (i : Nat) (h : i < l.length) :
    pyGet (l.map f) (i : Int) = .ok (f l[i]) := by
  rw [pyGet_nonneg _ _ (by simpa using h), List.getElem_map]

theorem pyGet_map_two {α : Type} (a b : Int) (f : α → Int) (l : List α) (i : Nat) (h : i < l.length) :
    pyGet (a :: b :: l.map f) ((i + 2 : Nat) : Int) = .ok (f l[i]) := by
  rw [pyGet_nonneg _ _ (by simpa using h)]
  simp

theorem dilationAt_map (ws : List Window) (i : Nat) (h : i < ws.length) :
    dilationAt (ws.map fun w => (w.dilation : Int)) i = .ok (ws[i].dilation : Int) := by
  unfold dilationAt
  rw [if_pos (by simp; omega), pyGet_map _ _ _ h]

/-- `convDim` in terms of the window of the dimension. -/
theorem convDim_eq (n0 ci co cg : Int) (sizes : List Nat) (ws : List Window) (i : Nat) (h : i < ws.length)
    (h' : i < sizes.length) :
    convDim (n0 :: ci :: sizes.map (fun n : Nat => (n : Int))) (co :: cg :: ws.map fun w => (w.kernel : Int))
      (ws.map fun w => (w.stride : Int)) (ws.map fun w => (w.padding : Int))
      (ws.map fun w => (w.dilation : Int)) i =
      if ws[i].stride = 0 then .error .zeroDivision
      else .ok (Int.fdiv ((sizes[i] : Int) + ws[i].padding * 2 -
        (ws[i].dilation * ((ws[i].kernel : Int) - 1) + 1)) ws[i].stride + 1) := by
  unfold convDim
  rw [dilationAt_map _ _ h, pyGet_map_two _ _ _ _ _ h, pyGet_map_two _ _ _ _ _ h', pyGet_map _ _ _ h,
    pyGet_map _ _ _ h]
  simp only [bind, Except.bind]
  by_cases hs : ws[i].stride = 0
  · rw [if_pos hs, if_pos (by omega)]
  · rw [if_neg hs, if_neg (by omega)]

/-- A window that fits: `convDim` counts its places. -/
theorem conv_places (w : Window) (n : Nat) (hk : 0 < w.kernel) (hs : 0 < w.stride)
    (hf : w.span ≤ n + 2 * w.padding) :
    Int.fdiv ((n : Int) + w.padding * 2 - (w.dilation * ((w.kernel : Int) - 1) + 1)) w.stride + 1 =
      (w.places n false : Int) := by
  unfold Window.places
  simp only [Bool.false_eq_true, if_false]
  rw [← windows_int _ _ _ hs hf, ← span_int w hk]
  congr 3
  push_cast
  ring

theorem convDims_ok (n0 ci co cg : Int) (sizes : List Nat) (ws : List Window) (hl : ws.length = sizes.length)
    (hw : ∀ i (h : i < ws.length) (h' : i < sizes.length),
      0 < ws[i].kernel ∧ 0 < ws[i].stride ∧ ws[i].span ≤ sizes[i] + 2 * ws[i].padding) :
    pyMap (convDim (n0 :: ci :: sizes.map (fun n : Nat => (n : Int))) (co :: cg :: ws.map fun w => (w.kernel : Int))
      (ws.map fun w => (w.stride : Int)) (ws.map fun w => (w.padding : Int))
      (ws.map fun w => (w.dilation : Int))) (List.range sizes.length) =
      .ok (List.zipWith (fun w n => (w.places n false : Int)) ws sizes) := by
  rw [pyMap_ok_iff]
  refine ⟨by simp [hl], fun i h1 h2 => ?_⟩
  have h3 : i < sizes.length := by simpa using h1
  rw [List.getElem_range, convDim_eq _ _ _ _ _ _ _ (by omega) h3, List.getElem_zipWith]
  obtain ⟨a, b, c⟩ := hw i (by omega) h3
  rw [if_neg (by omega), conv_places _ _ a b c]

theorem convFits_iff (n0 ci co cg : Int) (sizes : List Nat) (ws : List Window) (i : Nat) (h : i < ws.length)
    (h' : i < sizes.length) (hk : 0 < ws[i].kernel) (u : Unit) :
    convFits (n0 :: ci :: sizes.map (fun n : Nat => (n : Int))) (co :: cg :: ws.map fun w => (w.kernel : Int))
      (ws.map fun w => (w.padding : Int)) (ws.map fun w => (w.dilation : Int)) i = .ok u ↔
      ws[i].span ≤ sizes[i] + 2 * ws[i].padding := by
  unfold convFits
  rw [pyGet_map_two _ _ _ _ _ h, pyGet_map_two _ _ _ _ _ h', pyGet_map _ _ _ h, pyGet_map _ _ _ h]
  simp only [bind, Except.bind]
  rw [pyAssert_ok, decide_eq_true_eq, ← span_int _ hk]
  omega

theorem bind_error' {α β : Type} (e : PyErr) (f : α → Py β) : ((.error e : Py α) >>= f) = .error e := rfl

theorem checkShapeForward_iff (n0 ci co cg groups : Int) (bias : Option (List Int)) (sizes : List Nat)
    (ws : List Window) (hl : ws.length = sizes.length) (hk : ∀ w ∈ ws, 0 < w.kernel) (u : Unit) :
    checkShapeForward (n0 :: ci :: sizes.map (fun n : Nat => (n : Int))) (co :: cg :: ws.map fun w => (w.kernel : Int))
      bias (ws.map fun w => (w.stride : Int)) (ws.map fun w => (w.padding : Int))
      (ws.map fun w => (w.dilation : Int)) groups = .ok u ↔
      groups ≤ co ∧ groups ≠ 0 ∧ groups ∣ co ∧ ci = cg * groups ∧ (∀ b, bias = some b → b = [co]) ∧
        ∀ i (h : i < ws.length) (h' : i < sizes.length), ws[i].span ≤ sizes[i] + 2 * ws[i].padding := by
  have hall : ∀ f : Window → Nat, (ws.map fun w => (f w : Int)).all (fun x => decide (0 ≤ x)) = true := by
    intro f
    rw [List.all_eq_true]
    intro x hx
    rw [List.mem_map] at hx
    obtain ⟨w, _, rfl⟩ := hx
    simp
  have hb : (match bias with | none => true | some b => decide (b = [co])) = true ↔
      ∀ b, bias = some b → b = [co] := by
    cases bias <;> simp
  have g0 : ∀ (a b : Int) (l : List Int), pyGet (a :: b :: l) 0 = .ok a := fun a b l => rfl
  have g1 : ∀ (a b : Int) (l : List Int), pyGet (a :: b :: l) 1 = .ok b := by
    intro a b l
    have := pyGet_nonneg (a :: b :: l) 1 (by simp)
    simpa using this
  unfold checkShapeForward
  simp only [bind_ok, pyAssert_ok, pyGuard_ok, hall, g0, g1, decide_eq_true_eq, exists_and_left,
    Except.ok.injEq, exists_eq_left', List.length_cons, List.length_map, true_and, Int.not_lt,
    exists_const]
  have hm : Int.fmod co groups = 0 ↔ groups ∣ co := (Int.dvd_iff_fmod_eq_zero).symm
  rw [hm]
  constructor
  · rintro ⟨_, h1, h2, h3, h4, h5, r, h6⟩
    refine ⟨h1, h2, h3, h4, hb.mp h5, fun i a a' => ?_⟩
    obtain ⟨q1, q2⟩ := pyMap_ok_iff.mp h6.1
    have := q2 i (by simpa using a') (by simp [q1]; exact a')
    rw [List.getElem_range] at this
    exact (convFits_iff _ _ _ _ _ _ _ a a' (hk _ (List.getElem_mem a)) _).mp this
  · rintro ⟨h1, h2, h3, h4, h5, h6⟩
    refine ⟨by omega, h1, h2, h3, h4, hb.mpr h5, List.replicate sizes.length (), ?_, trivial⟩
    rw [pyMap_ok_iff]
    refine ⟨by simp, fun i a a' => ?_⟩
    have a1 : i < sizes.length := by simpa using a
    rw [List.getElem_range]
    exact (convFits_iff _ _ _ _ _ _ _ (by omega) a1 (hk _ (List.getElem_mem _)) _).mpr (h6 i (by omega) a1)

end Verif.Shape
