import Verif.Lemmas.Window

/-!
# C34 (convolution): the computed size is the number of window places; C35: padding "same"
-/

namespace Verif

open Shape

/-- `conv2d`, `conv3d` (`dims` = 2, 3), for all sizes and parameters: exactly the accepted inputs, and the
result is the batch, the output channels, and in every dimension the number of window places. -/
theorem C34_conv (dims : Nat) (n ci co cg groups : Int) (bias : Option (List Int)) (sizes : List Nat)
    (ws : List Window) (hs : sizes.length = dims) (hl : ws.length = dims)
    (hk : ∀ w ∈ ws, 0 < w.kernel) (r : List Int) :
    convNd dims (n :: ci :: sizes.map (fun n : Nat => (n : Int))) (co :: cg :: ws.map fun w => (w.kernel : Int))
      bias (ws.map fun w => (w.stride : Int)) (ws.map fun w => (w.padding : Int))
      (ws.map fun w => (w.dilation : Int)) groups = .ok r ↔
      groups ≤ co ∧ groups ≠ 0 ∧ groups ∣ co ∧ ci = cg * groups ∧ (∀ b, bias = some b → b = [co]) ∧
        (∀ w ∈ ws, 0 < w.stride) ∧
        (∀ i (h : i < ws.length) (h' : i < sizes.length), ws[i].span ≤ sizes[i] + 2 * ws[i].padding) ∧
        r = n :: co :: List.zipWith (fun w n => (w.places n false : Int)) ws sizes := by
  have g0 : ∀ (a b : Int) (l : List Int), pyGet (a :: b :: l) 0 = .ok a := fun a b l => rfl
  unfold convNd convOutputSize
  simp only [bind_ok, pyAssert_ok, decide_eq_true_eq, exists_and_left, List.length_cons, List.length_map,
    g0, Except.ok.injEq, exists_eq_left', exists_const]
  have hc := checkShapeForward_iff n ci co cg groups bias sizes ws (by omega) hk
  constructor
  · rintro ⟨_, _, u, hu, sz, hsz, rfl⟩
    obtain ⟨h1, h2, h3, h4, h5, h6⟩ := (hc u).mp hu
    have hst : ∀ w ∈ ws, 0 < w.stride := by
      intro w hw
      obtain ⟨i, hi, rfl⟩ := List.getElem_of_mem hw
      obtain ⟨q1, q2⟩ := pyMap_ok_iff.mp hsz
      have hi' : i < sizes.length := by omega
      have := q2 i (by simp; exact hi') (by simp [q1]; exact hi')
      rw [List.getElem_range, convDim_eq _ _ _ _ _ _ _ hi hi'] at this
      rcases Nat.eq_zero_or_pos ws[i].stride with h0 | h0
      · rw [if_pos h0] at this; cases this
      · exact h0
    refine ⟨h1, h2, h3, h4, h5, hst, h6, ?_⟩
    have := convDims_ok n ci co cg sizes ws (by omega)
      (fun i a a' => ⟨hk _ (List.getElem_mem a), hst _ (List.getElem_mem a), h6 i a a'⟩)
    rw [show sizes.length + 1 + 1 - 2 = sizes.length by omega, this] at hsz
    rw [Except.ok.inj hsz]
  · rintro ⟨h1, h2, h3, h4, h5, hst, h6, rfl⟩
    refine ⟨by omega, by omega, (), (hc ()).mpr ⟨h1, h2, h3, h4, h5, h6⟩, _, ?_, rfl⟩
    rw [show sizes.length + 1 + 1 - 2 = sizes.length by omega]
    exact convDims_ok n ci co cg sizes ws (by omega)
      (fun i a a' => ⟨hk _ (List.getElem_mem a), hst _ (List.getElem_mem a), h6 i a a'⟩)

example : convNd 2 [8, 4, 10, 12] [6, 2, 3, 5] (some [6]) [1, 2] [1, 0] [2, 1] 2 = .ok [8, 6, 8, 4] ∧
    (Window.mk 3 1 1 2).places 10 false = 8 ∧ (Window.mk 5 2 0 1).places 12 false = 4 := by
  refine ⟨?_, ?_, ?_⟩ <;> decide +kernel

/-- `convolution`, `conv1d` (which calls it), any number of dimensions, when every window has a place.
Missing: the code checks nothing, see `C34_conv_unchecked_violated`. -/
theorem C34_convolution_partial (n ci co cg groups : Int) (sizes : List Nat) (ws : List Window)
    (outputPadding : List Int) (hl : ws.length = sizes.length)
    (hw : ∀ i (h : i < ws.length) (h' : i < sizes.length),
      0 < ws[i].kernel ∧ 0 < ws[i].stride ∧ ws[i].span ≤ sizes[i] + 2 * ws[i].padding) :
    convForwards (n :: ci :: sizes.map (fun n : Nat => (n : Int))) (co :: cg :: ws.map fun w => (w.kernel : Int))
      (ws.map fun w => (w.stride : Int)) (ws.map fun w => (w.padding : Int))
      (ws.map fun w => (w.dilation : Int)) false outputPadding groups =
      .ok (n :: co :: List.zipWith (fun w n => (w.places n false : Int)) ws sizes) := by
  unfold convForwards
  simp only [Bool.false_eq_true, if_false, List.length_cons, List.length_map]
  rw [show sizes.length + 1 + 1 - 2 = sizes.length by omega,
    convDims_ok n ci co cg sizes ws hl hw]
  rfl

example : convForwards [8, 4, 10] [6, 2, 3] [2] [1] [2] false [] 2 = .ok [8, 6, 4] ∧
    conv1d [8, 4, 10] [6, 2, 3] [2] [1] [2] = .ok [8, 6, 4] ∧ (Window.mk 3 2 1 2).places 10 false = 4 := by
  refine ⟨?_, ?_, ?_⟩ <;> decide +kernel

/-- `convolution` accepts a kernel larger than the input, giving a negative size, and channels that do not
match. -/
theorem C34_conv_unchecked_violated :
    conv1d [1, 1, 2] [1, 1, 5] [1] [0] [1] = .ok [1, 1, -2] ∧ (Window.mk 5 1 0 1).places 2 false = 0 ∧
    conv1d [1, 7, 9] [1, 3, 5] [1] [0] [1] = .ok [1, 1, 5] := by
  refine ⟨?_, ?_, ?_⟩ <;> decide +kernel

/-- `conv_tbc` computes with the time-batch-channel sizes in place of batch-channel-time ones: for a kernel
of width three over ten time steps, `[8, 2, 5]` (eight places, batch 2, five output channels) is expected. -/
theorem C34_conv_tbc_violated :
    convTbc [10, 2, 4] [3, 4, 5] [5] 0 = .ok [0, 10, 3] ∧
    conv1d [2, 4, 10] [5, 4, 3] [1] [0] [] = .ok [2, 5, 8] ∧ (Window.mk 3 1 0 1).places 10 false = 8 := by
  refine ⟨?_, ?_, ?_⟩ <;> decide +kernel

namespace Shape

/-- The size computed for a transposed convolution. -/
theorem transpose_undoes (w : Window) (n extra : Nat) (hn : 0 < n) (hs : 0 < w.stride)
    (hf : 2 * w.padding ≤ (n - 1) * w.stride + w.span) :
    w.Undoes n extra ((n - 1) * w.stride + w.span - 2 * w.padding + extra) := by
  refine ⟨(n - 1) * w.stride + w.span - 2 * w.padding, ?_, ?_, rfl⟩
  · unfold Window.places
    simp only [Bool.false_eq_true, if_false]
    rw [show (n - 1) * w.stride + w.span - 2 * w.padding + 2 * w.padding = (n - 1) * w.stride + w.span by omega,
      windows_eq _ _ _ hs (by omega), Nat.add_sub_cancel, Nat.mul_div_cancel _ hs]
    omega
  · intro m hm
    unfold Window.places at hm
    simp only [Bool.false_eq_true, if_false] at hm
    rcases Nat.lt_or_ge (m + 2 * w.padding) w.span with h | h
    · rw [windows_zero _ _ _ h] at hm; omega
    · rw [windows_eq _ _ _ hs h] at hm
      have h1 : (n - 1) * w.stride ≤ m + 2 * w.padding - w.span := by
        rw [show n - 1 = (m + 2 * w.padding - w.span) / w.stride by omega]
        exact Nat.div_mul_le_self _ _
      omega

theorem transpose_places (w : Window) (n extra : Nat) (hn : 0 < n) (hs : 0 < w.stride)
    (hf : 2 * w.padding ≤ (n - 1) * w.stride + w.span) (he : extra < w.stride) :
    w.places ((n - 1) * w.stride + w.span - 2 * w.padding + extra) false = n := by
  unfold Window.places
  simp only [Bool.false_eq_true, if_false]
  rw [show (n - 1) * w.stride + w.span - 2 * w.padding + extra + 2 * w.padding =
    (n - 1) * w.stride + w.span + extra by omega, windows_eq _ _ _ hs (by omega),
    show (n - 1) * w.stride + w.span + extra - w.span = w.stride * (n - 1) + extra by
      rw [Nat.mul_comm]; omega, Nat.mul_add_div hs, Nat.div_eq_of_lt he]
  omega

theorem convTransposeDim_eq (n0 ci co cg : Int) (sizes extra : List Nat) (ws : List Window) (i : Nat)
    (h : i < ws.length) (h' : i < sizes.length) (h'' : i < extra.length) (hk : 0 < ws[i].kernel)
    (hn : 0 < sizes[i]) (hf : 2 * ws[i].padding ≤ (sizes[i] - 1) * ws[i].stride + ws[i].span) :
    convTransposeDim (n0 :: ci :: sizes.map (fun n : Nat => (n : Int)))
      (co :: cg :: ws.map fun w => (w.kernel : Int))
      (ws.map fun w => (w.stride : Int)) (ws.map fun w => (w.padding : Int))
      (ws.map fun w => (w.dilation : Int)) (extra.map fun n : Nat => (n : Int)) i =
      .ok (((sizes[i] - 1) * ws[i].stride + ws[i].span - 2 * ws[i].padding + extra[i] : Nat) : Int) := by
  have ho : outputPaddingAt (extra.map fun n : Nat => (n : Int)) i = .ok (extra[i] : Int) := by
    unfold outputPaddingAt
    rw [if_pos (by simp; omega), pyGet_map _ _ _ h'']
  unfold convTransposeDim
  rw [dilationAt_map _ _ h, ho, pyGet_map_two _ _ _ _ _ h, pyGet_map_two _ _ _ _ _ h', pyGet_map _ _ _ h,
    pyGet_map _ _ _ h]
  simp only [bind, Except.bind]
  congr 1
  have hspan := span_int _ hk
  have e1 : (((sizes[i] - 1) * ws[i].stride : Nat) : Int) = ((sizes[i] : Int) - 1) * ws[i].stride := by
    rw [Int.natCast_mul, Int.natCast_sub (by omega)]; rfl
  rw [← e1]
  omega

end Shape

/-- Transposed convolutions, any number of dimensions: the result is the batch, the output channels of all
groups, and in every dimension the smallest size from which the convolution makes the input's size, plus
the output padding; the convolution of the result has exactly the input's size when the output padding is
below the stride. -/
theorem C34_transposed (n ci co cg groups : Int) (sizes extra : List Nat) (ws : List Window)
    (hl : ws.length = sizes.length) (he : extra.length = sizes.length)
    (hw : ∀ i (h : i < ws.length) (h' : i < sizes.length), 0 < ws[i].kernel ∧ 0 < ws[i].stride ∧ 0 < sizes[i] ∧
      2 * ws[i].padding ≤ (sizes[i] - 1) * ws[i].stride + ws[i].span) :
    ∃ outs : List Nat,
      convForwards (n :: ci :: sizes.map (fun n : Nat => (n : Int)))
        (co :: cg :: ws.map fun w => (w.kernel : Int)) (ws.map fun w => (w.stride : Int))
        (ws.map fun w => (w.padding : Int)) (ws.map fun w => (w.dilation : Int)) true
        (extra.map fun n : Nat => (n : Int)) groups =
        .ok (n :: cg * groups :: outs.map fun n : Nat => (n : Int)) ∧
      outs.length = sizes.length ∧
      ∀ i (h : i < ws.length) (h1 : i < sizes.length) (h2 : i < extra.length) (h3 : i < outs.length),
        ws[i].Undoes sizes[i] extra[i] outs[i] ∧
        (extra[i] < ws[i].stride → ws[i].places outs[i] false = sizes[i]) := by
  refine ⟨(List.range sizes.length).map fun i =>
    if h : i < sizes.length then
      (sizes[i] - 1) * (ws[i]'(by omega)).stride + (ws[i]'(by omega)).span - 2 * (ws[i]'(by omega)).padding +
        (extra[i]'(by omega)) else 0, ?_, by simp, ?_⟩
  · unfold convForwards
    simp only [if_true, List.length_cons, List.length_map]
    rw [show sizes.length + 1 + 1 - 2 = sizes.length by omega]
    have : pyMap (convTransposeDim (n :: ci :: sizes.map (fun n : Nat => (n : Int)))
        (co :: cg :: ws.map fun w => (w.kernel : Int)) (ws.map fun w => (w.stride : Int))
        (ws.map fun w => (w.padding : Int)) (ws.map fun w => (w.dilation : Int))
        (extra.map fun n : Nat => (n : Int))) (List.range sizes.length) =
        .ok (((List.range sizes.length).map fun i =>
          if h : i < sizes.length then
            (sizes[i] - 1) * (ws[i]'(by omega)).stride + (ws[i]'(by omega)).span - 2 * (ws[i]'(by omega)).padding +
              (extra[i]'(by omega)) else 0).map fun n : Nat => (n : Int)) := by
      rw [pyMap_ok_iff]
      refine ⟨by simp, fun i h1 h2 => ?_⟩
      have h3 : i < sizes.length := by simpa using h1
      obtain ⟨a, b, c, d⟩ := hw i (by omega) h3
      rw [List.getElem_range, convTransposeDim_eq _ _ _ _ _ _ _ _ (by omega) h3 (by omega) a c d]
      simp [h3]
    rw [this]
    rfl
  · intro i h h1 h2 h3
    obtain ⟨a, b, c, d⟩ := hw i h h1
    simp only [List.getElem_map, List.getElem_range, dif_pos h1]
    exact ⟨transpose_undoes _ _ _ c b d, fun hx => transpose_places _ _ _ c b d hx⟩

example : convForwards [8, 4, 5] [4, 3, 3] [2] [1] [2] true [1] 2 = .ok [8, 6, 12] ∧
    (Window.mk 3 2 1 2).places 12 false = 5 ∧ (Window.mk 3 2 1 2).places 11 false = 5 ∧
    (Window.mk 3 2 1 2).places 10 false = 4 := by
  refine ⟨?_, ?_, ?_, ?_⟩ <;> decide +kernel

/-- `conv_transpose2d` computes what `convolution` does. -/
theorem C34_conv_transpose2d (input weight stride padding outputPadding dilation : List Int) (groups : Int)
    (ho : outputPadding ≠ []) (r : List Int) :
    convTranspose2d input weight stride padding outputPadding groups dilation = .ok r ↔
      convForwards input weight stride padding dilation true outputPadding groups = .ok r := by
  have hop : ∀ i, outputPaddingAt outputPadding i = pyGet outputPadding i := by
    intro i
    unfold outputPaddingAt
    rw [if_pos (by cases outputPadding <;> simp_all)]
  have hd : ∀ i x, convTranspose2d.convTranspose2dDim input weight stride padding outputPadding dilation i = .ok x ↔
      convTransposeDim input weight stride padding dilation outputPadding i = .ok x := by
    intro i x
    unfold convTranspose2d.convTranspose2dDim convTransposeDim
    simp only [bind_ok, hop]
    constructor
    · rintro ⟨d, h1, k, h2, n, h3, s, h4, p, h5, o, h6, h7⟩
      exact ⟨d, h1, o, h6, k, h2, n, h3, s, h4, p, h5, h7⟩
    · rintro ⟨d, h1, o, h6, k, h2, n, h3, s, h4, p, h5, h7⟩
      exact ⟨d, h1, k, h2, n, h3, s, h4, p, h5, o, h6, h7⟩
  unfold convTranspose2d convForwards
  simp only [bind_ok, if_true, pyMap_ok_iff, hd]

example : convTranspose2d [8, 4, 5, 5] [4, 3, 3, 1] [2, 1] [1, 0] [1, 0] 2 [2, 1] = .ok [8, 6, 12, 5] := by
  decide +kernel

namespace Shape

/-- The padding computed for "same" in dimension `i`: the dilation is taken from the other end. -/
theorem convPadding_loop (co cg : Int) (ws : List Window) (ds : List Window) (acc : List Int)
    (hacc : acc.length = ws.length) (hd : ds.length ≤ ws.length) :
    pyFold (convPaddingStep (co :: cg :: ws.map fun w => (w.kernel : Int))) acc
      ((ds.map fun w => (w.dilation : Int)).zip (List.range ds.length).reverse) =
      .ok ((ds.reverse.zip ws).map (fun p => Int.fdiv (p.1.dilation * ((p.2.kernel : Int) - 1)) 2) ++
        acc.drop ds.length) := by
  induction ds generalizing acc with
  | nil => rfl
  | cons d ds ih =>
    simp only [List.length_cons] at hd
    rw [List.length_cons, List.range_succ, List.reverse_append, List.reverse_singleton, List.map_cons,
      List.singleton_append, List.zip_cons_cons]
    unfold pyFold
    have hs : convPaddingStep (co :: cg :: ws.map fun w => (w.kernel : Int)) acc ((d.dilation : Int), ds.length) =
        .ok (acc.set ds.length (Int.fdiv (d.dilation * ((ws[ds.length].kernel : Int) - 1)) 2)) := by
      unfold convPaddingStep
      simp only
      rw [show ((2 + ds.length : Nat) : Int) = ((ds.length + 2 : Nat) : Int) by omega,
        pyGet_map_two _ _ _ _ _ (by omega)]
      simp only [bind, Except.bind]
      unfold pySet
      simp only [if_neg (show ¬ ((ds.length : Int) < 0) by omega)]
      rw [if_pos (by omega)]
      congr 2
    rw [hs]
    simp only
    rw [ih _ (by simp [hacc]) (by omega)]
    congr 1
    apply List.ext_getElem
    · simp; omega
    · intro i h1 h2
      simp only [List.length_append, List.length_map, List.length_zip, List.length_reverse, List.length_drop,
        List.length_set] at h1
      rw [List.getElem_append, List.getElem_append]
      rcases Nat.lt_trichotomy i ds.length with hi | hi | hi
      · rw [dif_pos (by simp; omega), dif_pos (by simp; omega)]
        simp only [List.getElem_map, List.getElem_zip]
        rw [List.getElem_reverse, List.getElem_reverse]
        congr 3
        rw [List.getElem_cons, dif_neg (by simp; omega)]
        congr 2
        simp
        omega
      · subst hi
        rw [dif_neg (by simp), dif_pos (by simp; omega)]
        simp only [List.getElem_drop, List.getElem_set, List.length_map, List.length_zip, List.length_reverse]
        rw [if_pos (by omega)]
        simp
      · rw [dif_neg (by simp; omega), dif_neg (by simp; omega)]
        simp only [List.getElem_drop, List.getElem_set, List.length_map, List.length_zip, List.length_reverse,
          List.length_cons]
        rw [if_neg (by omega)]
        congr 1
        omega

/-- The windows with the padding that keeps sizes: half of what the dilated kernel adds, rounded down. -/
def samePadding (ws : List Window) : List Window :=
  ws.map fun w => { w with padding := w.dilation * (w.kernel - 1) / 2 }

theorem convPadding_same (co cg : Int) (ws : List Window) (hne : ws ≠ []) (hk : ∀ w ∈ ws, 0 < w.kernel)
    (hpal : (ws.map (·.dilation)).reverse = ws.map (·.dilation)) :
    convPadding (co :: cg :: ws.map fun w => (w.kernel : Int)) (ws.map fun w => (w.dilation : Int)) "same" =
      .ok ((samePadding ws).map fun w => (w.padding : Int)) := by
  have hpos : 0 < ws.length := List.length_pos_iff.mpr hne
  unfold convPadding
  simp only [List.length_cons, List.length_map]
  rw [if_neg (by omega), if_pos trivial, show ws.length + 1 + 1 - 2 = ws.length by omega,
    convPadding_loop co cg ws ws _ (by simp) (by omega)]
  congr 1
  rw [show (List.replicate ws.length (0 : Int)).drop ws.length = [] by simp, List.append_nil]
  apply List.ext_getElem
  · simp [samePadding]
  · intro i h1 h2
    have hi : i < ws.length := by simpa [samePadding] using h2
    simp only [samePadding, List.getElem_map, List.getElem_zip]
    have hp : (ws.reverse[i]'(by simpa using hi)).dilation = ws[i].dilation := by
      have h3 : (ws.map (·.dilation)).reverse[i]? = (ws.map (·.dilation))[i]? := by rw [hpal]
      rw [← List.map_reverse, List.getElem?_map, List.getElem?_map, List.getElem?_eq_getElem (by simpa using hi),
        List.getElem?_eq_getElem hi] at h3
      simpa using h3
    rw [hp]
    have hk' := hk _ (List.getElem_mem hi)
    rw [show ((ws[i].kernel : Int) - 1) = ((ws[i].kernel - 1 : Nat) : Int) by omega, ← Int.natCast_mul,
      Int.fdiv_eq_ediv_of_nonneg _ (by omega)]
    norm_cast

theorem same_places (w : Window) (n : Nat) (hs : w.stride = 1) (hn : 0 < n) :
    ({ w with padding := w.dilation * (w.kernel - 1) / 2 } : Window).places n false =
      if 2 ∣ w.dilation * (w.kernel - 1) then n else n - 1 := by
  unfold Window.places Window.span
  simp only [Bool.false_eq_true, if_false, hs]
  by_cases h : 2 ∣ w.dilation * (w.kernel - 1)
  · rw [if_pos h, windows_eq _ _ _ (by omega) (by omega), Nat.div_one]
    omega
  · rw [if_neg h]
    rcases Nat.lt_or_ge n 2 with h2 | h2
    · rw [windows_zero _ _ _ (by omega)]; omega
    · rw [windows_eq _ _ _ (by omega) (by omega), Nat.div_one]
      omega

end Shape

/-- `conv2d`, `conv3d` with padding "same" and unit strides keep every size, for dilations that read the same
in both directions (equal dilations, for instance) when every dilated kernel adds an even number.  Missing: see
`C35_even_kernel_violated` and `C35_dilation_violated`. -/
theorem C35_same_partial (dims : Nat) (n ci co cg groups : Int) (bias : Option (List Int)) (sizes : List Nat)
    (ws : List Window) (hne : 0 < dims) (hs : sizes.length = dims) (hl : ws.length = dims)
    (hk : ∀ w ∈ ws, 0 < w.kernel ∧ w.stride = 1 ∧ 2 ∣ w.dilation * (w.kernel - 1)) (hn : ∀ m ∈ sizes, 0 < m)
    (hpal : (ws.map (·.dilation)).reverse = ws.map (·.dilation)) (r : List Int) :
    convNdPadding dims (n :: ci :: sizes.map (fun n : Nat => (n : Int)))
      (co :: cg :: ws.map fun w => (w.kernel : Int)) bias (ws.map fun w => (w.stride : Int)) "same"
      (ws.map fun w => (w.dilation : Int)) groups = .ok r ↔
      groups ≤ co ∧ groups ≠ 0 ∧ groups ∣ co ∧ ci = cg * groups ∧ (∀ b, bias = some b → b = [co]) ∧
        r = n :: co :: sizes.map fun n : Nat => (n : Int) := by
  have hnil : ws ≠ [] := by rintro rfl; simp at hl; omega
  unfold convNdPadding
  rw [convPadding_same co cg ws hnil (fun w hw => (hk w hw).1) hpal]
  have key := C34_conv dims n ci co cg groups bias sizes (samePadding ws) hs (by simp [samePadding, hl])
    (by intro w hw
        simp only [samePadding, List.mem_map] at hw
        obtain ⟨v, hv, rfl⟩ := hw
        exact (hk v hv).1) r
  have e1 : (samePadding ws).map (fun w => (w.kernel : Int)) = ws.map fun w => (w.kernel : Int) := by
    simp [samePadding]
  have e2 : (samePadding ws).map (fun w => (w.stride : Int)) = ws.map fun w => (w.stride : Int) := by
    simp [samePadding]
  have e3 : (samePadding ws).map (fun w => (w.dilation : Int)) = ws.map fun w => (w.dilation : Int) := by
    simp [samePadding]
  rw [e1, e2, e3] at key
  simp only [bind, Except.bind]
  rw [key]
  have hz : List.zipWith (fun w n => (w.places n false : Int)) (samePadding ws) sizes =
      sizes.map fun n : Nat => (n : Int) := by
    apply List.ext_getElem
    · simp [samePadding]; omega
    · intro i h1 h2
      have hi : i < sizes.length := by simpa using h2
      have hi' : i < ws.length := by omega
      rw [List.getElem_zipWith, List.getElem_map]
      simp only [samePadding, List.getElem_map]
      obtain ⟨a, b, c⟩ := hk _ (List.getElem_mem hi')
      rw [same_places _ _ b (hn _ (List.getElem_mem hi)), if_pos c]
  rw [hz]
  constructor
  · rintro ⟨h1, h2, h3, h4, h5, _, _, h6⟩
    exact ⟨h1, h2, h3, h4, h5, h6⟩
  · rintro ⟨h1, h2, h3, h4, h5, h6⟩
    refine ⟨h1, h2, h3, h4, h5, ?_, ?_, h6⟩
    · intro w hw
      simp only [samePadding, List.mem_map] at hw
      obtain ⟨v, hv, rfl⟩ := hw
      have := (hk v hv).2.1
      simp only
      omega
    · intro i h h'
      have hi' : i < ws.length := by omega
      obtain ⟨a, b, c⟩ := hk _ (List.getElem_mem hi')
      have := hn _ (List.getElem_mem h')
      simp only [samePadding, List.getElem_map, Window.span]
      omega

example : convNdPadding 2 [8, 4, 10, 12] [6, 4, 3, 5] none [1, 1] "same" [2, 2] 1 = .ok [8, 6, 10, 12] ∧
    convNdPadding 3 [8, 4, 10, 12, 7] [6, 4, 3, 2, 5] none [1, 1, 1] "same" [1, 2, 1] 1 = .ok [8, 6, 10, 12, 7] := by
  refine ⟨?_, ?_⟩ <;> decide +kernel

/-- `conv1d` with padding "same" and unit stride, for every kernel and dilation: the size is kept exactly when the
dilated kernel adds an even number, and is one less otherwise. -/
theorem C35_conv1d_partial (n ci co cg : Int) (m : Nat) (w : Window) (hk : 0 < w.kernel) (hs : w.stride = 1)
    (hm : 2 ≤ m) :
    conv1dPadding [n, ci, (m : Int)] [co, cg, (w.kernel : Int)] [(w.stride : Int)] "same" [(w.dilation : Int)] =
      .ok [n, co, ((if 2 ∣ w.dilation * (w.kernel - 1) then m else m - 1 : Nat) : Int)] := by
  unfold conv1dPadding
  have h1 := convPadding_same co cg [w] (by simp) (by simpa using hk) rfl
  simp only [List.map_cons, List.map_nil] at h1
  rw [h1]
  have h2 := C34_convolution_partial n ci co cg 1 [m] (samePadding [w]) [] rfl (by
    intro i h h'
    have : i = 0 := by simp [samePadding] at h; omega
    subst this
    simp only [samePadding, List.map_cons, List.map_nil, List.getElem_cons_zero, Window.span]
    omega)
  simp only [samePadding, List.map_cons, List.map_nil, List.zipWith_cons_cons, List.zipWith_nil_left] at h2
  rw [same_places w m hs (by omega)] at h2
  exact h2

example : conv1dPadding [8, 4, 10] [6, 4, 3] [1] "same" [3] = .ok [8, 6, 10] := by decide +kernel

/-- An even kernel: the padding is rounded down on both sides, and the size shrinks by one. -/
theorem C35_even_kernel_violated :
    convNdPadding 2 [1, 1, 10, 10] [1, 1, 2, 2] none [1, 1] "same" [1, 1] 1 = .ok [1, 1, 9, 9] ∧
    conv1dPadding [1, 1, 10] [1, 1, 4] [1] "same" [1] = .ok [1, 1, 9] := by
  refine ⟨?_, ?_⟩ <;> decide +kernel

/-- Dilations are paired with the kernel dimensions in the wrong order, so that different dilations change
the sizes. -/
theorem C35_dilation_violated :
    convNdPadding 2 [1, 1, 10, 10] [1, 1, 3, 3] none [1, 1] "same" [1, 2] 1 = .ok [1, 1, 12, 8] := by
  decide +kernel

/-- Any other padding text means no padding, whatever it says. -/
theorem C35_valid (weight dilation : List Int) (padding : String) (hp : padding ≠ "same") (hw : 2 < weight.length) :
    convPadding weight dilation padding = .ok (List.replicate (weight.length - 2) 0) := by
  unfold convPadding
  rw [if_neg (by omega), if_neg hp]

example : convNdPadding 2 [1, 1, 10, 10] [1, 1, 3, 3] none [1, 1] "valid" [1, 2] 1 = .ok [1, 1, 8, 6] := by
  decide +kernel

end Verif
