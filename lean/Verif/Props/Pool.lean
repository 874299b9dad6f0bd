import Verif.Lemmas.Window

/-!
# C34 (pooling): the computed size is the number of window places
-/

namespace Verif

open Shape

/-- The size computed for a pooling dimension is the number of places of the window, and below one when
the window has no place, for every kernel, stride, dilation and padding up to the window's span. -/
theorem C34_pool (w : Window) (n : Nat) (ceil : Bool) (hk : 0 < w.kernel) (hs : 0 < w.stride)
    (hp : w.padding ≤ w.span) :
    ∃ o, poolOut n w.kernel w.padding w.stride w.dilation ceil = .ok o ∧ o.toNat = w.places n ceil :=
  poolOut_places w n ceil hk hs hp

example : poolOut 6 3 1 2 1 false = .ok 3 ∧ poolOut 6 3 1 2 1 true = .ok 4 ∧
    (Window.mk 3 2 1 1).places 6 false = 3 ∧ (Window.mk 3 2 1 1).places 6 true = 4 ∧
    -- the fourth window of stride 3 would start in the padding on the right
    poolOut 7 2 1 3 1 true = .ok 3 ∧ (Window.mk 2 3 1 1).places 7 true = 3 ∧
    poolOut 2 3 0 2 2 false = .ok (-1) ∧ (Window.mk 3 2 0 2).places 2 false = 0 := by
  refine ⟨?_, ?_, ?_, ?_, ?_, ?_, ?_, ?_⟩ <;> decide +kernel

/-- With more padding than the window spans the correction of `ceil_mode` does not suffice: windows are
counted that start in the padding on the right.  `pool1d` does not exclude this. -/
theorem C34_padding_violated : pool1d [1, 1] [1] [1] [3] true = .ok [1, 6] ∧
    (Window.mk 1 1 3 1).places 1 true = 4 ∧ 2 * 3 > 1 := by
  refine ⟨?_, ?_, ?_⟩ <;> decide +kernel

/-- `max_pool2d`, batched or not, for all parameters: exactly the accepted inputs and the result. -/
theorem C34_max_pool2d (wh ww : Window) (kernel stride padding dilation : List Int)
    (args : PoolArgs [wh, ww] kernel stride padding dilation)
    (batch : List Int) (hb : batch.length ≤ 1) (c : Int) (h w : Nat) (ceil : Bool) (r : List Int) :
    maxPool2d (batch ++ [c, (h : Int), (w : Int)]) kernel stride padding dilation ceil = .ok r ↔
      wh.Pool ∧ ww.Pool ∧ c ≠ 0 ∧ h ≠ 0 ∧ w ≠ 0 ∧ 1 ≤ wh.places h ceil ∧ 1 ≤ ww.places w ceil ∧
        r = batch ++ [c, (wh.places h ceil : Int), (ww.places w ceil : Int)] := by
  unfold maxPool2d
  rw [pair_perDim (a := wh.kernel) (b := ww.kernel) args.kernel]
  have hs : PerDim stride [wh.stride, ww.stride] ∨ (stride = [] ∧ wh.stride = wh.kernel ∧ ww.stride = ww.kernel) := by
    rcases args.stride with h | ⟨h1, h2⟩
    · exact .inl h
    · exact .inr ⟨h1, h2 wh (by simp), h2 ww (by simp)⟩
  simp only [stridePair_args hs, pair_perDim (a := wh.padding) (b := ww.padding) args.padding,
    pair_perDim (a := wh.dilation) (b := ww.dilation) args.dilation]
  exact pool2d_iff wh ww batch hb c h w ceil r

example : maxPool2d [2, 3, 10, 7] [3] [2, 1] [1] [1, 2] true = .ok [2, 3, 6, 5] ∧
    PoolArgs [⟨3, 2, 1, 1⟩, ⟨3, 1, 1, 2⟩] [3] [2, 1] [1] [1, 2] ∧
    (Window.mk 3 2 1 1).places 10 true = 6 ∧ (Window.mk 3 1 1 2).places 7 true = 5 := by
  refine ⟨by decide +kernel, ⟨.inr ⟨3, rfl, by simp⟩, .inl (.inl rfl), .inr ⟨1, rfl, by simp⟩, .inl rfl⟩, ?_, ?_⟩ <;>
    decide +kernel

/-- `avg_pool2d`: the same with dilation one. -/
theorem C34_avg_pool2d (wh ww : Window) (kernel stride padding : List Int)
    (args : PoolArgs [wh, ww] kernel stride padding [1])
    (batch : List Int) (hb : batch.length ≤ 1) (c : Int) (h w : Nat) (ceil : Bool) (r : List Int) :
    avgPool2d (batch ++ [c, (h : Int), (w : Int)]) kernel stride padding ceil = .ok r ↔
      wh.Pool ∧ ww.Pool ∧ c ≠ 0 ∧ h ≠ 0 ∧ w ≠ 0 ∧ 1 ≤ wh.places h ceil ∧ 1 ≤ ww.places w ceil ∧
        r = batch ++ [c, (wh.places h ceil : Int), (ww.places w ceil : Int)] := by
  rw [← C34_max_pool2d wh ww kernel stride padding [1] args batch hb c h w ceil r]
  rfl

example : avgPool2d [3, 10, 7] [3, 2] [] [1, 0] false = .ok [3, 4, 3] := by decide +kernel

/-- `max_pool3d` when the stride is given, or the kernel has the same size in all dimensions.  Missing:
an omitted stride with other kernels, see `C34_stride_violated`; inputs without a batch are rejected
although torch pools them to an empty result. -/
theorem C34_max_pool3d_partial (wd wh ww : Window) (kernel stride padding dilation : List Int)
    (args : PoolArgs [wd, wh, ww] kernel stride padding dilation)
    (hst : stride ≠ [] ∨ (wh.kernel = wd.kernel ∧ ww.kernel = wd.kernel))
    (batch : List Int) (hb : batch.length ≤ 1) (c : Int) (x h w : Nat) (ceil : Bool) (r : List Int) :
    maxPool3d (batch ++ [c, (x : Int), (h : Int), (w : Int)]) kernel stride padding dilation ceil = .ok r ↔
      wd.Pool ∧ wh.Pool ∧ ww.Pool ∧ 0 ∉ batch ++ [c] ∧ x ≠ 0 ∧ h ≠ 0 ∧ w ≠ 0 ∧ 1 ≤ wd.places x ceil ∧
        1 ≤ wh.places h ceil ∧ 1 ≤ ww.places w ceil ∧
        r = batch ++ [c, (wd.places x ceil : Int), (wh.places h ceil : Int), (ww.places w ceil : Int)] := by
  unfold maxPool3d
  rw [triple_perDim (a := wd.kernel) (b := wh.kernel) (c := ww.kernel) args.kernel]
  have hs : PerDim stride [wd.stride, wh.stride, ww.stride] ∨
      (stride = [] ∧ wd.stride = wd.kernel ∧ wh.stride = wd.kernel ∧ ww.stride = wd.kernel) := by
    rcases args.stride with h | ⟨h1, h2⟩
    · exact .inl h
    · rcases hst with h' | ⟨k1, k2⟩
      · exact absurd h1 h'
      · exact .inr ⟨h1, h2 wd (by simp), (h2 wh (by simp)).trans k1, (h2 ww (by simp)).trans k2⟩
  simp only [strideTriple_args hs,
    triple_perDim (a := wd.padding) (b := wh.padding) (c := ww.padding) args.padding,
    triple_perDim (a := wd.dilation) (b := wh.dilation) (c := ww.dilation) args.dilation]
  exact pool3d_iff wd wh ww batch hb c x h w ceil r

example : maxPool3d [2, 3, 10, 9, 8] [2] [] [1, 0, 0] [1] true = .ok [2, 3, 6, 5, 4] := by decide +kernel

/-- `avg_pool3d`: the same with dilation one. -/
theorem C34_avg_pool3d_partial (wd wh ww : Window) (kernel stride padding : List Int)
    (args : PoolArgs [wd, wh, ww] kernel stride padding [1])
    (hst : stride ≠ [] ∨ (wh.kernel = wd.kernel ∧ ww.kernel = wd.kernel))
    (batch : List Int) (hb : batch.length ≤ 1) (c : Int) (x h w : Nat) (ceil : Bool) (r : List Int) :
    avgPool3d (batch ++ [c, (x : Int), (h : Int), (w : Int)]) kernel stride padding ceil = .ok r ↔
      wd.Pool ∧ wh.Pool ∧ ww.Pool ∧ 0 ∉ batch ++ [c] ∧ x ≠ 0 ∧ h ≠ 0 ∧ w ≠ 0 ∧ 1 ≤ wd.places x ceil ∧
        1 ≤ wh.places h ceil ∧ 1 ≤ ww.places w ceil ∧
        r = batch ++ [c, (wd.places x ceil : Int), (wh.places h ceil : Int), (ww.places w ceil : Int)] := by
  rw [← C34_max_pool3d_partial wd wh ww kernel stride padding [1] args hst batch hb c x h w ceil r]
  rfl

example : avgPool3d [3, 10, 9, 8] [3, 2, 2] [2, 3, 1] [0] false = .ok [3, 4, 3, 7] := by decide +kernel

/-- An omitted stride: the kernel's depth is used as the stride of all three dimensions, so that fewer
windows are counted than fit. -/
theorem C34_stride_violated :
    maxPool3d [1, 8, 8, 8] [4, 2, 2] [] [0] [1] false = .ok [1, 2, 2, 2] ∧
    avgPool3d [1, 8, 8, 8] [4, 2, 2] [] [0] false = .ok [1, 2, 2, 2] ∧
    PoolArgs [⟨4, 4, 0, 1⟩, ⟨2, 2, 0, 1⟩, ⟨2, 2, 0, 1⟩] [4, 2, 2] [] [0] [1] ∧
    (Window.mk 2 2 0 1).places 8 false = 4 := by
  refine ⟨by decide +kernel, by decide +kernel,
    ⟨.inl rfl, .inr ⟨rfl, by simp⟩, .inr ⟨0, rfl, by simp⟩, .inr ⟨1, rfl, by simp⟩⟩, by decide +kernel⟩

/-- `pool1d` (`avg_pool1d`, and `max_pool1d` with dilation one), for the parameters torch accepts and when
the window has a place.  Missing: the code rejects nothing, see `C34_padding_violated` and
`C34_unchecked_violated`. -/
theorem C34_pool1d_partial (w : Window) (hw : w.Pool) (hd : w.dilation = 1) (stride : List Int)
    (hst : stride = [(w.stride : Int)] ∨ (stride = [] ∧ w.stride = w.kernel))
    (batch : List Int) (hb : batch.length ≤ 1) (c : Int) (n : Nat) (ceil : Bool) (hn : 1 ≤ w.places n ceil) :
    pool1d (batch ++ [c, (n : Int)]) [(w.kernel : Int)] stride [(w.padding : Int)] ceil =
      .ok (batch ++ [c, (w.places n ceil : Int)]) := by
  obtain ⟨o, e, p⟩ := poolOut_places w n ceil hw.1 hw.2.1 hw.padding_le
  rw [hd] at e
  have ho : o = (w.places n ceil : Int) := by omega
  have e' : poolOut n w.kernel w.padding w.stride 1 ceil = .ok (w.places n ceil : Int) := by
    rw [← ho]; exact e
  unfold pool1d
  rcases hst with rfl | ⟨rfl, hk⟩
  · match batch with
    | [] => simp [pool1d.run, e']
    | [m] => simp [pool1d.run, e']
    | _ :: _ :: _ => simp at hb
  · rw [hk] at e'
    match batch with
    | [] => simp [pool1d.run, e']
    | [m] => simp [pool1d.run, e']
    | _ :: _ :: _ => simp at hb

example : pool1d [4, 3, 10] [3] [] [1] true = .ok [4, 3, 4] ∧ (Window.mk 3 3 1 1).places 10 true = 4 := by
  refine ⟨?_, ?_⟩ <;> decide +kernel

/-- A window longer than the input: no place, but the computed size is not positive and nothing is
raised. -/
theorem C34_unchecked_violated : pool1d [3, 2] [4] [1] [0] false = .ok [3, -1] ∧
    (Window.mk 4 1 0 1).places 2 false = 0 := by
  refine ⟨?_, ?_⟩ <;> decide +kernel

/-- `max_pool1d` ignores its dilation. -/
theorem C34_dilation_violated : maxPool1d [1, 10] [3] [1] [0] [2] false = .ok [1, 8] ∧
    (Window.mk 3 1 0 2).places 10 false = 6 := by
  refine ⟨?_, ?_⟩ <;> decide +kernel

end Verif
