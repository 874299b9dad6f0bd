import Verif.Lemmas.LinConv

/-! # Convolutions: places -/

namespace Verif.Conv

open Lin

variable {A B C R : Type}

/-- What torch accepts for a dimension. -/
def GoodAt (transposed : Bool) (n k : Int) (a : Axis) : Prop :=
  0 < k ∧ 0 < a.stride ∧ 0 < a.dilation ∧ 0 ≤ a.padding ∧
    (if transposed then 0 < n ∧ 0 ≤ a.outPad ∧ 2 * a.padding ≤ (n - 1) * a.stride + a.dilation * (k - 1) + a.outPad ∧
        (n - 1) * a.stride + 2 * (a.dilation * (k - 1)) + a.outPad + 1 < 2 ^ 63 else 0 ≤ n ∧ a.dilation * (k - 1) < n + 2 * a.padding)

inductive GoodAll (transposed : Bool) : List Int → List Int → List Axis → Prop where
  | nil : GoodAll transposed [] [] []
  | cons {n k : Int} {a : Axis} {ns ks : List Int} {as : List Axis} (h : GoodAt transposed n k a) (t : GoodAll transposed ns ks as) :
    GoodAll transposed (n :: ns) (k :: ks) (a :: as)

theorem goodAll {transposed : Bool} : ∀ {ns ks : List Int} {as : List Axis}, Good transposed ns ks as → GoodAll transposed ns ks as
  | [], [], [], _ => .nil
  | _ :: _, _ :: _, _ :: _, h => .cons h.1 (goodAll h.2)
  | [], [], _ :: _, h => h.elim
  | [], _ :: _, [], h => h.elim
  | [], _ :: _, _ :: _, h => h.elim
  | _ :: _, [], [], h => h.elim
  | _ :: _, [], _ :: _, h => h.elim
  | _ :: _, _ :: _, [], h => h.elim

theorem outDim_iff {n k : Int} {a : Axis} (hs : 0 < a.stride) (o : Int) : o < outDim n k a ↔ o * a.stride + a.dilation * (k - 1) < n + 2 * a.padding := by
  unfold outDim
  have := Pool.fdiv_ge (a := n + a.padding * 2 - a.dilation * (k - 1) - 1) (c := o) hs
  omega

theorem eq_of_iff {m m' : Int} (h0 : 0 ≤ m) (h0' : 0 ≤ m') (h : ∀ o, 0 ≤ o → (o < m ↔ o < m')) : m = m' := by
  have h1 := h m h0
  have h2 := h m' h0'
  omega

theorem outs_eq {ns ks : List Int} {as : List Axis} (hg : GoodAll false ns ks as) : ∀ {outs : List Int}, Places ns ks as outs → forAxes outDim ns ks as = outs := by
  induction hg with
  | nil => intro outs h; cases outs with
    | nil => rfl
    | cons _ _ => exact h.elim
  | cons h _ ih =>
    rename_i n k a ns ks as _
    intro outs hp
    cases outs with
    | nil => exact hp.elim
    | cons m ms =>
      obtain ⟨h1, h2, h3⟩ := hp
      simp only [forAxes]
      rw [ih h3]
      congr 1
      have h0 : 0 ≤ outDim n k a := by
        have := (outDim_iff (n := n) (k := k) h.2.1 (-1)).2 (by
          have := h.2.2.2.2
          simp only [Bool.false_eq_true, if_false] at this
          have := h.2.1
          omega)
        omega
      exact eq_of_iff h0 h2 fun o ho => by rw [h1 o ho, outDim_iff h.2.1]

theorem tap_reach : ∀ (as : List Axis) (o k : List Int), o.length = as.length → k.length = as.length →
    List.zipWith (· - ·) (tap as o k) (as.map (·.padding)) = reach as o k
  | [], _, _, _, _ => by simp [tap, reach]
  | a :: as, o :: os, k :: ks, h1, h2 => by
    simp only [tap, reach, List.map_cons, List.zipWith_cons_cons]
    rw [tap_reach as os ks (by simpa using h1) (by simpa using h2)]
    congr 1
    omega
  | _ :: _, [], _, h, _ => by simp at h
  | _ :: _, _ :: _, [], _, h => by simp at h

theorem lengths {tr : Bool} {ns ks : List Int} {as : List Axis} (h : GoodAll tr ns ks as) : ns.length = as.length ∧ ks.length = as.length := by
  induction h with
  | nil => exact ⟨rfl, rfl⟩
  | cons _ _ ih => simp [ih.1, ih.2]

theorem kernel_le {k K d : Int} (hd : 0 < d) (hk : k < K) : k * d ≤ d * (K - 1) := by
  rw [Int.mul_comm d]
  exact Int.mul_le_mul_of_nonneg_right (by omega) (by omega)

theorem tap_range {ns ks : List Int} {as : List Axis} (hg : GoodAll false ns ks as) : ∀ {outs o k : List Int}, Places ns ks as outs → inRange outs o = true →
    inRange ks k = true → inRange (List.zipWith (· + ·) ns (List.zipWith (· + ·) (as.map (·.padding)) (as.map (·.padding)))) (tap as o k) = true := by
  induction hg with
  | nil => intro outs o k _ _ _; rfl
  | cons h _ ih =>
    intro outs o k hp ho hk
    cases outs with
    | nil => exact hp.elim
    | cons m ms =>
      obtain ⟨i, o, rfl, hi0, hi1, ho⟩ := inRange_uncons ho
      obtain ⟨j, k, rfl, hj0, hj1, hk⟩ := inRange_uncons hk
      obtain ⟨h1, h2, h3⟩ := hp
      simp only [tap, List.map_cons, List.zipWith_cons_cons]
      refine inRange_cons.2 ⟨⟨Int.add_nonneg (Int.mul_nonneg hi0 (Int.le_of_lt h.2.1)) (Int.mul_nonneg hj0 (Int.le_of_lt h.2.2.1)), ?_⟩, ih h3 ho hk⟩
      have := (h1 i hi0).1 hi1
      have := kernel_le h.2.2.1 hj1
      omega

theorem places_length : ∀ {ns ks : List Int} {as : List Axis} {outs : List Int}, Places ns ks as outs → outs.length = as.length
  | [], [], [], [], _ => rfl
  | _ :: _, _ :: _, _ :: _, _ :: _, h => by simpa using places_length h.2.2
  | [], [], [], _ :: _, h => h.elim
  | [], [], _ :: _, _, h => h.elim
  | [], _ :: _, [], _, h => h.elim
  | [], _ :: _, _ :: _, _, h => h.elim
  | _ :: _, [], [], _, h => h.elim
  | _ :: _, [], _ :: _, _, h => h.elim
  | _ :: _, _ :: _, [], _, h => h.elim
  | _ :: _, _ :: _, _ :: _, [], h => h.elim

/-- What is read from the padded input. -/
theorem padInput_read {x : Tensor A} {vx : List Int → A} (hx : Pool.Holds x vx) {n c : Int} {ns ks outs : List Int} {as : List Axis} (hs : x.sizes = n :: c :: ns)
    (hg : GoodAll false ns ks as) (hp : Places ns ks as outs) {v : A} {b i : Int} {o k : List Int} (hb : 0 ≤ b ∧ b < n) (hi : 0 ≤ i ∧ i < c)
    (ho : inRange outs o = true) (hk : inRange ks k = true) :
    inRange ((padInput x as v).sizes.drop 2) (tap as o k) = true ∧
    (padInput x as v).get (b :: i :: tap as o k) = some (if inRange ns (reach as o k) then vx (b :: i :: reach as o k) else v) := by
  have hl := lengths hg
  have hr := tap_range hg hp ho hk
  have e := tap_reach as o k (by rw [inRange_length ho, places_length hp]) (by rw [inRange_length hk, hl.2])
  have es : (padInput x as v).sizes = n :: c :: List.zipWith (· + ·) ns (List.zipWith (· + ·) (as.map (·.padding)) (as.map (·.padding))) := by
    simp [padInput, Pool.pad, hs]
  refine ⟨by rw [es]; exact hr, ?_⟩
  rw [get_of_range (by rw [es]; exact inRange_cons.2 ⟨hb, inRange_cons.2 ⟨hi, hr⟩⟩)]
  simp only [padInput, Pool.pad, List.zipWith_cons_cons, e, hs, Int.sub_zero]
  by_cases q : inRange ns (reach as o k) = true
  · have q' : inRange (n :: c :: ns) (b :: i :: reach as o k) = true := inRange_cons.2 ⟨hb, inRange_cons.2 ⟨hi, q⟩⟩
    rw [if_pos q', if_pos q, hx _ (by rw [hs]; exact q')]
  · have q' : ¬ inRange (n :: c :: ns) (b :: i :: reach as o k) = true := fun h => q (inRange_cons.1 (inRange_cons.1 h).2).2
    rw [if_neg q', if_neg q]

/-! ## Transposed convolutions -/

/-- The input that is put at place `o` by the element `k` of the kernel. -/
def orig : List Int → List Axis → List Int → List Int → Option (List Int)
  | n :: ns, a :: as, o :: os, k :: ks =>
    if (o + a.padding - k * a.dilation) % a.stride = 0 ∧ 0 ≤ (o + a.padding - k * a.dilation) / a.stride ∧ (o + a.padding - k * a.dilation) / a.stride < n then
      match orig ns as os ks with
      | some js => some ((o + a.padding - k * a.dilation) / a.stride :: js)
      | none => none
    else none
  | _, _, _, _ => some []

/-- Positive strides. -/
inductive Strides : List Int → List Axis → Prop where
  | nil : Strides [] []
  | cons {n : Int} {a : Axis} {ns : List Int} {as : List Axis} (h : 0 < a.stride) (t : Strides ns as) : Strides (n :: ns) (a :: as)

theorem GoodAll.strides {tr : Bool} {ns ks : List Int} {as : List Axis} (h : GoodAll tr ns ks as) : Strides ns as := by
  induction h with
  | nil => exact .nil
  | cons h _ ih => exact .cons h.2.1 ih

theorem sum_orig [CommSemiring C] {ns : List Int} {as : List Axis} (hg : Strides ns as) : ∀ {o k : List Int} (F : List Int → C), o.length = as.length → k.length = as.length →
    (sumOver ns fun i => if reach as i k = o then F i else 0) = (orig ns as o k).elim 0 F := by
  induction hg with
  | nil =>
    intro o k F h1 h2
    have e1 : o = [] := List.length_eq_zero_iff.1 h1
    subst e1
    simp [sumOver, reach, orig]
  | cons h _ ih =>
    rename_i n a ns as _
    intro o k F h1 h2
    cases o with
    | nil => simp at h1
    | cons o os =>
      cases k with
      | nil => simp at h2
      | cons k ks =>
        have ih := fun F => @ih os ks F (by simpa using h1) (by simpa using h2)
        simp only [sumOver, reach, List.cons.injEq]
        have hs := h
        have e : ∀ i : Int, i * a.stride - a.padding + k * a.dilation = o ↔ i * a.stride = o + a.padding - k * a.dilation := fun i => by omega
        have hz : ∀ i : Int, ¬ i * a.stride - a.padding + k * a.dilation = o →
            (sumOver ns fun r => if i * a.stride - a.padding + k * a.dilation = o ∧ reach as r ks = os then F (i :: r) else 0) = 0 := by
          intro i hi
          exact (sumOver_congr fun r _ => if_neg fun q => hi q.1).trans (sumOver_zero ns)
        generalize hT : o + a.padding - k * a.dilation = T at e
        have hq : ∀ i : Int, i * a.stride = T → i = T / a.stride := by
          intro i hi
          rw [← hi, Int.mul_ediv_cancel _ (by omega)]
        rw [sumTo_single (q := T / a.stride) fun i _ _ hne => hz i fun q => hne (hq i ((e i).1 q))]
        simp only [orig, hT]
        by_cases hm : T % a.stride = 0
        · have ht : T / a.stride * a.stride = T := Int.ediv_mul_cancel (Int.dvd_of_emod_eq_zero hm)
          by_cases hr : 0 ≤ T / a.stride ∧ T / a.stride < n
          · rw [if_pos hr, if_pos ⟨hm, hr⟩]
            have hc := (e _).2 ht
            have : (sumOver ns fun r => if T / a.stride * a.stride - a.padding + k * a.dilation = o ∧ reach as r ks = os then F (T / a.stride :: r) else 0) =
                sumOver ns fun r => if reach as r ks = os then F (T / a.stride :: r) else 0 := by
              apply sumOver_congr
              intro r _
              simp only [hc, true_and]
            rw [this, ih fun r => F (T / a.stride :: r)]
            cases orig ns as os ks <;> rfl
          · rw [if_neg hr, if_neg fun q => hr q.2]
            rfl
        · rw [if_neg fun q : T % a.stride = 0 ∧ _ => hm q.1]
          have hne : ¬ T / a.stride * a.stride - a.padding + k * a.dilation = o := by
            intro q
            have := (e _).1 q
            exact hm (by rw [← this]; exact Int.mul_emod_left _ _)
          rw [hz _ hne]
          by_cases hr : 0 ≤ T / a.stride ∧ T / a.stride < n
          · rw [if_pos hr]; rfl
          · rw [if_neg hr]; rfl

/-- What a crop needs for a dimension. -/
def CropAt (k : Int) (a : Axis) : Prop := a.dilation * (k - 1) < a.padding → a.known = true ∧ a.outPad ≤ a.padding - a.dilation * (k - 1)

structure Fits (n k : Int) (a : Axis) : Prop where
  insert : 0 ≤ insertAt n k a
  diff : insertAt n k a - extractAt n k a = a.dilation * (k - 1) - a.padding
  inner : insertAt n k a + (n - 1) * a.stride < maxSize n k a
  extract : 0 ≤ extractAt n k a
  outer : extractAt n k a + outer n k a ≤ maxSize n k a
  plain : crops n k a = false → extractAt n k a = 0 ∧ insertAt n k a + (n - 1) * a.stride < Conv.outer n k a
  size : Conv.outer n k a = transposedDim n k a + a.dilation * (k - 1)
  pos : 0 < transposedDim n k a

theorem fits_at {n k : Int} {a : Axis} (h : GoodAt true n k a) (hc : CropAt k a) : Fits n k a := by
  obtain ⟨h1, h2, h3, h4, h5⟩ := h
  simp only [if_true] at h5
  obtain ⟨h5, h6, h7, h8⟩ := h5
  have hD : 0 ≤ a.dilation * (k - 1) := Int.mul_nonneg (by omega) (by omega)
  have hS : 0 ≤ (n - 1) * a.stride := Int.mul_nonneg (by omega) (by omega)
  have eD : (k - 1) * a.dilation = a.dilation * (k - 1) := Int.mul_comm _ _
  unfold CropAt at hc
  have hoff : offset n k a = a.dilation * (k - 1) - a.padding := by unfold offset; rw [eD]
  have hin : inner n k a = (n - 1) * a.stride + 1 := rfl
  have hout : outer n k a = (a.dilation * (k - 1) - a.padding) * 2 + ((n - 1) * a.stride + 1) + a.outPad := by
    unfold outer; rw [hoff, hin]
  have htr : transposedDim n k a = (n - 1) * a.stride - a.padding * 2 + a.dilation * (k - 1) + a.outPad + 1 := by unfold transposedDim; rw [eD]
  have m1 : outer n k a % 2 ^ 64 = outer n k a := Int.emod_eq_of_lt (by omega) (by omega)
  have m2 : inner n k a % 2 ^ 64 = inner n k a := Int.emod_eq_of_lt (by omega) (by omega)
  have hmax : inner n k a ≤ maxSize n k a ∧ outer n k a ≤ maxSize n k a := by
    unfold maxSize
    rw [m1, m2]
    by_cases q : outer n k a > inner n k a
    · rw [if_pos q]; omega
    · rw [if_neg q]; omega
  by_cases q : a.dilation * (k - 1) < a.padding
  · obtain ⟨k1, k2⟩ := hc q
    have hcr : crops n k a = true := by
      unfold crops
      rw [k1, hoff]
      simpa using q
    have hi : insertAt n k a = 0 := by unfold insertAt; rw [hcr]; rfl
    have he : extractAt n k a = a.padding - a.dilation * (k - 1) := by
      unfold extractAt
      rw [hcr, hoff]
      simp only [if_true]
      omega
    exact ⟨by omega, by omega, by omega, by omega, by omega, fun c => by rw [hcr] at c; simp at c, by omega, by omega⟩
  · have hcr : crops n k a = false := by
      unfold crops
      rw [hoff]
      simp
      omega
    have hi : insertAt n k a = a.dilation * (k - 1) - a.padding := by unfold insertAt; rw [hcr, hoff]; rfl
    have he : extractAt n k a = 0 := by unfold extractAt; rw [hcr]; rfl
    exact ⟨by omega, by omega, by omega, by omega, by omega, fun _ => ⟨he, by omega⟩, by omega, by omega⟩

inductive FitsAll : List Int → List Int → List Axis → Prop where
  | nil : FitsAll [] [] []
  | cons {n k : Int} {a : Axis} {ns ks : List Int} {as : List Axis} (hg : GoodAt true n k a) (h : Fits n k a) (t : FitsAll ns ks as) :
    FitsAll (n :: ns) (k :: ks) (a :: as)

theorem fitsAll {ns ks : List Int} {as : List Axis} (hg : GoodAll true ns ks as) (hc : Cropped ks as) : FitsAll ns ks as := by
  induction hg with
  | nil => exact .nil
  | cons h _ ih => exact .cons h (fits_at h hc.1) (ih hc.2)

theorem forAxes_all {ns ks : List Int} {as : List Axis} (h : FitsAll ns ks as) (P : Int → Int → Axis → Bool) (hP : ∀ n k a, Fits n k a → P n k a = true) :
    (forAxes P ns ks as).all id = true := by
  induction h with
  | nil => rfl
  | cons _ h _ ih => simp only [forAxes, List.all_cons, ih, id, hP _ _ _ h, Bool.and_self]

theorem forAxes_plain {ns ks : List Int} {as : List Axis} (h : FitsAll ns ks as) (hn : (forAxes crops ns ks as).any id = false) :
    (forAxes (fun n k a => fits (outer n k a) (insertAt n k a) n a.stride) ns ks as).all id = true ∧
    ∀ j : List Int, j.length = as.length → List.zipWith (· + ·) (forAxes extractAt ns ks as) j = j := by
  induction h with
  | nil => exact ⟨rfl, fun j hj => by rw [List.length_eq_zero_iff.1 hj]; rfl⟩
  | cons _ h _ ih =>
    simp only [forAxes, List.any_cons, id, Bool.or_eq_false_iff] at hn
    obtain ⟨h1, h2⟩ := ih hn.2
    obtain ⟨p1, p2⟩ := h.plain hn.1
    refine ⟨?_, fun j hj => ?_⟩
    · have hq : fits (outer _ _ _) (insertAt _ _ _) _ _ = true := decide_eq_true ⟨h.insert, p2⟩
      simp only [forAxes, List.all_cons, id, hq, Bool.true_and]
      exact h1
    · cases j with
      | nil => simp at hj
      | cons j js =>
        simp only [forAxes, List.zipWith_cons_cons, p1, Int.zero_add, h2 js (by simpa using hj)]

/-- One step of a transposed convolution has no stride. -/
def one (as : List Axis) : List Axis := as.map fun a => { a with stride := 1 }

theorem flip_range : ∀ {ks k : List Int}, inRange ks k = true → inRange ks (flipped ks k) = true ∧ flipped ks (flipped ks k) = k
  | [], k, h => by rw [inRange_nil h]; exact ⟨rfl, rfl⟩
  | n :: ks, k, h => by
    obtain ⟨i, js, rfl, h1, h2, h3⟩ := inRange_uncons h
    obtain ⟨k1, k2⟩ := flip_range h3
    simp only [flipped] at k1 k2 ⊢
    simp only [List.zipWith_cons_cons, k2]
    exact ⟨inRange_cons.2 ⟨by omega, k1⟩, by congr 1; omega⟩

theorem read_places {ns ks : List Int} {as : List Axis} (h : FitsAll ns ks as) : ∀ {o k : List Int}, inRange (forAxes transposedDim ns ks as) o = true → inRange ks k = true →
    inRange (forAxes outer ns ks as) (tap (one as) o (flipped ks k)) = true ∧
    inRange (forAxes maxSize ns ks as) (List.zipWith (· + ·) (forAxes extractAt ns ks as) (tap (one as) o (flipped ks k))) = true ∧
    unplace (forAxes insertAt ns ks as) ns (as.map (·.stride)) (List.zipWith (· + ·) (forAxes extractAt ns ks as) (tap (one as) o (flipped ks k))) = orig ns as o k ∧
    (∀ j, orig ns as o k = some j → inRange ns j = true) := by
  induction h with
  | nil =>
    intro o k ho hk
    rw [inRange_nil ho, inRange_nil hk]
    refine ⟨rfl, rfl, rfl, fun j hj => ?_⟩
    simp only [orig, Option.some.injEq] at hj
    rw [← hj]; rfl
  | cons hg h _ ih =>
    rename_i n K a ns ks as _
    intro o k ho hk
    obtain ⟨o, os, rfl, o0, o1, ho⟩ := inRange_uncons ho
    obtain ⟨k, js, rfl, k0, k1, hk⟩ := inRange_uncons hk
    obtain ⟨i1, i2, i3, i4⟩ := ih ho hk
    have e : flipped (K :: ks) (k :: js) = (K - 1 - k) :: flipped ks js := rfl
    have e2 : one (a :: as) = { a with stride := 1 } :: one as := rfl
    have hd := hg.2.2.1
    have ekd : (K - 1 - k) * a.dilation = a.dilation * (K - 1) - k * a.dilation := by rw [Int.sub_mul, Int.mul_comm (K - 1)]
    have hkd : 0 ≤ k * a.dilation := Int.mul_nonneg k0 (by omega)
    have hkD := kernel_le hd k1
    have f1 := h.size
    have f2 := h.extract
    have f3 := h.outer
    have f4 := h.diff
    rw [e, e2]
    simp only [forAxes, tap, List.zipWith_cons_cons, List.map_cons, Int.mul_one, ekd]
    refine ⟨inRange_cons.2 ⟨by omega, i1⟩, inRange_cons.2 ⟨by omega, i2⟩, ?_, ?_⟩
    · have ep : extractAt n K a + (o + (a.dilation * (K - 1) - k * a.dilation)) - insertAt n K a = o + a.padding - k * a.dilation := by omega
      simp only [unplace, orig, ep, i3]
      cases orig ns as os js <;> rfl
    · intro j hj
      simp only [orig] at hj
      by_cases q : (o + a.padding - k * a.dilation) % a.stride = 0 ∧ 0 ≤ (o + a.padding - k * a.dilation) / a.stride ∧ (o + a.padding - k * a.dilation) / a.stride < n
      · rw [if_pos q] at hj
        cases hr : orig ns as os js with
        | none => rw [hr] at hj; simp at hj
        | some r =>
          rw [hr] at hj
          simp only [Option.some.injEq] at hj
          rw [← hj]
          exact inRange_cons.2 ⟨q.2, i4 r hr⟩
      · rw [if_neg q] at hj; simp at hj

theorem unplace_lead {b i n c : Int} {os ns ss j : List Int} (hb : 0 ≤ b ∧ b < n) (hi : 0 ≤ i ∧ i < c) :
    unplace (0 :: 0 :: os) (n :: c :: ns) (1 :: 1 :: ss) (b :: i :: j) = (unplace os ns ss j).map fun j => b :: i :: j := by
  simp only [unplace, Int.sub_zero, Int.emod_one, Int.ediv_one, true_and]
  rw [if_pos hb, if_pos hi]
  cases unplace os ns ss j <;> rfl

/-- What is inserted into the buffer is read from it. -/
theorem insert_read {x : Tensor A} {vx : List Int → A} (hx : Pool.Holds x vx) {n c : Int} {ns sizes os ss j : List Int} (hs : x.sizes = n :: c :: ns) {v : A} {b i : Int}
    (hb : 0 ≤ b ∧ b < n) (hi : 0 ≤ i ∧ i < c) (hj : inRange sizes j = true) {r : Option (List Int)} (hu : unplace os ns ss j = r) (hr : ∀ q, r = some q → inRange ns q = true) :
    (insertSlice x (fill (n :: c :: sizes) v) (0 :: 0 :: os) x.sizes (1 :: 1 :: ss)).get (b :: i :: j) = some (r.elim v fun q => vx (b :: i :: q)) := by
  have hin : inRange (n :: c :: sizes) (b :: i :: j) = true := inRange_cons.2 ⟨hb, inRange_cons.2 ⟨hi, hj⟩⟩
  rw [get_of_range hin]
  simp only [insertSlice, hs]
  rw [unplace_lead hb hi, hu]
  cases r with
  | none => exact get_of_range hin
  | some q =>
    have hq : inRange x.sizes (b :: i :: q) = true := by rw [hs]; exact inRange_cons.2 ⟨hb, inRange_cons.2 ⟨hi, hr q rfl⟩⟩
    exact (get_of_range hq).trans (hx _ hq)

theorem place_ones : ∀ (e j : List Int), j.length = e.length → place e (List.replicate e.length 1) j = List.zipWith (· + ·) e j
  | [], [], _ => rfl
  | a :: e, i :: j, h => by simp [place, List.replicate_succ, place_ones e j (by simpa using h)]
  | [], _ :: _, h => by simp at h
  | _ :: _, [], h => by simp at h

theorem forAxes_length {α : Type} (f : Int → Int → Axis → α) {ns ks : List Int} {as : List Axis} (h : FitsAll ns ks as) :
    (forAxes f ns ks as).length = as.length ∧ ns.length = as.length ∧ ks.length = as.length := by
  induction h with
  | nil => exact ⟨rfl, rfl, rfl⟩
  | cons _ _ _ ih => simp [forAxes, ih.1, ih.2.1, ih.2.2]

/-- The input of a transposed convolution. -/
theorem transposedInput_spec {x : Tensor A} {vx : List Int → A} (hx : Pool.Holds x vx) {n c : Int} {ns ks : List Int} {as : List Axis} (hs : x.sizes = n :: c :: ns)
    (hf : FitsAll ns ks as) (v : A) :
    ∃ P, transposedInput x ks as v = .ok P ∧ P.sizes = n :: c :: forAxes outer ns ks as ∧
      ∀ b i o k, 0 ≤ b ∧ b < n → 0 ≤ i ∧ i < c → inRange (forAxes transposedDim ns ks as) o = true → inRange ks k = true →
        inRange (forAxes outer ns ks as) (tap (one as) o (flipped ks k)) = true ∧
        P.get (b :: i :: tap (one as) o (flipped ks k)) = some ((orig ns as o k).elim v fun q => vx (b :: i :: q)) := by
  unfold transposedInput
  simp only
  have e1 : x.sizes.drop 2 = ns := by rw [hs]; rfl
  have e2 : x.sizes.take 2 = [n, c] := by rw [hs]; rfl
  have e3 : x.sizes.length = ns.length + 2 := by rw [hs]; rfl
  rw [e1, e2]
  have hlen := forAxes_length extractAt hf
  cases hany : (forAxes crops ns ks as).any id with
  | true =>
    have q1 : (forAxes (fun n k a => fits (maxSize n k a) (insertAt n k a) n a.stride && fits (maxSize n k a) (extractAt n k a) (outer n k a) 1) ns ks as).all id = true := by
      refine forAxes_all hf _ fun n k a h => ?_
      simp only [fits, Bool.and_eq_true, decide_eq_true_eq]
      have := h.outer
      exact ⟨⟨h.insert, h.inner⟩, h.extract, by omega⟩
    rw [if_pos rfl, if_pos q1]
    refine ⟨_, rfl, rfl, fun b i o k hb hi ho hk => ?_⟩
    obtain ⟨r1, r2, r3, r4⟩ := read_places hf ho hk
    refine ⟨r1, ?_⟩
    have hin : inRange (n :: c :: forAxes outer ns ks as) (b :: i :: tap (one as) o (flipped ks k)) = true := inRange_cons.2 ⟨hb, inRange_cons.2 ⟨hi, r1⟩⟩
    have ep : place (0 :: 0 :: forAxes extractAt ns ks as) (List.replicate x.sizes.length 1) (b :: i :: tap (one as) o (flipped ks k)) =
        b :: i :: List.zipWith (· + ·) (forAxes extractAt ns ks as) (tap (one as) o (flipped ks k)) := by
      rw [e3, hlen.2.1, List.replicate_succ, List.replicate_succ]
      simp only [place, Int.zero_add, Int.mul_one]
      rw [← hlen.1, place_ones _ _ (by rw [inRange_length r1, hlen.1, (forAxes_length outer hf).1])]
    unfold extractSlice
    refine (get_of_range hin).trans ?_
    refine (congrArg (Tensor.get _) ep).trans ?_
    exact insert_read hx hs hb hi r2 r3 r4
  | false =>
    obtain ⟨p1, p2⟩ := forAxes_plain hf hany
    rw [if_neg (by simp), if_pos p1]
    refine ⟨_, rfl, rfl, fun b i o k hb hi ho hk => ?_⟩
    obtain ⟨r1, r2, r3, r4⟩ := read_places hf ho hk
    rw [p2 _ (by rw [inRange_length r1, (forAxes_length outer hf).1])] at r3
    exact ⟨r1, insert_read hx hs hb hi r1 r3 r4⟩

theorem transposed_outs : ∀ {ns ks : List Int} {as : List Axis} {outs : List Int}, TransposedPlaces ns ks as outs → forAxes transposedDim ns ks as = outs
  | [], [], [], [], _ => rfl
  | n :: ns, k :: ks, a :: as, m :: ms, h => by
    simp only [forAxes]
    rw [transposed_outs h.2]
    congr 1
    rw [h.1]
    unfold transposedDim
    rw [Int.mul_comm (k - 1)]
    omega
  | [], [], [], _ :: _, h => h.elim
  | [], [], _ :: _, _, h => h.elim
  | [], _ :: _, [], _, h => h.elim
  | [], _ :: _, _ :: _, _, h => h.elim
  | _ :: _, [], [], _, h => h.elim
  | _ :: _, [], _ :: _, _, h => h.elim
  | _ :: _, _ :: _, [], _, h => h.elim
  | _ :: _, _ :: _, _ :: _, [], h => h.elim

/-! ## Weights -/

theorem get_expandWeight {g f c : Int} (hg : 0 < g) {ks : List Int} {w : Tensor B} (hw : w.sizes = g * f :: c :: ks) {q j l : Int} {k : List Int} (hq : 0 ≤ q ∧ q < g)
    (hj : 0 ≤ j ∧ j < f) (hl : 0 ≤ l ∧ l < c) (hk : inRange ks k = true) : (expandWeight g w).get (q :: j :: l :: k) = w.get ((q * f + j) :: l :: k) := by
  have e : g * f / g = f := Int.mul_ediv_cancel_left _ (by omega)
  rw [get_of_range, get_of_range]
  · simp only [expandWeight, size, hw, List.getD_cons_succ, List.getD_cons_zero, List.drop_succ_cons, List.drop_zero, e]
  · rw [hw]; exact inRange_cons.2 ⟨channel hq hj, inRange_cons.2 ⟨hl, hk⟩⟩
  · simp only [expandWeight, size, hw, List.getD_cons_zero, List.drop_succ_cons, List.drop_zero, e]
    exact inRange_cons.2 ⟨hq, inRange_cons.2 ⟨hj, inRange_cons.2 ⟨hl, hk⟩⟩⟩

end Verif.Conv
