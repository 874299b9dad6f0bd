import Verif.Lemmas.LinPool

/-! # Lemmas on what is divided by, on greatest elements and their indices -/

namespace Verif.Pool

open Lin

variable {E : Type}

/-! ## Counting -/

theorem count_between (a b : Int) (ha : 0 ≤ a) : ∀ (K : Nat),
    (((List.range K).filter fun (k : Nat) => decide (a ≤ (k : Int) ∧ (k : Int) < b)).length : Int) = max (min b K - a) 0
  | 0 => by simp only [List.range_zero, List.filter_nil, List.length_nil]; omega
  | K + 1 => by
    have ih := count_between a b ha K
    rw [List.range_succ, List.filter_append, List.length_append]
    by_cases h : a ≤ (K : Int) ∧ (K : Int) < b
    · rw [List.filter_cons_of_pos (by simpa using h)]
      simp only [List.filter_nil, List.length_cons, List.length_nil]
      push_cast
      omega
    · rw [List.filter_cons_of_neg (by simpa using h)]
      simp only [List.filter_nil, List.length_nil]
      push_cast
      omega

theorem count_of {P : Nat → Bool} {a b : Int} (ha : 0 ≤ a) {K : Nat} (hb : b ≤ K) (hP : ∀ k, k < K → (P k = true ↔ a ≤ (k : Int) ∧ (k : Int) < b)) :
    (((List.range K).filter P).length : Int) = max (b - a) 0 := by
  have : (List.range K).filter P = (List.range K).filter fun (k : Nat) => decide (a ≤ (k : Int) ∧ (k : Int) < b) := by
    apply List.filter_congr
    intro k hk
    have := hP k (List.mem_range.1 hk)
    by_cases h : P k = true
    · rw [h, decide_eq_true (this.1 h)]
    · rw [Bool.not_eq_true] at h
      rw [h, decide_eq_false (fun h2 => by rw [this.2 h2] at h; cases h)]
  rw [this, count_between a b ha K]
  omega

theorem span_lt {k : Nat} {K d : Int} (hd : 0 < d) : (k : Int) * d < (K - 1) * d + 1 ↔ (k : Int) < K := by
  constructor
  · intro h
    by_cases h2 : (k : Int) < K
    · exact h2
    · have : K * d ≤ (k : Int) * d := Int.mul_le_mul_of_nonneg_right (by omega) (by omega)
      rw [Int.sub_mul, Int.one_mul] at h
      omega
  · intro h
    have : (k : Int) * d ≤ (K - 1) * d := Int.mul_le_mul_of_nonneg_right (by omega) (by omega)
    omega

theorem ceilDiv_le {a b c : Int} (hb : 0 < b) : ceilDiv a b ≤ c ↔ a ≤ c * b := by
  have := ceilDiv_lt (a := a) (c := c) hb
  omega

theorem poolSizeDim_ok {ip : Bool} {n : Int} {p : Axis} (hg : p.Good n) (hip : ip = true → p.low = p.high) (o : Int) :
    poolSizeDim ip n p o = counted ip n p o := by
  obtain ⟨hk, hs, hd, hl, hh, -, hn, -, -⟩ := hg
  have hK : (p.kernel.toNat : Int) = p.kernel := by omega
  cases ip with
  | false =>
    simp only [poolSizeDim, counted, seen, Bool.not_false, if_true, Bool.false_eq_true, if_false, List.filter_map, List.length_map]
    rw [count_of (P := _) (a := ceilDiv (max (0 - (o * p.stride - p.low)) 0) p.dilation)
      (b := ceilDiv (min (min (o * p.stride - p.low + ((p.kernel - 1) * p.dilation + 1)) (n + p.low)) n - (o * p.stride - p.low)) p.dilation)]
    · have := ceilDiv_lt (a := max (0 - (o * p.stride - p.low)) 0) (c := -1) hd
      omega
    · rw [hK, ceilDiv_le hd]
      have : (p.kernel - 1) * p.dilation = p.kernel * p.dilation - p.dilation := by rw [Int.sub_mul, Int.one_mul]
      omega
    · intro k hk'
      simp only [Function.comp_apply, decide_eq_true_eq]
      rw [ceilDiv_lt hd, ceilDiv_le hd]
      have h1 := span_lt (k := k) (K := p.kernel) hd
      have h2 : 0 ≤ (k : Int) * p.dilation := Int.mul_nonneg (by omega) (by omega)
      have h3 := h1.2 (by omega)
      omega
  | true =>
    have hsym := hip rfl
    simp only [poolSizeDim, counted, Bool.not_true, Bool.false_eq_true, if_false, if_true, List.filter_map, List.length_map]
    rw [count_of (P := _) (a := 0)
      (b := ceilDiv (min (o * p.stride - p.low + ((p.kernel - 1) * p.dilation + 1)) (n + p.low) - (o * p.stride - p.low)) p.dilation) (by omega)]
    · omega
    · rw [hK, ceilDiv_le hd]
      have : (p.kernel - 1) * p.dilation = p.kernel * p.dilation - p.dilation := by rw [Int.sub_mul, Int.one_mul]
      omega
    · intro k hk'
      simp only [Function.comp_apply, decide_eq_true_eq]
      rw [ceilDiv_lt hd]
      have h1 := span_lt (k := k) (K := p.kernel) hd
      have h3 := h1.2 (by omega)
      omega

theorem counted_all {ceil ip : Bool} {n : Int} {p : Axis} (hg : p.Good n) {o : Int} (ho : IsPlace ceil n p o) (h1 : ip = false → p.low = 0 ∧ p.high = 0)
    (h2 : ceil = true → p.stride = 1) (h3 : p.dilation = 1) : counted ip n p o = p.kernel := by
  obtain ⟨hk, hs, hd, hl, hh, -, hn, -, -⟩ := hg
  obtain ⟨ho, hp⟩ := ho
  have hos : 0 ≤ o * p.stride := Int.mul_nonneg ho (by omega)
  have hin : o * p.stride + (p.kernel - 1) < n + p.low + p.high := by
    rw [h3, Int.one_mul] at hp
    cases ceil with
    | false => simpa using hp
    | true => have := h2 rfl; simp only [if_true] at hp; omega
  have hK : (p.kernel.toNat : Int) = p.kernel := by omega
  cases ip with
  | false =>
    obtain ⟨h4, h5⟩ := h1 rfl
    simp only [counted, seen, Bool.false_eq_true, if_false, List.filter_map, List.length_map]
    rw [count_of (P := _) (a := 0) (b := p.kernel) (by omega) (by omega)]
    · omega
    · intro k hk'
      simp only [Function.comp_apply, decide_eq_true_eq, h3, h4]
      omega
  | true =>
    simp only [counted, if_true, List.filter_map, List.length_map]
    rw [count_of (P := _) (a := 0) (b := p.kernel) (by omega) (by omega)]
    · omega
    · intro k hk'
      simp only [Function.comp_apply, decide_eq_true_eq, h3]
      omega

theorem poolSize_ok {ip : Bool} : ∀ {ns : List Int} {ps : List Axis}, GoodAll ns ps → (ip = true → ∀ p ∈ ps, p.low = p.high) → ∀ (os : List Int),
    poolSize ip ns ps os = count ip ns ps os
  | [], [], _, _, _ => rfl
  | n :: ns, p :: ps, _, _, [] => rfl
  | n :: ns, p :: ps, hg, hs, o :: os => by
    simp only [poolSize, count]
    rw [poolSizeDim_ok hg.1 (fun h => hs h p (by simp)) o, poolSize_ok hg.2 (fun h q hq => hs h q (by simp [hq])) os]
  | [], _ :: _, h, _, _ => h.elim
  | _ :: _, [], h, _, _ => h.elim

theorem count_all {ceil ip : Bool} : ∀ {ns : List Int} {ps : List Axis} {os : List Int}, GoodAll ns ps → Places ceil ns ps os →
    (ip = false → ∀ p ∈ ps, p.low = 0 ∧ p.high = 0) → (ceil = true → ∀ p ∈ ps, p.stride = 1) → (∀ p ∈ ps, p.dilation = 1) →
    count ip ns ps os = (ps.map (·.kernel)).prod
  | [], [], [], _, _, _, _, _ => rfl
  | n :: ns, p :: ps, o :: os, hg, hp, h1, h2, h3 => by
    simp only [count, List.map_cons, List.prod_cons]
    rw [counted_all hg.1 hp.1 (fun h => h1 h p (by simp)) (fun h => h2 h p (by simp)) (h3 p (by simp)),
      count_all hg.2 hp.2 (fun h q hq => h1 h q (by simp [hq])) (fun h q hq => h2 h q (by simp [hq])) (fun q hq => h3 q (by simp [hq]))]
  | [], [], _ :: _, _, h, _, _, _ => h.elim
  | _ :: _, _ :: _, [], _, h, _, _, _ => h.elim
  | [], _ :: _, _, h, _, _, _, _ => h.elim
  | _ :: _, [], _, h, _, _, _, _ => h.elim

theorem divisor_ok {ceil ip : Bool} {ns : List Int} {ps : List Axis} {os : List Int} (hg : GoodAll ns ps) (hp : Places ceil ns ps os)
    (hs : ip = true → (∀ p ∈ ps, p.low = p.high) ∨ ceil = false ∧ ∀ p ∈ ps, p.dilation = 1) :
    divisor ceil ip none ns ps os = count ip ns ps os := by
  unfold divisor
  by_cases h : needsClamping ceil ip ps = true
  · simp only [h, if_true]
    apply poolSize_ok hg
    intro hip
    rcases hs hip with h1 | ⟨h1, h2⟩
    · exact h1
    · exfalso
      subst hip h1
      simp only [needsClamping, Bool.not_true, Bool.false_and, Bool.false_or, Bool.not_eq_true', List.all_eq_false, decide_eq_true_eq] at h
      obtain ⟨p, hp, hd⟩ := h
      exact hd (h2 p hp)
  · have h' := h
    simp only [h, Bool.false_eq_true, if_false]
    simp only [needsClamping, Bool.or_eq_true, Bool.and_eq_true, Bool.not_eq_true', not_or, not_and, Bool.not_eq_false, List.all_eq_true,
      decide_eq_true_eq] at h'
    exact (count_all hg hp h'.1.1 h'.1.2 h'.2).symm

/-! ## Greatest elements -/

theorem foldl_max [LinearOrder E] : ∀ (l : List E) (a : E), (∀ e ∈ l, e ≤ l.foldl max a) ∧ a ≤ l.foldl max a ∧ (l.foldl max a ∈ l ∨ l.foldl max a = a)
  | [], a => ⟨by simp, le_refl a, Or.inr rfl⟩
  | x :: l, a => by
    obtain ⟨h1, h2, h3⟩ := foldl_max l (max a x)
    simp only [List.foldl_cons]
    refine ⟨?_, le_trans (le_max_left a x) h2, ?_⟩
    · intro e he
      rcases List.mem_cons.1 he with rfl | he
      · exact le_trans (le_max_right a e) h2
      · exact h1 e he
    · rcases h3 with h3 | h3
      · exact Or.inl (List.mem_cons_of_mem _ h3)
      · rcases max_choice a x with h4 | h4
        · exact Or.inr (h3.trans h4)
        · exact Or.inl (List.mem_cons.2 (Or.inl (h3.trans h4)))

theorem isMax_fold [LinearOrder E] {lo : E} (hlo : ∀ e, lo ≤ e) (l : List E) : IsMax lo (l.foldl max lo) l := by
  obtain ⟨h1, -, h3⟩ := foldl_max l lo
  refine ⟨h1, ?_⟩
  rcases h3 with h3 | h3
  · exact Or.inl h3
  · cases l with
    | nil => exact Or.inr ⟨rfl, rfl⟩
    | cons x l =>
      left
      have hx := h1 x (by simp)
      rw [h3] at hx ⊢
      rw [le_antisymm (hlo x) hx]
      simp

/-! ## Indices -/

theorem flatIndex_append : ∀ (ns ps is : List Int) (n p i stride acc : Int), ns.length = ps.length → is.length = ps.length →
    flatIndex (ns ++ [n]) (ps ++ [p]) (is ++ [i]) stride acc = flatIndex ns ps is stride acc + (i - p) * (stride * ns.prod)
  | [], [], [], n, p, i, stride, acc, _, _ => by simp [flatIndex]
  | m :: ns, q :: ps, j :: is, n, p, i, stride, acc, h1, h2 => by
    simp only [List.cons_append, flatIndex, List.prod_cons]
    rw [flatIndex_append ns ps is n p i _ _ (by simpa using h1) (by simpa using h2), Int.mul_assoc]
  | [], _ :: _, _, _, _, _, _, _, h, _ => by simp at h
  | _ :: _, [], _, _, _, _, _, _, h, _ => by simp at h
  | [], [], _ :: _, _, _, _, _, _, _, h => by simp at h
  | _ :: _, _ :: _, [], _, _, _, _, _, _, h => by simp at h

theorem flatIndex_position : ∀ (ns : List Int) (ps : List Axis) (j : List Int), ns.length = ps.length → j.length = ps.length →
    flatIndex ns.reverse (ps.map (·.low)).reverse j.reverse 1 0 = position ns (unpad ps j)
  | [], [], [], _, _ => rfl
  | n :: ns, p :: ps, i :: j, h1, h2 => by
    have ih := flatIndex_position ns ps j (by simpa using h1) (by simpa using h2)
    simp only [List.map_cons, List.reverse_cons]
    rw [flatIndex_append _ _ _ _ _ _ _ _ (by simpa using h1) (by simpa using h2), ih, Int.one_mul, List.prod_reverse]
    simp only [unpad, List.map_cons, List.zipWith_cons_cons, position]
    omega
  | [], _ :: _, _, h, _ => by simp at h
  | _ :: _, [], _, h, _ => by simp at h
  | [], [], _ :: _, _, h => by simp at h
  | _ :: _, _ :: _, [], _, h => by simp at h

theorem foldl_option {α β : Type} (h : α → β → β) : ∀ (l : List α) (b : β),
    l.foldl (fun (r : Option β) k => r.map (h k)) (some b) = some (l.foldl (fun r k => h k r) b)
  | [], _ => rfl
  | a :: l, b => by simpa using foldl_option h l (h a b)

theorem foldl_filter_skip {α β : Type} (h : α → β → β) (P : α → Bool) (hP : ∀ a b, P a = false → h a b = b) : ∀ (l : List α) (b : β),
    l.foldl (fun r k => h k r) b = (l.filter P).foldl (fun r k => h k r) b
  | [], _ => rfl
  | a :: l, b => by
    by_cases hp : P a = true
    · simpa [hp] using foldl_filter_skip h P hP l (h a b)
    · rw [Bool.not_eq_true] at hp
      rw [List.foldl_cons, hP a b hp, List.filter_cons_of_neg (by simp [hp]), foldl_filter_skip h P hP l b]

theorem first_fixed {eq : E → E → Bool} {m : E} (val : List Int → E) (pos : List Int → Int) : ∀ (is : List (List Int)) (r : Int), r ≠ -1 →
    is.foldl (fun r i => indexStep eq m r (val i) (pos i)) r = r
  | [], _, _ => rfl
  | i :: is, r, h => by
    have : indexStep eq m r (val i) (pos i) = r := by simp [indexStep, h]
    rw [List.foldl_cons, this, first_fixed val pos is r h]

theorem first_of {eq : E → E → Bool} {m : E} (heq : ∀ e, eq e m = true ↔ e = m) (val : List Int → E) (pos : List Int → Int) :
    ∀ (is : List (List Int)), (∀ i ∈ is, 0 ≤ pos i) → m ∈ is.map val →
    ∃ i, IsFirst val m is i ∧ is.foldl (fun r i => indexStep eq m r (val i) (pos i)) (-1) = pos i
  | [], _, h => by simp at h
  | i :: is, hpos, h => by
    have hi := hpos i (by simp)
    by_cases he : val i = m
    · refine ⟨i, ⟨[], is, rfl, he, by simp⟩, ?_⟩
      have : indexStep eq m (-1) (val i) (pos i) = pos i := by simp [indexStep, (heq _).2 he]
      rw [List.foldl_cons, this, first_fixed val pos is _ (by omega)]
    · have hm : m ∈ is.map val := by
        rcases List.mem_cons.1 h with h | h
        · exact absurd h.symm he
        · exact h
      obtain ⟨j, ⟨a, b, hab, hj, hn⟩, hf⟩ := first_of heq val pos is (fun i hi => hpos i (by simp [hi])) hm
      refine ⟨j, ⟨i :: a, b, by rw [hab]; rfl, hj, ?_⟩, ?_⟩
      · intro k hk
        rcases List.mem_cons.1 hk with rfl | hk
        · exact he
        · exact hn k hk
      · have hne : eq (val i) m = false := by
          rw [← Bool.not_eq_true, heq]; exact he
        have : indexStep eq m (-1) (val i) (pos i) = -1 := by simp [indexStep, hne]
        rw [List.foldl_cons, this, hf]

theorem tap_length : ∀ (ps : List Axis) (os ks : List Int), os.length = ps.length → ks.length = ps.length → (tap ps os ks).length = ps.length
  | [], [], [], _, _ => rfl
  | p :: ps, o :: os, k :: ks, h1, h2 => by simpa [tap] using tap_length ps os ks (by simpa using h1) (by simpa using h2)
  | [], _ :: _, _, h, _ => by simp at h
  | [], [], _ :: _, _, h => by simp at h
  | _ :: _, [], _, h, _ => by simp at h
  | _ :: _, _ :: _, [], _, h => by simp at h

theorem mem_window {ns : List Int} {ps : List Axis} {os i : List Int} (h1 : ns.length = ps.length) (h2 : os.length = ps.length) (h : i ∈ window ns ps os) :
    inRange ns i = true := by
  rw [← loops_window ns ps os h1 h2] at h
  exact (List.mem_filter.1 h).2

theorem poolIndex_ok {x : Tensor E} {val : List Int → E} (hx : Holds x val) {A ns : List Int} (hs : x.sizes = A ++ ns) {ceil : Bool} {ps : List Axis}
    (hg : GoodAll ns ps) {eq : E → E → Bool} {lo m : E} (heq : ∀ e, eq e m = true ↔ e = m) (hm : m ≠ lo) {l os : List Int} (hl : inRange A l = true)
    (ho : inRange (outDims ceil ns ps) os = true) (hmem : m ∈ (window ns ps os).map fun j => val (l ++ j)) :
    ∃ i, IsFirst (fun j => val (l ++ j)) m (window ns ps os) i ∧
      poolIndex eq m x (padInput x A.length ceil ps lo) A.length ps (l ++ os) = some (position ns i) := by
  have hlen := inRange_length hl
  have hnl := goodAll_length hg
  have hp := places_of ceil hg ho
  have hol : os.length = ps.length := by rw [inRange_length ho, outDims_length ceil _ _ hnl]
  obtain ⟨i, hi, hf⟩ := first_of heq (fun j => val (l ++ j)) (position ns) (window ns ps os)
    (fun i hi => (position_bound (mem_window hnl hol hi)).1) hmem
  refine ⟨i, hi, ?_⟩
  unfold poolIndex
  rw [List.take_left' hlen, List.drop_left' hlen, hs, List.drop_left' rfl]
  rw [List.foldl_ext _ (fun (r : Option Int) k => r.map fun r => indexStep eq m r
      (if inRange ns (unpad ps (tap ps os k)) then val (l ++ unpad ps (tap ps os k)) else lo) (position ns (unpad ps (tap ps os k)))) _ ?_]
  · rw [foldl_option (fun k r => indexStep eq m r
      (if inRange ns (unpad ps (tap ps os k)) then val (l ++ unpad ps (tap ps os k)) else lo) (position ns (unpad ps (tap ps os k)))),
      foldl_filter_skip _ (fun k => inRange ns (unpad ps (tap ps os k))) ?_]
    · congr 1
      rw [← hf, ← loops_window ns ps os hnl hol, List.filter_map, List.foldl_map]
      apply List.foldl_ext
      intro r k hk
      have : inRange ns (unpad ps (tap ps os k)) = true := (List.mem_filter.1 hk).2
      rw [if_pos this]
    · intro k r hk
      have hne : eq lo m = false := by rw [← Bool.not_eq_true, heq]; exact fun h => hm h.symm
      simp [hk, indexStep, hne]
  · intro r k hk
    have hk' := mem_loops hk
    have hkl : k.length = ps.length := by simpa using inRange_length hk'
    simp only
    rw [padInput_get hx hs hnl hl (tap_inRange ceil hg hp hk'), flatIndex_position ns ps _ hnl (tap_length ps os k hol hkl)]
    cases r <;> rfl

end Verif.Pool
