import Verif.Spec.LinPool
import Verif.Lemmas.LinView
import Verif.Lemmas.LinPad

/-! # Lemmas on poolings -/

namespace Verif.Pool

open Lin

variable {E : Type}

/-! ## Folds -/

theorem foldl_step_some {α : Type} (f : E → E → E) (g : α → E) : ∀ (l : List α) (a : E),
    (l.map fun k => some (g k)).foldl (step f) (some a) = some ((l.map g).foldl f a) := by
  intro l
  induction l with
  | nil => intro a; rfl
  | cons x l ih => intro a; simpa [step] using ih (f a (g x))

theorem foldl_skip {α : Type} (f : E → E → E) (v : E) (hf : ∀ a, f a v = a) (P : α → Bool) (g : α → E) : ∀ (l : List α) (a : E),
    (l.map fun k => if P k then g k else v).foldl f a = ((l.filter P).map g).foldl f a := by
  intro l
  induction l with
  | nil => intro a; rfl
  | cons x l ih =>
    intro a
    by_cases h : P x = true
    · simpa [h] using ih (f a (g x))
    · simpa [h, hf] using ih a

/-- Filtering a product of a dimension with the others. -/
theorem filter_product {α : Type} (A : List α) (g : α → Int) (B : List (List Int)) (P : Int → Bool) (Q : List Int → Bool) (R : List Int → Bool)
    (hR : ∀ a b, R (a :: b) = (P a && Q b)) :
    (A.flatMap fun i => B.map (g i :: ·)).filter R = ((A.map g).filter P).flatMap fun a => (B.filter Q).map (a :: ·) := by
  induction A with
  | nil => rfl
  | cons x A ih =>
    have h1 : (B.map (g x :: ·)).filter R = if P (g x) then (B.filter Q).map (g x :: ·) else [] := by
      rw [List.filter_map]
      by_cases h : P (g x) = true
      · rw [if_pos h]
        congr 1
        apply List.filter_congr
        intro b _
        simp [hR, h]
      · rw [if_neg h]
        simp [hR, h]
    rw [List.flatMap_cons, List.filter_append, ih, h1, List.map_cons]
    by_cases h : P (g x) = true
    · rw [if_pos h, List.filter_cons_of_pos h, List.flatMap_cons]
    · rw [if_neg h, List.filter_cons_of_neg h, List.nil_append]

/-! ## Places -/

theorem ceilDiv_lt {a b c : Int} (hb : 0 < b) : c < ceilDiv a b ↔ c * b < a := by
  unfold ceilDiv
  rw [Int.fdiv_eq_ediv_of_nonneg _ (by omega)]
  constructor
  · intro h
    have h2 : (-a) / b < -c := by omega
    have := (Int.ediv_lt_iff_lt_mul hb).1 h2
    have e : -c * b = -(c * b) := Int.neg_mul c b
    omega
  · intro h
    have e : -c * b = -(c * b) := Int.neg_mul c b
    have : (-a) / b < -c := (Int.ediv_lt_iff_lt_mul hb).2 (by omega)
    omega

theorem fdiv_ge {a b c : Int} (hb : 0 < b) : c ≤ a.fdiv b ↔ c * b ≤ a := by
  rw [Int.fdiv_eq_ediv_of_nonneg _ (by omega)]
  exact Int.le_ediv_iff_mul_le hb

theorem outDim_place {ceil : Bool} {n : Int} {p : Axis} (h : p.Good n) (o : Int) :
    (0 ≤ o ∧ o < outDim ceil n p) ↔ IsPlace ceil n p o := by
  obtain ⟨hk, hs, hd, hl, hh, hhk, hn, hw, hb⟩ := h
  unfold IsPlace
  refine and_congr_right fun ho => ?_
  have hdk : 0 ≤ p.dilation * (p.kernel - 1) := Int.mul_nonneg (by omega) (by omega)
  cases ceil with
  | false =>
    unfold outDim
    simp only [Bool.not_false, if_true, Bool.false_eq_true, if_false]
    rw [Int.lt_add_one_iff, fdiv_ge hs]
    omega
  | true =>
    unfold outDim
    simp only [Bool.not_true, if_true, Bool.false_eq_true, if_false]
    generalize hD : n + (p.low + p.high) - p.dilation * (p.kernel - 1) - 1 = D
    generalize hq : ceilDiv D p.stride = q
    have key : ∀ c, c < q ↔ c * p.stride < D := fun c => by rw [← hq]; exact ceilDiv_lt hs
    have hq0 : 0 ≤ q := by
      have := (key (-1)).2 (by omega)
      omega
    have hq1 := (key (q - 1)).1 (by omega)
    have e1 : (q - 1) * p.stride = q * p.stride - p.stride := by rw [Int.sub_mul, Int.one_mul]
    have hqs : 0 ≤ q * p.stride := Int.mul_nonneg hq0 (by omega)
    have hu : uge (q * p.stride) (n + p.low) = decide (n + p.low ≤ q * p.stride) := by
      unfold uge
      rw [Int.emod_eq_of_lt hqs (by omega), Int.emod_eq_of_lt (by omega) (by omega)]
    rw [hu]
    have e2 : (o - 1) * p.stride = o * p.stride - p.stride := by rw [Int.sub_mul, Int.one_mul]
    have k2 := key (o - 1)
    by_cases hc : n + p.low ≤ q * p.stride
    · rw [if_pos (by simpa using hc), key o]
      constructor
      · intro h3
        exact ⟨by omega, by omega⟩
      · intro h3
        by_cases hlt : o < q
        · exact (key o).1 hlt
        · have : q * p.stride ≤ o * p.stride := Int.mul_le_mul_of_nonneg_right (by omega) (by omega)
          omega
    · rw [if_neg (by simpa using hc)]
      constructor
      · intro h3
        have : o * p.stride ≤ q * p.stride := Int.mul_le_mul_of_nonneg_right (by omega) (by omega)
        have := k2.1 (by omega)
        exact ⟨by omega, by omega⟩
      · intro h3
        have := k2.2 (by omega)
        omega

theorem outDims_length (ceil : Bool) : ∀ (ns : List Int) (ps : List Axis), ns.length = ps.length → (outDims ceil ns ps).length = ps.length
  | [], [], _ => rfl
  | _ :: ns, _ :: ps, h => by simpa [outDims] using outDims_length ceil ns ps (by simpa using h)
  | [], _ :: _, h => by simp at h
  | _ :: _, [], h => by simp at h

theorem outDims_get (ceil : Bool) : ∀ (ns : List Int) (ps : List Axis) (d : Nat) (n : Int) (p : Axis), ns[d]? = some n → ps[d]? = some p →
    (outDims ceil ns ps)[d]? = some (outDim ceil n p)
  | n :: ns, p :: ps, 0, _, _, h1, h2 => by
    simp only [List.getElem?_cons_zero, Option.some.injEq] at h1 h2
    simp [outDims, h1, h2]
  | n :: ns, p :: ps, d + 1, _, _, h1, h2 => by
    simp only [List.getElem?_cons_succ] at h1 h2
    simpa [outDims] using outDims_get ceil ns ps d _ _ h1 h2
  | [], _, _, _, _, h1, _ => by simp at h1
  | _ :: _, [], _, _, _, _, h2 => by simp at h2

/-! ## Windows -/

/-- The places of all dimensions. -/
def Places (ceil : Bool) : List Int → List Axis → List Int → Prop
  | [], [], [] => True
  | n :: ns, p :: ps, o :: os => IsPlace ceil n p o ∧ Places ceil ns ps os
  | _, _, _ => False

/-- Parameters of all dimensions. -/
def GoodAll : List Int → List Axis → Prop
  | [], [] => True
  | n :: ns, p :: ps => p.Good n ∧ GoodAll ns ps
  | _, _ => False

theorem goodAll_length : ∀ {ns : List Int} {ps : List Axis}, GoodAll ns ps → ns.length = ps.length
  | [], [], _ => rfl
  | _ :: _, _ :: _, h => by simpa using goodAll_length h.2
  | [], _ :: _, h => h.elim
  | _ :: _, [], h => h.elim

theorem goodAll_of : ∀ {ns : List Int} {ps : List Axis}, ns.length = ps.length →
    (∀ (d : Nat) (n : Int) (p : Axis), ns[d]? = some n → ps[d]? = some p → p.Good n) → GoodAll ns ps
  | [], [], _, _ => trivial
  | n :: ns, p :: ps, h, hg => ⟨hg 0 n p rfl rfl, goodAll_of (by simpa using h) fun d m q h1 h2 => hg (d + 1) m q (by simpa using h1) (by simpa using h2)⟩
  | [], _ :: _, h, _ => by simp at h
  | _ :: _, [], h, _ => by simp at h

theorem places_of (ceil : Bool) : ∀ {ns : List Int} {ps : List Axis} {os : List Int}, GoodAll ns ps → inRange (outDims ceil ns ps) os = true →
    Places ceil ns ps os
  | [], [], [], _, _ => trivial
  | n :: ns, p :: ps, o :: os, hg, h => by
    simp only [outDims, inRange, Bool.and_eq_true, decide_eq_true_eq] at h
    exact ⟨(outDim_place hg.1 o).1 h.1, places_of ceil hg.2 h.2⟩
  | [], [], _ :: _, _, h => by simp [outDims, inRange] at h
  | _ :: _, _ :: _, [], _, h => by simp [outDims, inRange] at h
  | [], _ :: _, _, hg, _ => hg.elim
  | _ :: _, [], _, hg, _ => hg.elim

/-- The index in the input. -/
def unpad (ps : List Axis) (j : List Int) : List Int := List.zipWith (· - ·) j (ps.map (·.low))

theorem loops_window : ∀ (ns : List Int) (ps : List Axis) (os : List Int), ns.length = ps.length → os.length = ps.length →
    ((loops (ps.map (·.kernel))).map fun k => unpad ps (tap ps os k)).filter (inRange ns) = window ns ps os
  | [], [], [], _, _ => rfl
  | n :: ns, p :: ps, o :: os, h1, h2 => by
    have ih := loops_window ns ps os (by simpa using h1) (by simpa using h2)
    have e : ((loops ((p :: ps).map (·.kernel))).map fun k => unpad (p :: ps) (tap (p :: ps) (o :: os) k)) =
        (List.range p.kernel.toNat).flatMap fun (i : Nat) =>
          ((loops (ps.map (·.kernel))).map fun k => unpad ps (tap ps os k)).map ((o * p.stride - p.low + i * p.dilation) :: ·) := by
      simp only [List.map_cons, loops, List.map_flatMap, List.map_map]
      congr 1
      funext i
      apply List.map_congr_left
      intro k _
      simp only [Function.comp_apply, tap, unpad, List.map_cons, List.zipWith_cons_cons]
      congr 1
      omega
    rw [e, filter_product _ (fun (i : Nat) => o * p.stride - p.low + i * p.dilation) _ (fun i => decide (0 ≤ i ∧ i < n)) (inRange ns) (inRange (n :: ns))
      (fun a b => rfl), ih]
    rfl
  | [], _ :: _, _, h, _ => by simp at h
  | _ :: _, [], _, h, _ => by simp at h
  | [], [], _ :: _, _, h => by simp at h
  | _ :: _, _ :: _, [], _, h => by simp at h

theorem mem_loops : ∀ {ks k : List Int}, k ∈ loops ks → inRange ks k = true
  | [], k, h => by simp only [loops, List.mem_singleton] at h; subst h; rfl
  | n :: ks, k, h => by
    simp only [loops, List.mem_flatMap, List.mem_range, List.mem_map] at h
    obtain ⟨i, hi, k', hk', rfl⟩ := h
    simp only [inRange, Bool.and_eq_true, decide_eq_true_eq]
    exact ⟨by omega, mem_loops hk'⟩

/-- The sizes of the padded dimensions. -/
def paddedSizes (ceil : Bool) (ns : List Int) (ps : List Axis) : List Int :=
  List.zipWith (· + ·) ns (List.zipWith (· + ·) (ps.map (·.low)) (ps.map (highPad ceil)))

theorem tap_inRange (ceil : Bool) : ∀ {ns : List Int} {ps : List Axis} {os k : List Int}, GoodAll ns ps → Places ceil ns ps os →
    inRange (ps.map (·.kernel)) k = true → inRange (paddedSizes ceil ns ps) (tap ps os k) = true
  | [], [], [], [], _, _, _ => rfl
  | n :: ns, p :: ps, o :: os, k :: ks, hg, hp, hk => by
    simp only [List.map_cons, inRange, Bool.and_eq_true, decide_eq_true_eq] at hk
    have ih := tap_inRange ceil hg.2 hp.2 hk.2
    obtain ⟨⟨h1, h2, h3, h4, h5, -, h6, -, -⟩, -⟩ := hg
    obtain ⟨⟨ho, hpl⟩, -⟩ := hp
    simp only [paddedSizes, List.map_cons, List.zipWith_cons_cons, tap, inRange, Bool.and_eq_true, decide_eq_true_eq]
    refine ⟨⟨Int.add_nonneg (Int.mul_nonneg ho (by omega)) (Int.mul_nonneg hk.1.1 (by omega)), ?_⟩, ih⟩
    have hkd : k * p.dilation ≤ (p.kernel - 1) * p.dilation := Int.mul_le_mul_of_nonneg_right (by omega) (by omega)
    rw [Int.mul_comm (p.kernel - 1)] at hkd
    unfold highPad
    cases ceil with
    | false => simp only [Bool.false_eq_true, if_false] at hpl ⊢; omega
    | true => simp only [if_true] at hpl ⊢; omega
  | [], [], [], _ :: _, _, _, h => by simp [inRange] at h
  | _ :: _, _ :: _, _ :: _, [], _, _, h => by simp [inRange] at h
  | [], [], _ :: _, _, _, h, _ => h.elim
  | _ :: _, _ :: _, [], _, _, h, _ => h.elim
  | [], _ :: _, _, _, h, _, _ => h.elim
  | _ :: _, [], _, _, h, _, _ => h.elim

theorem zipWith_zero_add : ∀ (l : List Int), List.zipWith (· + ·) l (List.zipWith (· + ·) (List.replicate l.length 0) (List.replicate l.length 0)) = l
  | [] => rfl
  | a :: l => by
    simp only [List.length_cons, List.replicate_succ, List.zipWith_cons_cons, zipWith_zero_add l]
    simp

theorem zipWith_zero_sub : ∀ (l : List Int), List.zipWith (· - ·) l (List.replicate l.length 0) = l
  | [] => rfl
  | a :: l => by simp [List.replicate_succ, zipWith_zero_sub l]

/-- What is read from the padded input. -/
theorem padInput_get {x : Tensor E} {val : List Int → E} (hx : Holds x val) {A ns : List Int} (hs : x.sizes = A ++ ns) {ceil : Bool} {ps : List Axis}
    {v : E} (hl : ns.length = ps.length) {l j : List Int} (hA : inRange A l = true) (hj : inRange (paddedSizes ceil ns ps) j = true) :
    (padInput x A.length ceil ps v).get (l ++ j) = some (if inRange ns (unpad ps j) then val (l ++ unpad ps j) else v) := by
  have hlen := inRange_length hA
  have es : (padInput x A.length ceil ps v).sizes = A ++ paddedSizes ceil ns ps := by
    simp only [padInput, pad, hs]
    rw [List.zipWith_append (by simp), List.zipWith_append (by simp), zipWith_zero_add]
    rfl
  have ej : List.zipWith (· - ·) (l ++ j) (List.replicate A.length 0 ++ ps.map (·.low)) = l ++ unpad ps j := by
    rw [List.zipWith_append (by simp [hlen]), ← hlen, zipWith_zero_sub]
    rfl
  have hr : inRange (padInput x A.length ceil ps v).sizes (l ++ j) = true := by
    rw [es, inRange_split _ _ _ _ hlen.symm, hA, hj]; rfl
  rw [get_of_range hr]
  simp only [padInput, pad]
  rw [ej, hs, inRange_split _ _ _ _ hlen.symm, hA, Bool.true_and]
  by_cases hin : inRange ns (unpad ps j) = true
  · rw [if_pos hin, if_pos hin, hx]
    rw [hs, inRange_split _ _ _ _ hlen.symm, hA, hin]; rfl
  · rw [if_neg hin, if_neg hin]

/-- The fold over a window. -/
theorem pool_elem {x : Tensor E} {val : List Int → E} (hx : Holds x val) {A ns : List Int} (hs : x.sizes = A ++ ns) {ceil : Bool} {ps : List Axis}
    (hg : GoodAll ns ps) {f : E → E → E} {init : E} (hf : ∀ a, f a init = a) {l os : List Int} (hl : inRange A l = true)
    (ho : inRange (outDims ceil ns ps) os = true) :
    (lowerPool f init x A.length ceil ps).elem (l ++ os) = some (((window ns ps os).map fun j => val (l ++ j)).foldl f init) := by
  have hlen := inRange_length hl
  have hnl := goodAll_length hg
  have hp := places_of ceil hg ho
  have hol : os.length = ps.length := by rw [inRange_length ho, outDims_length ceil _ _ hnl]
  have e1 : (loops (ps.map (·.kernel))).map (fun k => (padInput x A.length ceil ps init).get (l ++ tap ps os k)) =
      (loops (ps.map (·.kernel))).map fun k => some (if inRange ns (unpad ps (tap ps os k)) then val (l ++ unpad ps (tap ps os k)) else init) := by
    apply List.map_congr_left
    intro k hk
    exact padInput_get hx hs hnl hl (tap_inRange ceil hg hp (mem_loops hk))
  simp only [lowerPool, poolOp]
  rw [List.take_left' hlen, List.drop_left' hlen, e1,
    foldl_step_some f (fun k => if inRange ns (unpad ps (tap ps os k)) then val (l ++ unpad ps (tap ps os k)) else init),
    foldl_skip f init hf (fun k => inRange ns (unpad ps (tap ps os k))) (fun k => val (l ++ unpad ps (tap ps os k))),
    ← loops_window ns ps os hnl hol, List.filter_map, List.map_map]
  rfl

end Verif.Pool
