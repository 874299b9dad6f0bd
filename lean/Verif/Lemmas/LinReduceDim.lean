import Verif.Lemmas.LinReduceInt
import Verif.Lemmas.LinViewFinish
import Verif.Lemmas.LinDiag
import Verif.Lemmas.LinUnflatten

namespace Verif.Red

open Lin

variable {E F : Type}

/-! ## Lanes of one dimension -/

theorem kept_none (keep : Bool) (one : Int) : ∀ l, kept (fun _ => false) keep one l = l := by
  intro l
  induction l with
  | nil => unfold kept; simp
  | cons a l ih => rw [kept_cons]; simp only [Bool.false_eq_true, if_false, List.singleton_append]; rw [ih]

theorem kept_free {red : Nat → Bool} {l : List Int} (h : ∀ d < l.length, red d = false) (keep : Bool) (one : Int) : kept red keep one l = l := by
  have hz : l.zipIdx.map (·.1) = l := by simp
  unfold kept
  cases keep with
  | true =>
    rw [if_pos rfl]
    conv_rhs => rw [← hz]
    exact List.map_congr_left fun a ha => by
      rw [h a.2 (by have := List.snd_lt_of_mem_zipIdx ha; omega)]
      rfl
  | false =>
    rw [if_neg (by simp), List.filter_eq_self.2]
    · exact hz
    · intro a ha
      rw [h a.2 (by have := List.snd_lt_of_mem_zipIdx ha; omega)]
      rfl

theorem kept_only (keep : Bool) (one : Int) : ∀ (pre post : List Int) (n : Int),
    kept (only pre.length) keep one (pre ++ n :: post) = pre ++ (if keep then [one] else []) ++ post := by
  intro pre
  induction pre with
  | nil =>
    intro post n
    rw [List.nil_append, kept_cons]
    have : (fun d => only ([] : List Int).length (d + 1)) = fun _ => false := by funext d; simp [only]
    rw [this, kept_none]
    simp [only]
  | cons a pre ih =>
    intro post n
    rw [List.cons_append, kept_cons]
    have : (fun d => only (a :: pre).length (d + 1)) = only pre.length := by funext d; simp [only]
    rw [this, ih]
    simp [only]

theorem range_filter_eq {n j : Int} (h0 : 0 ≤ j) (h1 : j < n) :
    ((List.range n.toNat).map fun (i : Nat) => (i : Int)).filter (fun i => decide (i = j)) = [j] := by
  have h : ∀ (m k : Nat), k < m → ((List.range m).map fun (i : Nat) => (i : Int)).filter (fun i => decide (i = (k : Int))) = [(k : Int)] := by
    intro m
    induction m with
    | zero => intro k hk; omega
    | succ m ih =>
      intro k hk
      rw [List.range_succ, List.map_append, List.filter_append]
      by_cases hkm : k = m
      · subst hkm
        rw [List.filter_eq_nil_iff.2]
        · simp
        · intro a ha
          obtain ⟨i, hi, rfl⟩ := List.mem_map.1 ha
          have := List.mem_range.1 hi
          simp; omega
      · rw [ih k (by omega)]
        have : ((m : Nat) : Int) ≠ k := by omega
        simp [this]
  have := h n.toNat j.toNat (by omega)
  rwa [Int.toNat_of_nonneg h0] at this

theorem rows_filter_eq {sizes q : List Int} (h : inRange sizes q = true) : (rows sizes).filter (fun p => decide (p = q)) = [q] := by
  induction sizes generalizing q with
  | nil => cases q with
    | nil => rfl
    | cons a b => simp [inRange] at h
  | cons n ns ih =>
    cases q with
    | nil => simp [inRange] at h
    | cons j q =>
      simp only [inRange, Bool.and_eq_true, decide_eq_true_eq] at h
      rw [rows, Pool.filter_product _ (fun i => i) (rows ns) (fun i => decide (i = j)) (fun p => decide (p = q)) _ (by intro a b; simp)]
      rw [List.map_id', range_filter_eq h.1.1 h.1.2, ih h.2]
      rfl

theorem lane_only {pre post q1 q2 : List Int} {n : Int} (h1 : inRange pre q1 = true) (h2 : inRange post q2 = true) :
    lane (pre ++ n :: post) (only pre.length) false (q1 ++ q2) = (List.range n.toNat).map fun (i : Nat) => q1 ++ (i : Int) :: q2 := by
  induction pre generalizing q1 with
  | nil =>
    cases q1 with
    | cons a b => simp [inRange] at h1
    | nil =>
      unfold lane
      rw [List.nil_append, List.nil_append, rows, Pool.filter_product _ (fun i => i) (rows post) (fun _ => true) (fun p => decide (p = q2)) _ (by
        intro a b
        have := kept_only false 0 [] b a
        simp only [List.nil_append, Bool.false_eq_true, if_false] at this
        rw [this]
        rfl)]
      rw [List.map_id', rows_filter_eq h2, List.filter_true]
      simp [List.flatMap_map, ← List.map_eq_flatMap]
  | cons m pre ih =>
    cases q1 with
    | nil => simp [inRange] at h1
    | cons j q1 =>
      simp only [inRange, Bool.and_eq_true, decide_eq_true_eq] at h1
      unfold lane at ih ⊢
      simp only [List.cons_append]
      rw [rows, Pool.filter_product _ (fun i => i) (rows (pre ++ n :: post)) (fun i => decide (i = j))
        (fun p => decide (kept (only pre.length) false 0 p = q1 ++ q2)) _ (by
          intro a b
          rw [kept_cons]
          have : (fun d => only (m :: pre).length (d + 1)) = only pre.length := by funext d; simp [only]
          rw [this]
          simp [only])]
      rw [List.map_id', range_filter_eq h1.1.1 h1.1.2, ih h1.2]
      simp

theorem lane_keep {pre post q1 q2 : List Int} {n : Int} (h1 : inRange pre q1 = true) :
    lane (pre ++ n :: post) (only pre.length) true (q1 ++ 0 :: q2) = lane (pre ++ n :: post) (only pre.length) false (q1 ++ q2) := by
  unfold lane
  apply List.filter_congr
  intro p hp
  rw [mem_rows] at hp
  have hl := inRange_length hp
  have hq := inRange_length h1
  obtain ⟨p1, i, p2, rfl, h3⟩ : ∃ p1 i p2, p = p1 ++ i :: p2 ∧ p1.length = pre.length := by
    refine ⟨p.take pre.length, p.getD pre.length 0, p.drop (pre.length + 1), ?_, ?_⟩
    · have h4 : pre.length < p.length := by rw [hl]; simp
      rw [List.getD_eq_getElem?_getD, List.getElem?_eq_getElem h4, Option.getD_some, List.getElem_cons_drop, List.take_append_drop]
    · rw [List.length_take, hl]; simp
  rw [← h3, kept_only, kept_only]
  simp only [if_true, Bool.false_eq_true, if_false, List.append_nil, List.append_assoc, List.singleton_append]
  rw [Bool.eq_iff_iff, decide_eq_true_eq, decide_eq_true_eq]
  have hlen : p1.length = q1.length := by omega
  constructor
  · intro e
    obtain ⟨e1, e2⟩ := List.append_inj e hlen
    rw [e1]
    rw [(List.cons.inj e2).2]
  · intro e
    obtain ⟨e1, e2⟩ := List.append_inj e hlen
    rw [e1, e2]

/-! ## The groups -/

theorem modifies (f g : Nat → Nat) : ∀ (l : List Nat) (gs : List (List Nat)) (k : Nat),
    (l.foldl (fun gs i => gs.modify (f i) (· ++ [g i])) gs)[k]? = gs[k]?.map (· ++ ((l.filter fun i => decide (f i = k)).map g)) := by
  intro l
  induction l with
  | nil => intro gs k; cases h : gs[k]? <;> simp [h]
  | cons a l ih =>
    intro gs k
    rw [List.foldl_cons, ih, List.getElem?_modify, List.filter_cons]
    by_cases h : f a = k
    · simp [h, Function.comp_def]
    · simp [h]

theorem range_filter_nat (a n k : Nat) : (List.range' a n).filter (fun i => decide (i = k)) = if a ≤ k ∧ k < a + n then [k] else [] := by
  induction n generalizing a with
  | zero => rw [if_neg (by omega)]; rfl
  | succ n ih =>
    rw [List.range'_succ, List.filter_cons, ih]
    by_cases h : a = k
    · subst h
      rw [if_pos (by simp), if_neg (by omega), if_pos (by omega)]
    · rw [if_neg (by simpa using h)]
      by_cases h2 : a ≤ k ∧ k < a + (n + 1)
      · rw [if_pos h2, if_pos (by omega)]
      · rw [if_neg h2, if_neg (by omega)]

theorem groups_units : ∀ (n i : Nat), groupsOf i (List.replicate n 1) = (List.range' i n).map fun k => [k] := by
  intro n
  induction n with
  | zero => intro i; rfl
  | succ n ih => intro i; rw [List.replicate_succ, groupsOf, ih, show List.range' i (n + 1) = i :: List.range' (i + 1) n from rfl, List.map_cons]; rfl

theorem groups_pair : ∀ (a b i : Nat), groupsOf i (List.replicate a 1 ++ 2 :: List.replicate b 1) =
    (List.range' i a).map (fun k => [k]) ++ [i + a, i + a + 1] :: (List.range' (i + a + 2) b).map (fun k => [k]) := by
  intro a
  induction a with
  | zero => intro b i; rw [List.replicate_zero, List.nil_append, groupsOf, groups_units]; rfl
  | succ a ih =>
    intro b i
    rw [List.replicate_succ, List.cons_append, groupsOf, ih, show List.range' i (a + 1) = i :: List.range' (i + 1) a from rfl, List.map_cons]
    simp only [List.cons_append]
    rw [show i + 1 + a = i + (a + 1) by omega]
    rfl

theorem keepGroups_eq {dim n : Nat} (hn : 0 < n) (hd : dim ≤ n) :
    keepGroups dim n = groupsOf 0 (List.replicate (dim - 1) 1 ++ 2 :: List.replicate (n - 1 - (dim - 1)) 1) := by
  rw [groups_pair]
  unfold keepGroups
  rw [if_pos hn]
  apply List.ext_getElem?
  intro k
  rw [modifies (fun i => i) (fun i => i + 1), List.getElem?_modify, List.range_eq_range', modifies (fun i => i) (fun i => i), range_filter_nat, range_filter_nat,
    List.getElem?_replicate]
  simp only [Nat.zero_add, Nat.zero_le, true_and]
  by_cases hk : k < n
  · rw [if_pos hk]
    by_cases h1 : k < dim - 1
    · rw [List.getElem?_append_left (by simpa using h1), List.getElem?_map, List.getElem?_range' h1]
      have a1 : dim - 1 ≠ k := by omega
      have a2 : k < dim := by omega
      have a3 : ¬dim ≤ k := by omega
      simp [a1, a2, a3]
    · rw [List.getElem?_append_right (by simpa using by omega), List.length_map, List.length_range']
      by_cases h2 : k = dim - 1
      · subst h2
        rw [Nat.sub_self, List.getElem?_cons_zero]
        by_cases h3 : dim = 0
        · subst h3
          simp
          omega
        · have a1 : ¬dim ≤ dim - 1 := by omega
          have a2 : dim - 1 < dim := by omega
          have a3 : dim - 1 + 1 = dim := by omega
          simp [a1, a2, a3]
      · obtain ⟨j, hj⟩ : ∃ j, k - (dim - 1) = j + 1 := ⟨k - (dim - 1) - 1, by omega⟩
        rw [hj, List.getElem?_cons_succ, List.getElem?_map, List.getElem?_range' (by omega)]
        have a1 : dim - 1 ≠ k := by omega
        have a2 : ¬k < dim := by omega
        have a3 : dim ≤ k := by omega
        have a4 : k < dim + (n - dim) := by omega
        simp [a1, a2, a3, a4]
        omega
  · rw [if_neg hk]
    rw [List.getElem?_eq_none (by simp; omega)]
    simp

/-! ## The end -/

theorem position_one {pre post q1 q2 : List Int} (h1 : inRange pre q1 = true) (h2 : inRange post q2 = true) :
    position (pre ++ 1 :: post) (q1 ++ 0 :: q2) = position (pre ++ post) (q1 ++ q2) := by
  rw [position_append _ _ _ _ (inRange_length h1).symm, position_append _ _ _ _ (inRange_length h1).symm, List.prod_cons, Int.one_mul]
  congr 1
  simp [position]

/-- The part after the loops: nothing, or a dimension of size one is added. -/
theorem finish_spec {t : Tensor F} {pre post : List Int} (hs : t.sizes = pre ++ post) (hx : ∀ n ∈ t.sizes, 0 ≤ n) (keep : Bool) (ty : List (Option Int))
    (ht : TypeOf ty (if keep then pre ++ 1 :: post else pre ++ post)) (h1 : keep = true → ty[pre.length]? = some (some 1)) :
    ∃ y, finish keep pre.length ty t = .ok y ∧ y.sizes = (if keep then pre ++ 1 :: post else pre ++ post) ∧
      ∀ q1 q2, inRange pre q1 = true → inRange post q2 = true → y.elem (if keep then q1 ++ 0 :: q2 else q1 ++ q2) = t.elem (q1 ++ q2) := by
  cases keep with
  | false =>
    simp only [Bool.false_eq_true, if_false] at ht ⊢
    refine ⟨t, ?_, hs, fun q1 q2 _ _ => rfl⟩
    unfold finish
    rw [castOk_iff.2 (by rw [hs]; exact ht)]
    rfl
  | true =>
    simp only [if_true] at ht ⊢
    have h1 := h1 rfl
    obtain ⟨A, B, rfl, hA⟩ : ∃ A B, ty = A ++ some 1 :: B ∧ A.length = pre.length := by
      have hlt : pre.length < ty.length := by rw [ht.1]; simp
      refine ⟨ty.take pre.length, ty.drop (pre.length + 1), ?_, ?_⟩
      · rw [List.getElem?_eq_getElem hlt, Option.some.injEq] at h1
        rw [← h1, List.getElem_cons_drop, List.take_append_drop]
      · rw [List.length_take]; omega
    have htl := ht.1
    have hBl : B.length = post.length := by
      simp at htl; omega
    have ht' : TypeOf (A ++ B) (pre ++ post) := by
      refine ⟨by simp; omega, fun d n hd => ?_⟩
      by_cases hlt : d < A.length
      · rw [List.getElem?_append_left hlt] at hd
        have := ht.2 d n (by rw [List.getElem?_append_left hlt]; exact hd)
        rw [List.getElem?_append_left (by omega)] at this ⊢
        exact this
      · rw [List.getElem?_append_right (by omega)] at hd
        have := ht.2 (d + 1) n (by
          rw [List.getElem?_append_right (by omega), show d + 1 - A.length = (d - A.length) + 1 by omega, List.getElem?_cons_succ]
          exact hd)
        rw [List.getElem?_append_right (by omega), show d + 1 - pre.length = (d - pre.length) + 1 by omega, List.getElem?_cons_succ] at this
        rw [List.getElem?_append_right (by omega)]
        exact this
    have he : (A ++ some 1 :: B).eraseIdx pre.length = A ++ B := by
      rw [← hA, List.eraseIdx_append_of_length_le (by omega), Nat.sub_self]
      rfl
    have htt : Operand.Typed ⟨t, A ++ B⟩ := by
      have := ht'
      rw [← hs] at this
      exact this
    have hreshape : ∀ y : Tensor F, IsReshapeOf y t → y.sizes = pre ++ 1 :: post → ∀ q1 q2, inRange pre q1 = true → inRange post q2 = true →
        y.elem (q1 ++ 0 :: q2) = t.elem (q1 ++ q2) := by
      intro y hy hys q1 q2 hq1 hq2
      refine hy.2.2.2 _ _ ?_ ?_ ?_
      · rw [hys, inRange_append (inRange_length hq1), hq1, inRange, hq2]
        rfl
      · rw [hs, inRange_append (inRange_length hq1), hq1, hq2]
        rfl
      · rw [hys, hs]
        exact position_one hq1 hq2
    unfold finish
    rw [if_neg (by simp), he, if_neg (by rw [castOk_iff.2 (by rw [hs]; exact ht')]; simp)]
    have hlen : (A ++ some 1 :: B).length - 1 = A.length + B.length := by simp
    rw [hlen]
    by_cases h0 : A.length + B.length = 0
    · have e1 : A = [] := List.eq_nil_of_length_eq_zero (by omega)
      have e2 : B = [] := List.eq_nil_of_length_eq_zero (by omega)
      have e3 : pre = [] := List.eq_nil_of_length_eq_zero (by omega)
      have e4 : post = [] := List.eq_nil_of_length_eq_zero (by omega)
      subst e1 e2 e3 e4
      refine ⟨⟨[1], fun _ => t.get []⟩, rfl, rfl, fun q1 q2 hq1 hq2 => ?_⟩
      have e5 : q1 = [] := List.eq_nil_of_length_eq_zero (by have := inRange_length hq1; simpa using this)
      have e6 : q2 = [] := List.eq_nil_of_length_eq_zero (by have := inRange_length hq2; simpa using this)
      subst e5 e6
      exact get_of_range (by rw [hs]; rfl)
    · have hag := typed_agree htt
      have hgr := keepGroups_eq (dim := pre.length) (n := A.length + B.length) (by omega) (by omega)
      have hx' : ∀ l : List Int, l ⊆ pre ++ post → ∀ n ∈ l, 0 ≤ n := fun l hl n hn => hx n (by rw [hs]; exact hl hn)
      have hts : typeSizes (A ++ some 1 :: B) = typeSizes A ++ 1 :: typeSizes B := by simp [typeSizes]
      have hts' : typeSizes (A ++ B) = typeSizes A ++ typeSizes B := by simp [typeSizes]
      simp only at hag
      rw [hs, hts'] at hag
      obtain ⟨a, r, e, hA2, hB2⟩ := forall2_split (R := fun n v => v = unknown ∨ v = n) pre hag.flip
      have hal : a.length = pre.length := hA2.length_eq.symm
      obtain ⟨rfl, rfl⟩ := List.append_inj e (by simp [typeSizes]; omega)
      have hA2 := hA2.flip
      have hB2 := hB2.flip
      rw [hts, hgr]
      by_cases hp : pre = []
      · subst hp
        have eA : A = [] := List.eq_nil_of_length_eq_zero (by simpa using hA)
        subst eA
        obtain ⟨b, B', rfl⟩ : ∃ b B', B = b :: B' := by
          cases B with
          | nil => simp at h0
          | cons b B' => exact ⟨b, B', rfl⟩
        have hts2 : typeSizes (b :: B') = b.getD unknown :: typeSizes B' := rfl
        rw [hts2] at hB2
        obtain ⟨n, post', hb, hB3, rfl⟩ := List.forall₂_cons_left_iff.1 hB2
        have := expandTo_ok (x := ⟨t, [] ++ b :: B'⟩) hx htt (by simp) (O := [1, b.getD unknown] :: units (typeSizes B')) (S := [1, n] :: units post') ?_ ?_ ?_
        · have e2 : ([1, b.getD unknown] :: units (typeSizes B')).map List.length = List.replicate 0 1 ++ 2 :: List.replicate B'.length 1 := by
            rw [List.map_cons, units_length]
            simp [typeSizes]
          have e1 : ([1, b.getD unknown] :: units (typeSizes B')).flatten = 1 :: b.getD unknown :: typeSizes B' := by rw [List.flatten_cons, units_flatten]; rfl
          have e3 : ([1, n] :: units post').flatten = 1 :: n :: post' := by rw [List.flatten_cons, units_flatten]; rfl
          rw [e1, e2, e3] at this
          obtain ⟨y, y1, y2, y3⟩ := this
          refine ⟨y, ?_, y2, hreshape y y3 y2⟩
          rw [← y1]
          simp [typeSizes]
        · exact List.Forall₂.cons (verify_pair _).1 (units_verify _)
        · rw [hs, List.map_cons, units_prod]
          simp
        · exact List.Forall₂.cons (piece_pair hb (hx' _ (fun _ h => h) n (by simp))).1 (units_piece hB3 (hx' _ (by simp)))
      · obtain ⟨pre', n, rfl⟩ := snoc_of_ne (l := pre) hp
        obtain ⟨A', b, rfl⟩ := snoc_of_ne (l := A) (by rintro rfl; simp at hA)
        have hts2 : typeSizes (A' ++ [b]) = typeSizes A' ++ [b.getD unknown] := by simp [typeSizes]
        rw [hts2] at hA2 ⊢
        have hA'l : A'.length = pre'.length := by simpa using hA
        obtain ⟨a, r, e, hA3, hb⟩ := forall2_split (R := fun n v => v = unknown ∨ v = n) pre' hA2.flip
        obtain ⟨rfl, rfl⟩ := List.append_inj e (by have := hA3.length_eq; simp [typeSizes]; omega)
        have hb : b.getD unknown = unknown ∨ b.getD unknown = n := by cases hb; assumption
        have hA3 := hA3.flip
        have := expandTo_ok (x := ⟨t, A' ++ [b] ++ B⟩) hx htt (by simp) (O := units (typeSizes A') ++ [b.getD unknown, 1] :: units (typeSizes B))
          (S := units pre' ++ [n, 1] :: units post) ?_ ?_ ?_
        · have e2 : (units (typeSizes A') ++ [b.getD unknown, 1] :: units (typeSizes B)).map List.length =
              List.replicate ((pre' ++ [n]).length - 1) 1 ++ 2 :: List.replicate ((A' ++ [b]).length + B.length - 1 - ((pre' ++ [n]).length - 1)) 1 := by
            rw [List.map_append, List.map_cons, units_length, units_length]
            simp [typeSizes, hA'l]
          have e1 : (units (typeSizes A') ++ [b.getD unknown, 1] :: units (typeSizes B)).flatten = typeSizes A' ++ [b.getD unknown] ++ 1 :: typeSizes B := by
            rw [List.flatten_append, List.flatten_cons, units_flatten, units_flatten]
            simp
          have e3 : (units pre' ++ [n, 1] :: units post).flatten = pre' ++ [n] ++ 1 :: post := by
            rw [List.flatten_append, List.flatten_cons, units_flatten, units_flatten]
            simp
          rw [e1, e2, e3] at this
          obtain ⟨y, y1, y2, y3⟩ := this
          exact ⟨y, y1, y2, hreshape y y3 y2⟩
        · simp only
          rw [hts', hts2, List.append_assoc]
          exact forall2_append (units_verify _) (List.Forall₂.cons (verify_pair _).2 (units_verify _))
        · rw [hs, List.map_append, List.map_cons, units_prod, units_prod]
          simp
        · exact forall2_append (units_piece hA3 (hx' _ (by simp))) (List.Forall₂.cons (piece_pair hb (hx' _ (fun _ h => h) n (by simp))).2
            (units_piece hB2 (hx' _ (by simp))))

/-! ## Greatest and least elements -/

theorem split_at {sizes : List Int} {d : Nat} (h : d < sizes.length) : ∃ pre n post, sizes = pre ++ n :: post ∧ pre.length = d := by
  refine ⟨sizes.take d, sizes[d], sizes.drop (d + 1), ?_, ?_⟩
  · rw [List.getElem_cons_drop, List.take_append_drop]
  · rw [List.length_take]; omega

theorem minMax_spec {O : Type} [LinearOrder O] (P : E → Prop) (key : E → O) (best : E → E → E) (better : E → E → Bool) (init : E)
    (hb : ∀ a b, P a → P b → best a b = if key b < key a then a else b) (ht : ∀ a b, P a → P b → better a b = decide (key b < key a))
    (hP : P init) (hi : ∀ e, P e → key init ≤ key e) (inj : ∀ a b, P a → P b → key a = key b → a = b)
    (x : Tensor E) (val : List Int → E) (hx : Pool.Holds x val) (hpos : ∀ n ∈ x.sizes, 0 ≤ n) (dim : Int) (d : Nat) (hd : d < x.sizes.length)
    (hdim : dim = d ∨ dim + x.sizes.length = d) (hn : 0 < x.sizes.getD d 0) (keep : Bool) (ty : List (Option Int)) (hty : TypeOf ty (kept (only d) keep 1 x.sizes))
    (hk : keep = true → ty[d]? = some (some 1)) (hv : ∀ p, inRange x.sizes p = true → P (val p)) :
    ∃ v i, lowerMinMaxDim best better init x dim keep ty = .ok (v, i) ∧ v.sizes = kept (only d) keep 1 x.sizes ∧ i.sizes = kept (only d) keep 1 x.sizes ∧
      ∀ q, inRange (kept (only d) keep 1 x.sizes) q = true → ∃ m k, v.elem q = some m ∧ i.elem q = some k ∧ P m ∧
        (∀ p ∈ lane x.sizes (only d) keep q, key (val p) ≤ key m) ∧ FirstAt val d (lane x.sizes (only d) keep q) m k := by
  obtain ⟨pre, n, post, hs, rfl⟩ := split_at hd
  have hdim' : toPositiveDim dim x.sizes.length = pre.length ∧ isValidDim pre.length x.sizes.length = true := by
    unfold toPositiveDim isValidDim
    constructor
    · by_cases h0 : dim ≥ 0
      · rw [if_pos h0]; omega
      · rw [if_neg h0]; omega
    · rw [decide_eq_true_eq]; omega
  have hkept : kept (only pre.length) keep 1 x.sizes = if keep then pre ++ 1 :: post else pre ++ post := by
    rw [hs, kept_only]
    cases keep <;> simp
  have hn' : 0 < n := by
    rw [hs] at hn
    simpa using hn
  obtain ⟨r1, r2⟩ := reduce_spec x [pre.length] false (init, (0 : Int)) (minMaxBody best better pre.length) val hx (only pre.length) (by
    intro k _
    rw [Bool.eq_iff_iff]
    simp [only])
  have hrs : (reduce x [pre.length] false (init, (0 : Int)) (minMaxBody best better pre.length)).sizes = pre ++ post := by
    rw [r1, hs, kept_only]
    simp
  have hrp : ∀ n ∈ pre ++ post, 0 ≤ n := fun n hn => hpos n (by
    rw [hs]
    rcases List.mem_append.1 hn with h | h
    · simp [h]
    · simp [h])
  rw [hkept] at hty ⊢
  unfold lowerMinMaxDim
  simp only
  rw [hdim'.1, hdim'.2, if_neg (by simp), Int.toNat_natCast]
  generalize hT : reduce x [pre.length] false (init, (0 : Int)) (minMaxBody best better pre.length) = T at *
  obtain ⟨v, v1, v2, v3⟩ := finish_spec (t := ⟨T.sizes, fun q => (T.elem q).map (·.1)⟩) (pre := pre) (post := post) hrs (by rw [hrs]; exact hrp) keep ty hty hk
  obtain ⟨i, i1, i2, i3⟩ := finish_spec (t := ⟨T.sizes, fun q => (T.elem q).map (·.2)⟩) (pre := pre) (post := post) hrs (by rw [hrs]; exact hrp) keep ty hty hk
  refine ⟨v, i, by rw [v1, i1]; rfl, v2, i2, fun q hq => ?_⟩
  obtain ⟨q1, q2, hq1, hq2, hqe⟩ : ∃ q1 q2, inRange pre q1 = true ∧ inRange post q2 = true ∧ q = if keep then q1 ++ 0 :: q2 else q1 ++ q2 := by
    cases keep with
    | false =>
      simp only [Bool.false_eq_true, if_false] at hq ⊢
      have hl := inRange_length hq
      have := inRange_split pre (q.take pre.length) post (q.drop pre.length) (by rw [List.length_take, hl]; simp)
      rw [List.take_append_drop, hq] at this
      have := Bool.and_eq_true_iff.1 this.symm
      exact ⟨_, _, this.1, this.2, (List.take_append_drop _ _).symm⟩
    | true =>
      simp only [if_true] at hq ⊢
      have hl := inRange_length hq
      have h := inRange_split pre (q.take pre.length) (1 :: post) (q.drop pre.length) (by rw [List.length_take, hl]; simp)
      rw [List.take_append_drop, hq] at h
      have h := Bool.and_eq_true_iff.1 h.symm
      obtain ⟨a, b, hab⟩ : ∃ a b, q.drop pre.length = a :: b := by
        cases hc : q.drop pre.length with
        | nil => rw [hc] at h; simp [inRange] at h
        | cons a b => exact ⟨a, b, rfl⟩
      rw [hab] at h
      simp only [inRange, Bool.and_eq_true, decide_eq_true_eq] at h
      refine ⟨_, b, h.1, h.2.2, ?_⟩
      rw [← List.take_append_drop pre.length q, hab, show a = 0 by omega]
      congr 1
      rw [List.take_append_of_le_length (by rw [List.length_take, hl]; simp), List.take_take, Nat.min_self]
  have hlane : lane x.sizes (only pre.length) keep q = (List.range n.toNat).map fun (i : Nat) => q1 ++ (i : Int) :: q2 := by
    rw [hs, hqe]
    cases keep with
    | false => exact lane_only hq1 hq2
    | true =>
      simp only [if_true]
      rw [lane_keep hq1, lane_only hq1 hq2]
  have hql : q1.length = pre.length := inRange_length hq1
  have hget : ∀ i : Int, (q1 ++ i :: q2).getD pre.length 0 = i := by
    intro i
    rw [← hql]
    simp
  obtain ⟨k, k1, k2, k3, k4⟩ := best_fold P key best better init hb ht hP hi inj (fun (i : Nat) => val (q1 ++ (i : Int) :: q2)) n.toNat (by omega) (fun i hi => by
    apply hv
    rw [hs, inRange_append hql, hq1, inRange, hq2]
    simp
    omega)
  have hval : T.elem (q1 ++ q2) = some (val (q1 ++ (k : Int) :: q2), (k : Int)) := by
    rw [r2, hs, lane_only hq1 hq2, List.foldl_map]
    congr 1
    rw [← k2]
    congr 1
    funext a i
    unfold minMaxBody
    rw [hget]
  have hv3 := v3 q1 q2 hq1 hq2
  have hi3 := i3 q1 q2 hq1 hq2
  rw [← hqe] at hv3 hi3
  refine ⟨val (q1 ++ (k : Int) :: q2), (k : Int), ?_, ?_, ?_, ?_, ?_⟩
  · rw [hv3]; simp only; rw [hval]; rfl
  · rw [hi3]; simp only; rw [hval]; rfl
  · apply hv
    rw [hs, inRange_append hql, hq1, inRange, hq2]
    simp
    omega
  · intro p hp
    rw [hlane] at hp
    obtain ⟨i, hi, rfl⟩ := List.mem_map.1 hp
    exact k3 i (List.mem_range.1 hi)
  · refine ⟨q1 ++ (k : Int) :: q2, ?_, rfl, hget _, ?_⟩
    · rw [hlane]
      exact List.mem_map.2 ⟨k, List.mem_range.2 k1, rfl⟩
    · intro p hp he
      rw [hlane] at hp
      obtain ⟨i, hi, rfl⟩ := List.mem_map.1 hp
      rw [hget]
      by_contra hc
      exact k4 i (by omega) he

end Verif.Red
