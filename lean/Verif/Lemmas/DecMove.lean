import Verif.Lemmas.DecList

namespace Verif.Dec

open Lin

variable {E : Type}

theorem dim_len {r : Nat} {dim : Int} {d : Nat} (h : Dim r dim d) : d < r := h.1

/-! ## Slices -/

theorem sliceAt_narrow (x : Tensor E) (d : Nat) (s len : Int) (h : 0 ≤ len) : IsNarrowOf (sliceAt x d s (s + len)) x d s len := by
  refine ⟨?_, fun idx _ => rfl⟩
  show x.sizes.set d (max 0 (s + len - s)) = _
  rw [show max 0 (s + len - s) = len by omega]

theorem slice_narrow {x : Tensor E} {dim : Int} {d : Nat} (h : Dim x.sizes.length dim d) {s len : Int} (hs : 0 ≤ s) (hl : 0 ≤ len)
    (hn : s + len ≤ x.sizes.getD d 0) : slice x dim (some s) (some (s + len)) = some (sliceAt x d s (s + len)) := by
  rw [slice_at h]
  show some (sliceAt x d (clampBound _ s) (clampBound _ (s + len))) = _
  rw [clampBound_in (by omega), clampBound_in (by omega)]

theorem narrow_ok {x : Tensor E} {dim : Int} {d : Nat} (h : Dim x.sizes.length dim d) {start s len : Int} (hs : 0 ≤ s) (hl : 0 ≤ len)
    (hn : s + len ≤ x.sizes.getD d 0) (hst : start = s ∨ (start = s - x.sizes.getD d 0 ∧ s + len < x.sizes.getD d 0)) :
    ∃ t, decNarrow x dim start len = some t ∧ IsNarrowOf t x d s len := by
  refine ⟨sliceAt x d s (s + len), ?_, sliceAt_narrow x d s len hl⟩
  unfold decNarrow
  rcases hst with rfl | ⟨rfl, hlt⟩
  · exact slice_narrow h hs hl hn
  · rw [slice_at h]
    show some (sliceAt x d (clampBound (x.sizes.getD d 0) (s - x.sizes.getD d 0)) (clampBound (x.sizes.getD d 0) (s - x.sizes.getD d 0 + len))) = _
    rw [clampBound_neg (i := s - x.sizes.getD d 0) (by omega), clampBound_neg (i := s - x.sizes.getD d 0 + len) (by omega)]
    congr 2 <;> omega

theorem narrow_end {x : Tensor E} {dim : Int} {d : Nat} (h : Dim x.sizes.length dim d) {len : Int} (hl : 0 < len)
    (hn : len ≤ x.sizes.getD d 0) : ∃ t, decNarrow x dim (-len) len = some t ∧ t.sizes = x.sizes.set d 0 := by
  unfold decNarrow
  rw [slice_at h]
  refine ⟨_, rfl, ?_⟩
  show x.sizes.set d (max 0 (clampBound (x.sizes.getD d 0) (-len + len) - clampBound (x.sizes.getD d 0) (-len))) = _
  rw [clampBound_neg (i := -len) (by omega), clampBound_in (i := -len + len) (by omega)]
  congr 1
  omega

theorem split_ok {x : Tensor E} {dim : Int} {d : Nat} (h : Dim x.sizes.length dim d) : ∀ (sizes : List Int) (b : Int), 0 ≤ b →
    (∀ n ∈ sizes, 0 ≤ n) → b + sizes.sum ≤ x.sizes.getD d 0 → ∃ ts, splitLoop x dim b sizes = some ts ∧ ts.length = sizes.length ∧
      ∀ (k : Nat) (t : Tensor E) (n : Int), ts[k]? = some t → sizes[k]? = some n → IsNarrowOf t x d (b + (sizes.take k).sum) n := by
  intro sizes
  induction sizes with
  | nil => exact fun b _ _ _ => ⟨[], rfl, rfl, fun k t n h => by simp at h⟩
  | cons m ms ih =>
    intro b hb hm hs
    have hm0 := hm m (by simp)
    have hms : 0 ≤ ms.sum := by
      have : ∀ l : List Int, (∀ n ∈ l, 0 ≤ n) → 0 ≤ l.sum := by
        intro l
        induction l with
        | nil => simp
        | cons a l ih => intro h; rw [List.sum_cons]; have := h a (by simp); have := ih (fun n hn => h n (by simp [hn])); omega
      exact this ms (fun n hn => hm n (by simp [hn]))
    rw [List.sum_cons] at hs
    obtain ⟨ts, h1, h2, h3⟩ := ih (b + m) (by omega) (fun n hn => hm n (by simp [hn])) (by omega)
    refine ⟨sliceAt x d b (b + m) :: ts, ?_, by simp [h2], ?_⟩
    · simp only [splitLoop, slice_narrow h hb hm0 (by omega), h1]
      rfl
    · intro k t n ht hn
      cases k with
      | zero =>
        simp only [List.getElem?_cons_zero, Option.some.injEq] at ht hn
        subst ht; subst hn
        simpa using sliceAt_narrow x d b m hm0
      | succ k =>
        simp only [List.getElem?_cons_succ] at ht hn
        have := h3 k t n ht hn
        rwa [List.take_succ_cons, List.sum_cons, ← Int.add_assoc]

theorem sizeInt_of {x : Tensor E} {dim : Int} {d : Nat} (h : Dim x.sizes.length dim d) : sizeInt x dim = some (x.sizes.getD d 0) := by
  unfold sizeInt
  rw [wrapDim_of h]
  rfl

theorem set_erase (l : List Int) (d : Nat) (v : Int) : (l.set d v).eraseIdx d = l.eraseIdx d := by
  by_cases hd : d < l.length
  · apply ext_getD
    · rw [length_erase _ _ (by simpa using hd), length_erase _ _ hd, List.length_set]
    · intro k _
      rw [getD_erase, getD_erase, getD_set, getD_set]
      by_cases h1 : k < d
      · rw [if_pos h1, if_pos h1, if_neg (by omega)]
      · rw [if_neg h1, if_neg h1, if_neg (by omega)]
  · rw [List.set_eq_of_length_le (by omega)]

theorem insert_set (l : List Int) (d : Nat) (v w : Int) (h : d ≤ l.length) : (l.insertIdx d v).set d w = l.insertIdx d w := by
  apply ext_getD
  · rw [List.length_set, length_insert _ _ _ h, length_insert _ _ _ h]
  · intro k hk
    rw [List.length_set, length_insert _ _ _ h] at hk
    rw [getD_set, getD_insert _ _ _ _ h, getD_insert _ _ _ _ h, length_insert _ _ _ h]
    by_cases h1 : d = k
    · rw [if_pos ⟨h1, hk⟩, if_neg (by omega), if_pos h1.symm]
    · rw [if_neg (fun h => h1 h.1)]
      by_cases h2 : k < d
      · rw [if_pos h2, if_pos h2]
      · rw [if_neg h2, if_neg h2, if_neg (fun h => h1 h.symm), if_neg (fun h => h1 h.symm)]

theorem getD_insert_self (l : List Int) (d : Nat) (v : Int) (h : d ≤ l.length) : (l.insertIdx d v).getD d 0 = v := by
  rw [getD_insert _ _ _ _ h, if_neg (by omega), if_pos rfl]

theorem select_ok {x : Tensor E} {dim : Int} {d : Nat} (h : Dim x.sizes.length dim d) {index i : Int} (hi : 0 ≤ i ∧ i < x.sizes.getD d 0)
    (hx : index = i ∨ index = i - x.sizes.getD d 0) : ∃ t, decSelect x dim index = some t ∧ IsSelectOf t x d i := by
  have hst : index + (if index < 0 then 1 else 0) * x.sizes.getD d 0 = i := by
    rcases hx with hx | hx
    · rw [if_neg (by omega)]; omega
    · rw [if_pos (by omega)]; omega
  have hsl := slice_narrow h hi.1 (show (0 : Int) ≤ 1 by omega) (by omega)
  have hsz : (sliceAt x d i (i + 1)).sizes = x.sizes.set d 1 := (sliceAt_narrow x d i 1 (by omega)).1
  have hd := h.1
  have hg : (sliceAt x d i (i + 1)).sizes.getD d 0 = 1 := by rw [hsz, getD_set, if_pos ⟨rfl, hd⟩]
  refine ⟨⟨(sliceAt x d i (i + 1)).sizes.eraseIdx d, fun idx => (sliceAt x d i (i + 1)).elem (idx.insertIdx d 0)⟩, ?_, ?_, ?_⟩
  · unfold decSelect
    simp only [sizeInt_of h, Option.bind_eq_bind, Option.bind_some, hst, hsl]
    unfold squeezeDim
    rw [hsz, List.length_set, wrapDim_of h]
    show (if (x.sizes.set d 1).getD d 0 = 1 then _ else _) = _
    rw [hsz] at hg
    rw [if_pos hg]
  · show (sliceAt x d i (i + 1)).sizes.eraseIdx d = _
    rw [hsz, set_erase]
  · intro idx hidx
    have hlen := inRange_length hidx
    replace hlen : idx.length = ((sliceAt x d i (i + 1)).sizes.eraseIdx d).length := hlen
    rw [hsz, set_erase, length_erase _ _ hd] at hlen
    show x.elem ((idx.insertIdx d 0).set d ((idx.insertIdx d 0).getD d 0 + i)) = _
    rw [getD_insert_self _ _ _ (by omega), insert_set _ _ _ _ (by omega), Int.zero_add]

/-! ## Concatenation -/

theorem cat_of {x : Tensor E} {xs : List (Tensor E)} {dim : Int} {d : Nat} (h : Dim x.sizes.length dim d)
    (hs : ∀ y ∈ x :: xs, y.sizes.set d 0 = x.sizes.set d 0) :
    cat (x :: xs) dim = some ⟨x.sizes.set d (((x :: xs).map fun y => y.sizes.getD d 0).sum), catElem d (x :: xs)⟩ := by
  have hall : ((x :: xs).all fun y => decide (y.sizes.set d 0 = x.sizes.set d 0)) = true := by
    rw [List.all_eq_true]
    intro y hy
    exact decide_eq_true (hs y hy)
  unfold cat
  simp only []
  rw [wrapDim_of h]
  exact if_pos hall

theorem catElem_at {d : Nat} : ∀ (xs : List (Tensor E)) (k : Nat) (x : Tensor E), xs[k]? = some x →
    (∀ y ∈ xs, 0 ≤ y.sizes.getD d 0) → ∀ j, inRange x.sizes j = true → d < x.sizes.length →
    catElem d xs (j.set d (j.getD d 0 + ((xs.take k).map fun y => y.sizes.getD d 0).sum)) = x.elem j := by
  intro xs
  induction xs with
  | nil => intro k x h; simp at h
  | cons y ys ih =>
    intro k x hk hnn j hj hd
    have hjl := inRange_length hj
    have hjd := inRange_getD hj hd
    cases k with
    | zero =>
      simp only [List.getElem?_cons_zero, Option.some.injEq] at hk
      subst hk
      rw [List.take_zero, List.map_nil, List.sum_nil, Int.add_zero]
      have hsame : j.set d (j.getD d 0) = j := by
        apply ext_getD (by simp)
        intro k hk
        rw [getD_set]
        by_cases h : d = k ∧ k < j.length
        · rw [if_pos h, h.1]
        · rw [if_neg h]
      rw [hsame]
      show (if _ then _ else _) = _
      rw [if_pos hjd.2]
    | succ k =>
      simp only [List.getElem?_cons_succ] at hk
      have hys : 0 ≤ ((ys.take k).map fun y => y.sizes.getD d 0).sum := by
        have : ∀ l : List (Tensor E), (∀ y ∈ l, 0 ≤ y.sizes.getD d 0) → 0 ≤ (l.map fun y => y.sizes.getD d 0).sum := by
          intro l
          induction l with
          | nil => intro _; simp
          | cons a l ih => intro h; rw [List.map_cons, List.sum_cons]; have := h a (by simp); have := ih (fun n hn => h n (by simp [hn])); omega
        exact this _ (fun z hz => hnn z (by simp [List.mem_of_mem_take hz]))
      rw [List.take_succ_cons, List.map_cons, List.sum_cons]
      show (if _ then _ else _) = _
      have hg : (j.set d (j.getD d 0 + (y.sizes.getD d 0 + ((ys.take k).map fun y => y.sizes.getD d 0).sum))).getD d 0 =
          j.getD d 0 + (y.sizes.getD d 0 + ((ys.take k).map fun y => y.sizes.getD d 0).sum) := by
        rw [getD_set, if_pos ⟨rfl, by omega⟩]
      rw [hg, if_neg (by omega), List.set_set]
      rw [show j.getD d 0 + (y.sizes.getD d 0 + ((ys.take k).map fun y => y.sizes.getD d 0).sum) - y.sizes.getD d 0 =
        j.getD d 0 + ((ys.take k).map fun y => y.sizes.getD d 0).sum by omega]
      exact ih k x hk (fun z hz => hnn z (by simp [hz])) j hj hd

theorem cat_cover {d : Nat} : ∀ (xs : List (Tensor E)) (i : Int), 0 ≤ i → (∀ y ∈ xs, 0 ≤ y.sizes.getD d 0) →
    i < (xs.map fun y => y.sizes.getD d 0).sum → ∃ (k : Nat) (x : Tensor E), xs[k]? = some x ∧
      0 ≤ i - ((xs.take k).map fun y => y.sizes.getD d 0).sum ∧ i - ((xs.take k).map fun y => y.sizes.getD d 0).sum < x.sizes.getD d 0 := by
  intro xs
  induction xs with
  | nil => intro i h0 _ h; simp at h; omega
  | cons y ys ih =>
    intro i h0 hnn h
    rw [List.map_cons, List.sum_cons] at h
    by_cases hi : i < y.sizes.getD d 0
    · exact ⟨0, y, rfl, by simpa using h0, by simpa using hi⟩
    · obtain ⟨k, x, h1, h2, h3⟩ := ih (i - y.sizes.getD d 0) (by omega) (fun z hz => hnn z (by simp [hz])) (by omega)
      refine ⟨k + 1, x, h1, ?_, ?_⟩ <;> rw [List.take_succ_cons, List.map_cons, List.sum_cons] <;> omega

theorem share_map {xs : List (Tensor E)} {r d : Nat} (h : ∀ x ∈ xs, x.sizes.length = r) : xs.map (share r d) = xs.map fun y => y.sizes.getD d 0 := by
  apply List.map_congr_left
  intro x hx
  unfold share
  rw [if_pos (h x hx)]

theorem cat_ok {xs : List (Tensor E)} {dim : Int} {r d : Nat} {base : List Int} (hne : xs ≠ []) (h : Dim r dim d)
    (hr : ∀ x ∈ xs, x.sizes.length = r) (hb : ∀ x ∈ xs, x.sizes.set d 0 = base) (hnn : ∀ x ∈ xs, 0 ≤ x.sizes.getD d 0) :
    ∃ t, cat xs dim = some t ∧ IsCatOf t xs r d := by
  cases xs with
  | nil => exact absurd rfl hne
  | cons x0 xs =>
    have hr0 := hr x0 (by simp)
    have hb0 := hb x0 (by simp)
    refine ⟨_, cat_of (d := d) (by rw [hr0]; exact h) (fun y hy => by rw [hb y hy, hb0]), ?_, ?_, ?_⟩
    · intro x hx _
      rw [share_map hr]
      show x0.sizes.set d _ = x.sizes.set d _
      have h1 : x0.sizes.set d 0 = x.sizes.set d 0 := by rw [hb0, hb x hx]
      have h2 := congrArg (fun (l : List Int) => l.set d (((x0 :: xs).map fun y => y.sizes.getD d 0).sum)) h1
      simpa only [List.set_set] using h2
    · intro k x hk j hj
      have hx := List.mem_of_getElem? hk
      have htk : ∀ y ∈ (x0 :: xs).take k, y.sizes.length = r := fun y hy => hr y (List.mem_of_mem_take hy)
      rw [share_map htk]
      exact catElem_at (x0 :: xs) k x hk hnn j hj (by rw [hr x hx]; exact h.1)
    · intro idx hidx
      have hidx' : inRange (x0.sizes.set d (((x0 :: xs).map fun y => y.sizes.getD d 0).sum)) idx = true := hidx
      have hl := inRange_length hidx'
      rw [List.length_set, hr0] at hl
      have hd := inRange_getD hidx' (d := d) (by rw [List.length_set, hr0]; exact h.1)
      rw [getD_set, if_pos ⟨rfl, by rw [hr0]; exact h.1⟩] at hd
      obtain ⟨k, x, h1, h2, h3⟩ := cat_cover (x0 :: xs) (idx.getD d 0) hd.1 hnn hd.2
      have hx := List.mem_of_getElem? h1
      refine ⟨k, x, idx.set d (idx.getD d 0 - (((x0 :: xs).take k).map fun y => y.sizes.getD d 0).sum), h1, ?_, ?_⟩
      · apply inRange_set (m := ((x0 :: xs).map fun y => y.sizes.getD d 0).sum) _ _ ⟨h2, h3⟩
        have h1 : x0.sizes.set d 0 = x.sizes.set d 0 := by rw [hb0, hb x hx]
        have h2 := congrArg (fun (l : List Int) => l.set d (((x0 :: xs).map fun y => y.sizes.getD d 0).sum)) h1
        simp only [List.set_set] at h2
        rw [← h2]; exact hidx'
      · have htk : ∀ y ∈ (x0 :: xs).take k, y.sizes.length = r := fun y hy => hr y (List.mem_of_mem_take hy)
        have hdl : d < idx.length := by rw [hl]; exact h.1
        rw [share_map htk, List.set_set, getD_set, if_pos ⟨rfl, hdl⟩]
        apply ext_getD (by simp)
        intro m hm
        rw [getD_set]
        by_cases hdm : d = m ∧ m < idx.length
        · rw [if_pos hdm, ← hdm.1]; omega
        · rw [if_neg hdm]

theorem mapM_some {A B : Type} {f : A → Option B} {g : A → B} : ∀ {l : List A}, (∀ a ∈ l, f a = some (g a)) → l.mapM f = some (l.map g) := by
  intro l
  induction l with
  | nil => intro _; rfl
  | cons a l ih =>
    intro h
    rw [List.mapM_cons, h a (by simp), ih (fun b hb => h b (by simp [hb]))]
    rfl

/-- A new dimension of size one. -/
def unsq (d : Nat) (x : Tensor E) : Tensor E := ⟨x.sizes.insertIdx d 1, fun idx => x.elem (idx.eraseIdx d)⟩

theorem unsqueeze_of {x : Tensor E} {dim : Int} {d : Nat} (h : Dim (x.sizes.length + 1) dim d) : unsqueeze x dim = some (unsq d x) := by
  unfold unsqueeze
  rw [wrapDim_of h]
  rfl

theorem stack_elem {sizes : List Int} {d : Nat} (hd : d ≤ sizes.length) : ∀ (xs : List (Tensor E)), (∀ x ∈ xs, x.sizes = sizes) →
    ∀ (k : Nat) (x : Tensor E), xs[k]? = some x → ∀ j, j.length = sizes.length → catElem d (xs.map (unsq d)) (j.insertIdx d k) = x.elem j := by
  intro xs
  induction xs with
  | nil => intro _ k x h; simp at h
  | cons y ys ih =>
    intro hs k x hk j hj
    have hy : (y.sizes.insertIdx d 1).getD d 0 = 1 := by rw [hs y (by simp)]; exact getD_insert_self _ _ _ hd
    rw [List.map_cons]
    show (if (j.insertIdx d (k : Int)).getD d 0 < (y.sizes.insertIdx d 1).getD d 0 then y.elem ((j.insertIdx d (k : Int)).eraseIdx d) else
      catElem d _ ((j.insertIdx d (k : Int)).set d ((j.insertIdx d (k : Int)).getD d 0 - (y.sizes.insertIdx d 1).getD d 0))) = _
    rw [hy, getD_insert_self _ _ _ (by omega)]
    cases k with
    | zero =>
      simp only [List.getElem?_cons_zero, Option.some.injEq] at hk
      subst hk
      rw [if_pos (by simp), erase_insert]
    | succ k =>
      simp only [List.getElem?_cons_succ] at hk
      rw [if_neg (by omega), insert_set _ _ _ _ (by omega), show ((k + 1 : Nat) : Int) - 1 = (k : Int) by omega]
      exact ih (fun z hz => hs z (by simp [hz])) k x hk j hj

theorem stack_sum {sizes : List Int} {d : Nat} (hd : d ≤ sizes.length) : ∀ (l : List (Tensor E)), (∀ x ∈ l, x.sizes = sizes) →
    ((l.map (unsq d)).map fun y => y.sizes.getD d 0).sum = l.length := by
  intro l
  induction l with
  | nil => intro _; rfl
  | cons a l ih =>
    intro hl
    rw [List.map_cons, List.map_cons, List.sum_cons, ih (fun x hx => hl x (by simp [hx]))]
    show (a.sizes.insertIdx d 1).getD d 0 + _ = _
    rw [hl a (by simp), getD_insert_self _ _ _ hd, List.length_cons]
    omega

theorem stack_ok {xs : List (Tensor E)} {sizes : List Int} {dim : Int} {d : Nat} (hne : xs ≠ []) (h : Dim (sizes.length + 1) dim d)
    (hs : ∀ x ∈ xs, x.sizes = sizes) : ∃ t, decStack xs dim = some t ∧ IsStackOf t xs sizes d := by
  have hd : d ≤ sizes.length := by have := h.1; omega
  have hm : xs.mapM (fun x => unsqueeze x dim) = some (xs.map (unsq d)) := mapM_some fun x hx => unsqueeze_of (by rw [hs x hx]; exact h)
  cases xs with
  | nil => exact absurd rfl hne
  | cons x0 xs =>
    have h0 := hs x0 (by simp)
    have hcat : cat (unsq d x0 :: xs.map (unsq d)) dim =
        some ⟨(unsq d x0).sizes.set d (((unsq d x0 :: xs.map (unsq d)).map fun y => y.sizes.getD d 0).sum), catElem d (unsq d x0 :: xs.map (unsq d))⟩ := by
      apply cat_of
      · show Dim (x0.sizes.insertIdx d 1).length dim d
        rw [h0, length_insert _ _ _ hd]; exact h
      · intro y hy
        rw [← List.map_cons (f := unsq d), List.mem_map] at hy
        obtain ⟨z, hz, rfl⟩ := hy
        show (z.sizes.insertIdx d 1).set d 0 = (x0.sizes.insertIdx d 1).set d 0
        rw [hs z hz, h0]
    refine ⟨?_, ?_, ?_, ?_⟩
    · exact ⟨(unsq d x0).sizes.set d (((unsq d x0 :: xs.map (unsq d)).map fun y => y.sizes.getD d 0).sum), catElem d (unsq d x0 :: xs.map (unsq d))⟩
    · unfold decStack
      rw [hm]
      exact hcat
    · show (x0.sizes.insertIdx d 1).set d _ = _
      rw [h0, insert_set _ _ _ _ hd]
      congr 1
      exact stack_sum hd (x0 :: xs) hs
    · intro k x hk j hj
      exact stack_elem hd (x0 :: xs) hs k x hk j (inRange_length hj)

theorem hstack_ok {xs : List (Tensor E)} {r : Nat} {base : List Int} (hne : xs ≠ []) (h1 : 1 ≤ r) (hr : ∀ x ∈ xs, x.sizes.length = r)
    (hb : ∀ x ∈ xs, x.sizes.set (if r = 1 then 0 else 1) 0 = base) (hnn : ∀ x ∈ xs, ∀ n ∈ x.sizes, 0 ≤ n) :
    ∃ t, decHstack xs = some t ∧ IsCatOf t xs r (if r = 1 then 0 else 1) := by
  have hm : xs.mapM hstackOperand = some (xs.map fun x => (x, x.sizes.length)) := by
    apply mapM_some
    intro x hx
    unfold hstackOperand
    rw [if_neg (by rw [hr x hx]; omega)]
  have hmm : (xs.map fun x => (x, x.sizes.length)).map (·.1) = xs := by simp [List.map_map, Function.comp_def]
  have hd : Dim r (if r = 1 then 0 else 1) (if r = 1 then 0 else 1) := by
    by_cases h : r = 1
    · rw [if_pos h, if_pos h]; exact ⟨by omega, .inl rfl⟩
    · rw [if_neg h, if_neg h]; exact ⟨by omega, .inl rfl⟩
  have hg : ∀ x ∈ xs, 0 ≤ x.sizes.getD (if r = 1 then 0 else 1) 0 := by
    intro x hx
    rw [List.getD_eq_getElem?_getD]
    cases hc : x.sizes[if r = 1 then 0 else 1]? with
    | none => simp
    | some n => exact hnn x hx n (List.mem_of_getElem? hc)
  obtain ⟨t, ht, hc⟩ := cat_ok hne hd hr hb hg
  refine ⟨t, ?_, hc⟩
  cases xs with
  | nil => exact absurd rfl hne
  | cons x xs =>
    unfold decHstack
    rw [hm]
    show cat (((x :: xs).map fun x => (x, x.sizes.length)).map (·.1)) (if x.sizes.length = 1 then 0 else 1) = _
    rw [hmm, hr x (by simp)]
    exact ht

theorem hstack_scalars {xs : List (Tensor E)} (hs : ∀ x ∈ xs, x.sizes = []) : decHstack xs = none := by
  have hm : xs.mapM hstackOperand = some (xs.map fun x => (⟨[1], fun idx => x.elem (idx.eraseIdx 0)⟩, 0)) := by
    apply mapM_some
    intro x hx
    unfold hstackOperand decAtleast1d
    rw [hs x hx, if_pos (by simp), if_pos rfl, unsqueeze_of (dim := 0) (d := 0) ⟨by omega, .inl rfl⟩]
    unfold unsq
    rw [hs x hx]
    rfl
  unfold decHstack
  rw [hm]
  cases xs with
  | nil => rfl
  | cons x xs => rfl

/-! ## Rolls -/

theorem roll_index {n c i : Int} (hc : 0 ≤ c ∧ c ≤ n) (hi : 0 ≤ i ∧ i < n) (s : Int) (hs : (c + s) % n = 0) :
    (i - s) % n = if i < n - c then i + c else i - (n - c) := by
  have h1 : (i - s) % n = (i + c) % n := by
    have : i - s = (i + c) - (c + s) := by omega
    rw [this, Int.sub_emod, hs, Int.sub_zero, Int.emod_emod]
  rw [h1]
  by_cases h : i < n - c
  · rw [if_pos h, Int.emod_eq_of_lt (by omega) (by omega)]
  · rw [if_neg h, show i + c = (i - (n - c)) + n by omega, Int.add_emod_right, Int.emod_eq_of_lt (by omega) (by omega)]

theorem imitate_elem {x : Tensor E} {dim s : Int} {d : Nat} (h : Dim x.sizes.length dim d) (hn : 0 ≤ x.sizes.getD d 0) :
    ∃ t c, imitateRoll x s dim = some t ∧ c = clampBound (x.sizes.getD d 0) (-s) ∧ 0 ≤ c ∧ c ≤ x.sizes.getD d 0 ∧ t.sizes = x.sizes ∧
      ∀ idx, inRange x.sizes idx = true → t.elem idx =
        x.elem (idx.set d (if idx.getD d 0 < x.sizes.getD d 0 - c then idx.getD d 0 + c else idx.getD d 0 - (x.sizes.getD d 0 - c))) := by
  have hd := h.1
  have hcb : 0 ≤ clampBound (x.sizes.getD d 0) (-s) ∧ clampBound (x.sizes.getD d 0) (-s) ≤ x.sizes.getD d 0 := by
    unfold clampBound
    by_cases h : -s < 0
    · rw [if_pos h]; omega
    · rw [if_neg h]; omega
  refine ⟨⟨(x.sizes.set d (max 0 (x.sizes.getD d 0 - clampBound (x.sizes.getD d 0) (-s)))).set d
      (([sliceAt x d (clampBound (x.sizes.getD d 0) (-s)) (x.sizes.getD d 0),
        sliceAt x d (clampBound (x.sizes.getD d 0) 0) (clampBound (x.sizes.getD d 0) (-s))].map fun y => y.sizes.getD d 0).sum),
    catElem d [sliceAt x d (clampBound (x.sizes.getD d 0) (-s)) (x.sizes.getD d 0),
        sliceAt x d (clampBound (x.sizes.getD d 0) 0) (clampBound (x.sizes.getD d 0) (-s))]⟩, _, ?_, rfl, hcb.1, hcb.2, ?_⟩
  · unfold imitateRoll
    rw [slice_at h, slice_at h]
    show cat [sliceAt x d (clampBound (x.sizes.getD d 0) (-s)) (x.sizes.getD d 0),
      sliceAt x d (clampBound (x.sizes.getD d 0) 0) (clampBound (x.sizes.getD d 0) (-s))] dim = _
    apply cat_of
    · show Dim (x.sizes.set d _).length dim d
      rw [List.length_set]; exact h
    · intro y hy
      simp only [List.mem_cons, List.not_mem_nil, or_false] at hy
      rcases hy with rfl | rfl
      · rfl
      · show (x.sizes.set d _).set d 0 = (x.sizes.set d _).set d 0
        rw [List.set_set, List.set_set]
  · rw [clampBound_in (n := x.sizes.getD d 0) (i := 0) (by omega)]
    generalize clampBound (x.sizes.getD d 0) (-s) = c at hcb ⊢
    have hsz : ∀ a b : Int, (sliceAt x d a b).sizes.getD d 0 = max 0 (b - a) := by
      intro a b
      show (x.sizes.set d _).getD d 0 = _
      rw [getD_set, if_pos ⟨rfl, hd⟩]
    constructor
    · show (x.sizes.set d _).set d ([_, _].map _).sum = _
      simp only [List.map_cons, List.map_nil, List.sum_cons, List.sum_nil, hsz, List.set_set]
      apply ext_getD (by simp)
      intro k hk
      rw [getD_set]
      by_cases hk : d = k ∧ k < x.sizes.length
      · rw [if_pos hk, ← hk.1]; omega
      · rw [if_neg hk]
    · intro idx hidx
      have hl := inRange_length hidx
      have hb := inRange_getD hidx hd
      show (if _ then _ else if _ then _ else _) = _
      simp only [hsz]
      by_cases hi : idx.getD d 0 < x.sizes.getD d 0 - c
      · rw [if_pos (by omega), if_pos hi]; rfl
      · rw [if_neg (by omega), if_neg hi]
        have hg : (idx.set d (idx.getD d 0 - max 0 (x.sizes.getD d 0 - c))).getD d 0 = idx.getD d 0 - max 0 (x.sizes.getD d 0 - c) := by
          rw [getD_set, if_pos ⟨rfl, by omega⟩]
        rw [if_pos (by rw [hg]; omega)]
        show x.elem ((idx.set d _).set d _) = _
        rw [hg, List.set_set]
        congr 2
        omega

theorem shift_one (s : Int) (d k : Nat) : shiftOf [(s, d)] k = if d = k then s else 0 := by
  unfold shiftOf
  by_cases h : d = k
  · subst h; simp
  · simp [h]

theorem shift_cons (m : Int × Nat) (ms : List (Int × Nat)) (k : Nat) : shiftOf (m :: ms) k = shiftOf [m] k + shiftOf ms k := by
  unfold shiftOf
  by_cases h : m.2 = k
  · simp [h]
  · simp [h]

/-- A shift that does not go beyond the size, or by a multiple of it. -/
theorem roll_one {x : Tensor E} {dim s : Int} {d : Nat} (h : Dim x.sizes.length dim d) (hn : 0 ≤ x.sizes.getD d 0)
    (hs : (-x.sizes.getD d 0 ≤ s ∧ s ≤ x.sizes.getD d 0) ∨ s % x.sizes.getD d 0 = 0) :
    ∃ t, imitateRoll x s dim = some t ∧ IsRollOf t x [(s, d)] := by
  obtain ⟨t, c, h1, h2, h3, h4, h5, h6⟩ := imitate_elem (s := s) h hn
  have hd := h.1
  refine ⟨t, h1, h5, fun idx hidx => ?_⟩
  rw [h6 idx hidx]
  congr 1
  have hl := inRange_length hidx
  have hb := inRange_getD hidx hd
  have hcs : (c + s) % x.sizes.getD d 0 = 0 := by
    generalize x.sizes.getD d 0 = n at *
    unfold clampBound at h2
    by_cases hneg : -s < 0
    · rw [if_pos hneg] at h2
      by_cases hle : s ≤ n
      · rw [show c + s = n by omega]; simp
      · have : s % n = 0 := by omega
        rw [show c + s = s by omega]; exact this
    · rw [if_neg hneg] at h2
      by_cases hle : -n ≤ s
      · rw [show c + s = 0 by omega]; simp
      · have : s % n = 0 := by omega
        rw [show c + s = s + n by omega, Int.add_emod_right]; exact this
  apply ext_getD (by simp)
  intro k hk
  rw [List.length_set] at hk
  rw [getD_set, getD_zipMap, if_pos hk, shift_one]
  by_cases hdk : d = k
  · rw [if_pos ⟨hdk, hk⟩, if_pos hdk, ← hdk]
    exact (roll_index ⟨h3, h4⟩ hb s hcs).symm
  · rw [if_neg (fun h => hdk h.1), if_neg hdk, Int.sub_zero]
    have := inRange_getD hidx (d := k) (by omega)
    rw [Int.emod_eq_of_lt this.1 this.2]

theorem roll_none (x : Tensor E) : IsRollOf x x [] := by
  refine ⟨rfl, fun idx hidx => ?_⟩
  congr 1
  have hl := inRange_length hidx
  apply ext_getD (by simp)
  intro k hk
  rw [getD_zipMap, if_pos hk]
  have := inRange_getD hidx (d := k) (by omega)
  show _ = (_ - 0) % _
  rw [Int.sub_zero, Int.emod_eq_of_lt this.1 this.2]

theorem roll_compose {t u x : Tensor E} {m : Int × Nat} {ms : List (Int × Nat)} (h1 : IsRollOf u x [m]) (h2 : IsRollOf t u ms) :
    IsRollOf t x (m :: ms) := by
  refine ⟨h2.1.trans h1.1, fun idx hidx => ?_⟩
  have hl := inRange_length hidx
  rw [h2.2 idx (by rw [h1.1]; exact hidx), h1.2]
  · congr 1
    apply ext_getD (by simp)
    intro k hk
    simp only [List.length_map, List.length_zipIdx] at hk
    rw [getD_zipMap, getD_zipMap, getD_zipMap, List.length_map, List.length_zipIdx, if_pos hk, if_pos hk, if_pos hk, shift_cons m ms k]
    simp only [h1.1]
    generalize x.sizes.getD k 0 = n
    rw [Int.sub_emod, Int.emod_emod, ← Int.sub_emod]
    congr 1
    omega
  · rw [inRange_iff']
    refine ⟨by simpa using hl, fun k hk => ?_⟩
    rw [getD_zipMap, if_pos (by omega), h1.1]
    have := inRange_getD hidx hk
    simp only []
    exact ⟨Int.emod_nonneg _ (by omega), Int.emod_lt_of_pos _ (by omega)⟩

theorem roll_loop : ∀ (moves : List (Int × Nat)) (dims : List Int) (x : Tensor E), (∀ n ∈ x.sizes, 0 ≤ n) →
    Names x.sizes.length dims (moves.map (·.2)) →
    (∀ m ∈ moves, (-x.sizes.getD m.2 0 ≤ m.1 ∧ m.1 ≤ x.sizes.getD m.2 0) ∨ m.1 % x.sizes.getD m.2 0 = 0) →
    ∃ t, rollLoop x ((moves.map (·.1)).zip dims) = some t ∧ IsRollOf t x moves := by
  intro moves
  induction moves with
  | nil => intro dims x _ _ _; exact ⟨x, rfl, roll_none x⟩
  | cons m ms ih =>
    intro dims x hnn hnm hs
    cases hnm with
    | cons hd hrest =>
      rename_i dim dims
      have hdl := hd.1
      have hn : 0 ≤ x.sizes.getD m.2 0 := hnn _ (by rw [List.getD_eq_getElem?_getD, List.getElem?_eq_getElem hdl]; exact List.getElem_mem hdl)
      obtain ⟨u, hu, hru⟩ := roll_one (s := m.1) (d := m.2) hd hn (hs m (by simp))
      obtain ⟨t, ht, hrt⟩ := ih dims u (by rw [hru.1]; exact hnn) (by rw [hru.1]; exact hrest)
        (fun m' hm' => by rw [hru.1]; exact hs m' (by simp [hm']))
      refine ⟨t, ?_, roll_compose hru hrt⟩
      rw [List.map_cons, List.zip_cons_cons]
      show (imitateRoll x m.1 dim).bind _ = _
      rw [hu]
      exact ht

/-- Shifting by the size or more leaves everything where it is. -/
theorem roll_far {x : Tensor E} {dim s : Int} {d : Nat} (h : Dim x.sizes.length dim d) (hn : 0 ≤ x.sizes.getD d 0)
    (hs : x.sizes.getD d 0 ≤ s ∨ s ≤ -x.sizes.getD d 0) : ∃ t, imitateRoll x s dim = some t ∧ Same t x := by
  obtain ⟨t, c, h1, h2, h3, h4, h5, h6⟩ := imitate_elem (s := s) h hn
  refine ⟨t, h1, h5, fun idx hidx => ?_⟩
  rw [h6 idx hidx]
  congr 1
  have hb := inRange_getD hidx h.1
  have hc : c = 0 ∨ c = x.sizes.getD d 0 := by
    unfold clampBound at h2
    by_cases hneg : -s < 0
    · rw [if_pos hneg] at h2; omega
    · rw [if_neg hneg] at h2; omega
  apply ext_getD (by simp)
  intro k hk
  rw [getD_set]
  by_cases hdk : d = k ∧ k < idx.length
  · rw [if_pos hdk, ← hdk.1]
    rcases hc with hc | hc
    · rw [if_pos (by omega)]; omega
    · rw [if_neg (by omega)]; omega
  · rw [if_neg hdk]

end Verif.Dec
