import Verif.Lemmas.TmLoops

namespace Verif.Tm

/-! ## Bubble sort on lists -/

section
variable {T : Type} (c : T → T → Bool)

/-- One pass with `a` in hand. -/
def carry : T → List T → List T
  | a, [] => [a]
  | a, b :: r => if c a b then a :: carry b r else b :: carry a r

def bubble : List T → List T
  | [] => []
  | a :: r => carry c a r

theorem carry_perm : ∀ (r : List T) (a : T), (carry c a r).Perm (a :: r)
  | [], a => .refl _
  | b :: r, a => by
    rw [carry]
    split
    · exact (carry_perm r b).cons a
    · exact ((carry_perm r a).cons b).trans (List.Perm.swap a b r)

theorem bubble_perm (l : List T) : (bubble c l).Perm l := by
  cases l with
  | nil => exact .refl _
  | cons a r => exact carry_perm c r a

variable {c}

theorem carry_pairwise {Q : T → T → Prop} (hQ : ∀ x y, Q x y → c x y = false → Q y x) : ∀ (r : List T) (a : T),
    (a :: r).Pairwise Q → (carry c a r).Pairwise Q
  | [], a, h => h
  | b :: r, a, h => by
    obtain ⟨h1, h2⟩ := List.pairwise_cons.1 h
    obtain ⟨h3, h4⟩ := List.pairwise_cons.1 h2
    rw [carry]
    split
    · refine List.pairwise_cons.2 ⟨fun x hx => h1 x ((carry_perm c r b).mem_iff.1 hx), carry_pairwise hQ r b h2⟩
    · rename_i hc
      refine List.pairwise_cons.2 ⟨fun x hx => ?_, carry_pairwise hQ r a
        (List.pairwise_cons.2 ⟨fun x hx => h1 x (List.mem_cons_of_mem _ hx), h4⟩)⟩
      rcases List.mem_cons.1 ((carry_perm c r a).mem_iff.1 hx) with rfl | hx
      · exact hQ _ _ (h1 b (by simp)) (by simpa using hc)
      · exact h3 x hx

theorem bubble_pairwise {Q : T → T → Prop} (hQ : ∀ x y, Q x y → c x y = false → Q y x) (l : List T) (h : l.Pairwise Q) :
    (bubble c l).Pairwise Q := by
  cases l with
  | nil => exact h
  | cons a r => exact carry_pairwise hQ r a h

variable {p : T → Prop}

theorem carry_last (hc : IsOrder p c) : ∀ (r : List T) (a : T), (∀ x ∈ a :: r, p x) →
    ∃ i m, carry c a r = i ++ [m] ∧ ∀ x ∈ i, c x m = true
  | [], a, _ => ⟨[], a, rfl, by simp⟩
  | b :: r, a, hp => by
    have hrefl : ∀ x, p x → c x x = true := fun x hx => (hc.total x x hx hx).elim id id
    have hmax : ∀ {i : List T} {m x : T}, p x → (∀ y ∈ i, c y m = true) → x ∈ i ++ [m] → c x m = true := by
      intro i m x hx h hm
      rcases List.mem_append.1 hm with hm | hm
      · exact h x hm
      · rw [List.mem_singleton.1 hm] at hx ⊢; exact hrefl m hx
    have pa := hp a (by simp)
    have pb := hp b (by simp)
    rw [carry]
    split
    · rename_i hab
      obtain ⟨i, m, h1, h2⟩ := carry_last hc r b (fun x hx => hp x (List.mem_cons_of_mem _ hx))
      have hin : ∀ x, x ∈ i ++ [m] ↔ x ∈ b :: r := fun x => by rw [← h1]; exact (carry_perm c r b).mem_iff
      have pm : p m := hp m (List.mem_cons_of_mem _ ((hin m).1 (by simp)))
      refine ⟨a :: i, m, by rw [h1]; rfl, fun x hx => ?_⟩
      rcases List.mem_cons.1 hx with rfl | hx
      · exact hc.trans _ b m pa pb pm hab (hmax pb h2 ((hin b).2 (by simp)))
      · exact h2 x hx
    · rename_i hab
      have hba : c b a = true := (hc.total a b pa pb).resolve_left hab
      obtain ⟨i, m, h1, h2⟩ := carry_last hc r a (fun x hx => hp x (by
        rcases List.mem_cons.1 hx with rfl | hx
        · simp
        · exact List.mem_cons_of_mem _ (List.mem_cons_of_mem _ hx)))
      have hin : ∀ x, x ∈ i ++ [m] ↔ x ∈ a :: r := fun x => by rw [← h1]; exact (carry_perm c r a).mem_iff
      have pm : p m := hp m (by
        rcases List.mem_cons.1 ((hin m).1 (by simp)) with h | h
        · rw [h]; simp
        · exact List.mem_cons_of_mem _ (List.mem_cons_of_mem _ h))
      refine ⟨b :: i, m, by rw [h1]; rfl, fun x hx => ?_⟩
      rcases List.mem_cons.1 hx with rfl | hx
      · exact hc.trans _ a m pb pa pm hba (hmax pa h2 ((hin a).2 (by simp)))
      · exact h2 x hx

theorem carry_sorted : ∀ (l : List T) (a : T), (a :: l).Pairwise (fun x y => c x y = true) → carry c a l = a :: l
  | [], _, _ => rfl
  | b :: l, a, h => by
    obtain ⟨h1, h2⟩ := List.pairwise_cons.1 h
    rw [carry, if_pos (h1 b (by simp)), carry_sorted l b h2]

theorem carry_append {l2 : List T} (h2 : l2.Pairwise fun x y => c x y = true) : ∀ (r : List T) (a : T),
    (∀ x ∈ a :: r, ∀ y ∈ l2, c x y = true) → carry c a (r ++ l2) = carry c a r ++ l2
  | [], a, h => by
    rw [List.nil_append, carry_sorted l2 a (List.pairwise_cons.2 ⟨fun y hy => h a (by simp) y hy, h2⟩)]
    rfl
  | b :: r, a, h => by
    rw [List.cons_append, carry, carry]
    split
    · rw [carry_append h2 r b (fun x hx => h x (List.mem_cons_of_mem _ hx))]; rfl
    · rw [carry_append h2 r a (fun x hx => h x (by
        rcases List.mem_cons.1 hx with rfl | hx
        · simp
        · exact List.mem_cons_of_mem _ (List.mem_cons_of_mem _ hx)))]
      rfl

/-- After `k` passes the last `k` elements are in place. -/
theorem iterate_split (hc : IsOrder p c) (l : List T) (hp : ∀ x ∈ l, p x) : ∀ k : Nat,
    ((bubble c)^[k] l).Perm l ∧ ∃ A B, (bubble c)^[k] l = A ++ B ∧ (k ≤ B.length ∨ A = []) ∧
      B.Pairwise (fun x y => c x y = true) ∧ ∀ x ∈ A, ∀ y ∈ B, c x y = true
  | 0 => ⟨.refl _, l, [], by simp, Or.inl (by simp), .nil, by simp⟩
  | k + 1 => by
    obtain ⟨hperm, A, B, he, hlen, hB, hAB⟩ := iterate_split hc l hp k
    rw [Function.iterate_succ_apply']
    refine ⟨(bubble_perm c _).trans hperm, ?_⟩
    have hpA : ∀ x ∈ A ++ B, p x := fun x hx => hp x (hperm.mem_iff.1 (by rw [he]; exact hx))
    rw [he]
    cases A with
    | nil =>
      refine ⟨[], B, ?_, Or.inr rfl, hB, by simp⟩
      cases B with
      | nil => rfl
      | cons b B => exact carry_sorted B b hB
    | cons a r =>
      obtain ⟨i, m, h1, h2⟩ := carry_last hc r a (fun x hx => hpA x (List.mem_append_left _ hx))
      have hin : ∀ x, x ∈ i ++ [m] ↔ x ∈ a :: r := fun x => by rw [← h1]; exact (carry_perm c r a).mem_iff
      refine ⟨i, m :: B, ?_, ?_, ?_, ?_⟩
      · show carry c a (r ++ B) = _
        rw [carry_append hB r a hAB, h1]
        simp
      · rcases hlen with h | h
        · left; simp; omega
        · cases h
      · exact List.pairwise_cons.2 ⟨fun y hy => hAB m ((hin m).1 (by simp)) y hy, hB⟩
      · intro x hx y hy
        rcases List.mem_cons.1 hy with rfl | hy
        · exact h2 x hx
        · exact hAB x ((hin x).1 (List.mem_append_left _ hx)) y hy

theorem iterate_sorted (hc : IsOrder p c) (l : List T) (hp : ∀ x ∈ l, p x) :
    ((bubble c)^[l.length] l).Pairwise fun x y => c x y = true := by
  obtain ⟨hperm, A, B, he, hlen, hB, _⟩ := iterate_split hc l hp l.length
  have : A = [] := by
    rcases hlen with h | h
    · have := hperm.length_eq
      rw [he, List.length_append] at this
      exact List.eq_nil_of_length_eq_zero (by omega)
    · exact h
  rw [he, this]
  exact hB

theorem carry_map {U : Type} (f : U → T) : ∀ (r : List U) (a : U),
    (carry (fun x y => c (f x) (f y)) a r).map f = carry c (f a) (r.map f)
  | [], a => rfl
  | b :: r, a => by
    rw [List.map_cons, carry, carry]
    split
    · rw [List.map_cons, carry_map f r b]
    · rw [List.map_cons, carry_map f r a]

theorem iterate_map {U : Type} (f : U → T) (l : List U) : ∀ k : Nat,
    ((bubble fun x y => c (f x) (f y))^[k] l).map f = (bubble c)^[k] (l.map f)
  | 0 => rfl
  | k + 1 => by
    rw [Function.iterate_succ_apply', Function.iterate_succ_apply', ← iterate_map f l k]
    cases (bubble fun x y => c (f x) (f y))^[k] l with
    | nil => rfl
    | cons a r => exact carry_map f r a

theorem iterate_pairwise {Q : T → T → Prop} (hQ : ∀ x y, Q x y → c x y = false → Q y x) (l : List T) (h : l.Pairwise Q) :
    ∀ k : Nat, ((bubble c)^[k] l).Pairwise Q
  | 0 => h
  | k + 1 => by
    rw [Function.iterate_succ_apply']
    exact bubble_pairwise hQ _ (iterate_pairwise hQ l h k)

theorem iterate_stable (hc : IsOrder p c) (l : List T) (hp : ∀ x ∈ l, p x) : IsStableSort c l ((bubble c)^[l.length] l) := by
  let c' : T × Nat → T × Nat → Bool := fun x y => c x.1 y.1
  have hc' : IsOrder (fun x : T × Nat => p x.1) c' :=
    ⟨fun a b => hc.total a.1 b.1, fun a b d => hc.trans a.1 b.1 d.1⟩
  have hlen : l.zipIdx.length = l.length := List.length_zipIdx
  have hpz : ∀ x ∈ l.zipIdx, p x.1 := fun x hx => hp _ (List.fst_mem_of_mem_zipIdx hx)
  have hsort := iterate_sorted hc' l.zipIdx hpz
  have hperm := (iterate_split hc' l.zipIdx hpz l.zipIdx.length).1
  have hstab := iterate_pairwise (c := c') (Q := fun x y => c x.1 y.1 = true → c y.1 x.1 = true → x.2 < y.2)
    (fun x y _ h h1 h2 => absurd h2 (by rw [show c x.1 y.1 = false from h]; decide)) l.zipIdx (by
      rw [List.pairwise_iff_getElem]
      intro i j hi hj hij _ _
      simp only [List.getElem_zipIdx]
      omega) l.zipIdx.length
  have hmap := iterate_map (c := c) Prod.fst l.zipIdx l.zipIdx.length
  rw [hlen] at hsort hperm hstab hmap
  rw [List.zipIdx_map_fst] at hmap
  change ((bubble c')^[l.length] l.zipIdx).map Prod.fst = _ at hmap
  generalize (bubble c')^[l.length] l.zipIdx = F at *
  have hget : ∀ x ∈ F, l[x.2]? = some x.1 := fun x hx => List.mem_zipIdx_iff_getElem?.1 (hperm.mem_iff.1 hx)
  refine ⟨F.map Prod.snd, ?_, ?_, ?_⟩
  · have := hperm.map Prod.snd
    rwa [List.zipIdx_map_snd, ← List.range_eq_range'] at this
  · rw [← hmap, List.map_map, List.map_map]
    exact List.map_congr_left fun x hx => (hget x hx).symm
  · rw [List.pairwise_map]
    refine List.Pairwise.imp_of_mem ?_ (hsort.and hstab)
    intro x y hx hy h a b ha hb
    rw [hget x hx] at ha
    rw [hget y hy] at hb
    injection ha with ha
    injection hb with hb
    subst ha hb
    exact ⟨h.1, fun hba => h.2 h.1 hba⟩

variable (c)

/-- Two neighbours. -/
def stepAt (l : List T) (iv : Nat) : List T :=
  match l[iv]?, l[iv + 1]? with
  | some a, some b => if c a b then l else (l.set iv b).set (iv + 1) a
  | _, _ => l

theorem stepAt_append (P : List T) (a b : T) (r : List T) :
    stepAt c (P ++ a :: b :: r) P.length = if c a b then P ++ a :: b :: r else P ++ b :: a :: r := by
  have h1 : (P ++ a :: b :: r)[P.length]? = some a := by simp
  have h2 : (P ++ a :: b :: r)[P.length + 1]? = some b := by
    rw [List.getElem?_append_right (by omega)]; simp
  rw [stepAt, h1, h2]
  dsimp only
  split
  · rfl
  · rw [List.set_append_right _ _ (by omega), Nat.sub_self, List.set_cons_zero, List.set_append_right _ _ (by omega),
      Nat.add_sub_cancel_left, List.set_cons_succ, List.set_cons_zero]

theorem steps_carry : ∀ (r P : List T) (a : T),
    (List.range' P.length r.length).foldl (stepAt c) (P ++ a :: r) = P ++ carry c a r
  | [], P, a => rfl
  | b :: r, P, a => by
    rw [List.length_cons, List.range'_succ, List.foldl_cons, stepAt_append, carry]
    split
    · have := steps_carry r (P ++ [a]) b
      rw [List.length_append, List.length_singleton, List.append_assoc, List.append_assoc] at this
      exact this
    · have := steps_carry r (P ++ [b]) a
      rw [List.length_append, List.length_singleton, List.append_assoc, List.append_assoc] at this
      exact this

theorem steps_bubble (l : List T) : (List.range (l.length - 1)).foldl (stepAt c) l = bubble c l := by
  cases l with
  | nil => rfl
  | cons a r =>
    have := steps_carry c r [] a
    rw [List.range_eq_range']
    exact this

end

/-! ## On buffers -/

variable {E : Type}

theorem sortSwap_get (m : Nat) (s : Outs E) {lo hi : List Nat} (h : lo ≠ hi) (o : Nat) (ho : o < m) (idx : List Nat) :
    sortSwap m s lo hi o idx = if idx = hi then s o lo else if idx = lo then s o hi else s o idx := by
  have gen : ∀ j : Nat, ∀ o idx, (List.range j).foldl
      (fun t o => Outs.store (Outs.store t o lo (s o hi)) o hi (s o lo)) s o idx
      = if o < j then (if idx = hi then s o lo else if idx = lo then s o hi else s o idx) else s o idx := by
    intro j
    induction j with
    | zero => intro o idx; rfl
    | succ j ih =>
      intro o idx
      rw [List.range_succ, List.foldl_append, List.foldl_cons, List.foldl_nil]
      by_cases e : o = j
      · subst e
        simp only [Outs.store, if_true, Buf.store, ih, Nat.lt_irrefl, if_false]
        rw [if_pos (Nat.lt_succ_self o)]
      · simp only [Outs.store, if_neg e, ih]
        by_cases h1 : o < j
        · rw [if_pos h1, if_pos (show o < j + 1 by omega)]
        · rw [if_neg h1, if_neg (show ¬ o < j + 1 by omega)]
  rw [sortSwap, gen, if_pos ho]

theorem tuple_swap (m : Nat) (s : Outs E) {lo hi : List Nat} (h : lo ≠ hi) (idx : List Nat) :
    tuple m (sortSwap m s lo hi) idx = if idx = hi then tuple m s lo else if idx = lo then tuple m s hi else tuple m s idx := by
  have : tuple m (sortSwap m s lo hi) idx
      = (List.range m).map fun o => if idx = hi then s o lo else if idx = lo then s o hi else s o idx :=
    List.map_congr_left fun o ho => sortSwap_get m s h o (List.mem_range.1 ho) idx
  rw [this]
  split
  · rfl
  · split <;> rfl

theorem sortArgs_pairs (m : Nat) (s : Outs E) (lo hi : List Nat) : sortArgs m s lo hi = pairs (tuple m s lo) (tuple m s hi) := by
  unfold sortArgs tuple
  induction List.range m with
  | nil => rfl
  | cons o os ih => rw [List.flatMap_cons, ih]; rfl

/-- The comparison of tuples. -/
def cmpOf (region : List E → Bool) (a b : List E) : Bool := region (pairs a b)

theorem lane_length {T : Type} (b : List Nat → T) (d n : Nat) (o : List Nat) : (lane b d n o).length = n := by simp [lane]

theorem lane_get {T : Type} (b : List Nat → T) (d n : Nat) (o : List Nat) {k : Nat} (h : k < n) :
    (lane b d n o)[k]? = some (b (o.insertIdx d k)) := by
  rw [lane, List.getElem?_map, List.getElem?_range h]; rfl

theorem sortStep_lane (region : List E → Bool) (m d n : Nat) (ivs : List Nat) (s : Outs E) (iv : Nat) (hiv : iv + 1 < n)
    (hd : d < ivs.length) (o : List Nat) (ho : d ≤ o.length) :
    lane (tuple m (sortStep region m d ivs s iv)) d n o
      = if ivs.eraseIdx d = o then stepAt (cmpOf region) (lane (tuple m s) d n o) iv else lane (tuple m s) d n o := by
  have hd' : d ≤ (ivs.eraseIdx d).length := by rw [List.length_eraseIdx_of_lt hd]; omega
  have hne : ivs.set d iv ≠ ivs.set d (iv + 1) := by
    rw [set_eq_insert iv hd, set_eq_insert (iv + 1) hd]
    intro h
    have := (insert_inj hd' hd' h).2
    omega
  by_cases e : ivs.eraseIdx d = o
  · rw [if_pos e, stepAt, lane_get _ _ _ _ (by omega : iv < n), lane_get _ _ _ _ hiv]
    dsimp only
    unfold sortStep
    rw [sortArgs_pairs, set_eq_insert iv hd, set_eq_insert (iv + 1) hd, e]
    rw [set_eq_insert iv hd, set_eq_insert (iv + 1) hd, e] at hne
    unfold cmpOf
    split
    · rfl
    · apply List.ext_getElem?
      intro k
      by_cases hk : k < n
      · rw [lane_get _ _ _ _ hk, tuple_swap m s hne, List.getElem?_set, List.getElem?_set, lane_get _ _ _ _ hk, List.length_set,
          lane_length]
        by_cases h1 : k = iv + 1
        · subst h1; rw [if_pos rfl, if_pos rfl, if_pos hk]
        · rw [if_neg (fun h => h1 (insert_inj ho ho h).2), if_neg (Ne.symm h1)]
          by_cases h2 : k = iv
          · subst h2; rw [if_pos rfl, if_pos rfl, if_pos hk]
          · rw [if_neg (fun h => h2 (insert_inj ho ho h).2), if_neg (Ne.symm h2)]
      · rw [List.getElem?_eq_none (by rw [lane_length]; omega), List.getElem?_eq_none (by simp [lane_length]; omega)]
  · rw [if_neg e]
    unfold sortStep
    split
    · rfl
    · refine List.map_congr_left fun k _ => ?_
      rw [tuple_swap m s hne, set_eq_insert iv hd, set_eq_insert (iv + 1) hd,
        if_neg (fun h => e (insert_inj ho hd' h).1.symm), if_neg (fun h => e (insert_inj ho hd' h).1.symm)]

theorem sortBody_lane (region : List E → Bool) (m d n : Nat) (ivs : List Nat) (s : Outs E)
    (hd : d < ivs.length) (o : List Nat) (ho : d ≤ o.length) :
    lane (tuple m (sortBody region m d n ivs s)) d n o
      = if ivs.eraseIdx d = o then bubble (cmpOf region) (lane (tuple m s) d n o) else lane (tuple m s) d n o := by
  have gen : ∀ (L : List Nat) (s : Outs E), (∀ iv ∈ L, iv + 1 < n) →
      lane (tuple m (L.foldl (sortStep region m d ivs) s)) d n o
        = if ivs.eraseIdx d = o then L.foldl (stepAt (cmpOf region)) (lane (tuple m s) d n o) else lane (tuple m s) d n o := by
    intro L
    induction L with
    | nil => intro s _; simp
    | cons iv L ih =>
      intro s h
      rw [List.foldl_cons, ih _ (fun x hx => h x (List.mem_cons_of_mem _ hx)), sortStep_lane region m d n ivs s iv (h iv (by simp)) hd o ho]
      by_cases e : ivs.eraseIdx d = o
      · simp only [if_pos e, List.foldl_cons]
      · simp only [if_neg e]
  rw [sortBody, gen _ _ (fun iv hiv => by have := List.mem_range.1 hiv; omega)]
  have := steps_bubble (cmpOf region) (lane (tuple m s) d n o)
  rw [lane_length] at this
  rw [this]

theorem foldl_iterate {T : Type} (g : T → T) : ∀ (n : Nat) (t : T), (List.range n).foldl (fun t _ => g t) t = g^[n] t
  | 0, _ => rfl
  | n + 1, t => by
    rw [List.range_succ, List.foldl_append, foldl_iterate g n, Function.iterate_succ_apply']; rfl

theorem sort_lane (region : List E → Bool) (m d n : Nat) (sizes : List Nat) (hn : sizes[d]? = some n) (s : Outs E) (o : List Nat)
    (ho : InBox (sizes.eraseIdx d) o) :
    lane (tuple m (sort region m d sizes s)) d n o = (bubble (cmpOf region))^[n] (lane (tuple m s) d n o) := by
  unfold sort
  rw [hn, Option.getD_some]
  have := lower_lane (fun s o => lane (tuple m s) d n o) (sortBody region m d n) (fun _ _ t => bubble (cmpOf region) t) hn
    (fun ivs s o hivs ho => sortBody_lane region m d n ivs s (hivs.lt hn) o (ho.le hn)) s o ho
  rw [this, foldl_iterate]

/-! ## What is outside -/

theorem sortSwap_other (m : Nat) (s : Outs E) {lo hi idx : List Nat} (o : Nat) (h1 : idx ≠ lo) (h2 : idx ≠ hi) :
    sortSwap m s lo hi o idx = s o idx := by
  unfold sortSwap
  have gen : ∀ (L : List Nat) (t : Outs E), (L.foldl (fun t o => Outs.store (Outs.store t o lo (s o hi)) o hi (s o lo)) t) o idx
      = t o idx := by
    intro L
    induction L with
    | nil => intro t; rfl
    | cons j L ih =>
      intro t
      rw [List.foldl_cons, ih]
      unfold Outs.store Buf.store
      by_cases e : o = j
      · subst e
        simp only [if_true, if_neg h1, if_neg h2]
      · simp only [if_neg e]
  rw [gen]

theorem sortSwap_beyond (m : Nat) (s : Outs E) (lo hi : List Nat) (o : Nat) (ho : m ≤ o) (idx : List Nat) :
    sortSwap m s lo hi o idx = s o idx := by
  unfold sortSwap
  have gen : ∀ (L : List Nat) (t : Outs E), (∀ j ∈ L, j < m) →
      (L.foldl (fun t o => Outs.store (Outs.store t o lo (s o hi)) o hi (s o lo)) t) o idx = t o idx := by
    intro L
    induction L with
    | nil => intro t _; rfl
    | cons j L ih =>
      intro t h
      rw [List.foldl_cons, ih _ (fun k hk => h k (List.mem_cons_of_mem _ hk))]
      have : o ≠ j := by have := h j (by simp); omega
      simp only [Outs.store, if_neg this]
  exact gen _ _ (fun j hj => List.mem_range.1 hj)

theorem InBox.set {sizes ivs : List Nat} {d n k : Nat} (hn : sizes[d]? = some n) (h : InBox sizes ivs) (hk : k < n) :
    InBox sizes (ivs.set d k) := by
  unfold InBox at *
  induction h generalizing d with
  | nil => simp at hn
  | cons h1 h2 ih =>
    cases d with
    | zero =>
      simp at hn
      exact .cons (by omega) h2
    | succ d => exact .cons h1 (ih (by simpa using hn))

theorem sort_frame (region : List E → Bool) (m d n : Nat) (sizes : List Nat) (hn : sizes[d]? = some n) (s : Outs E) (o : Nat)
    (idx : List Nat) (h : ¬ (o < m ∧ InBox sizes idx)) : sort region m d sizes s o idx = s o idx := by
  unfold sort
  rw [hn, Option.getD_some, lower_box]
  have step : ∀ ivs (s : Outs E) iv, InBox sizes ivs → iv + 1 < n → sortStep region m d ivs s iv o idx = s o idx := by
    intro ivs s iv hivs hiv
    unfold sortStep
    split
    · rfl
    · by_cases ho : o < m
      · have hi : ¬ InBox sizes idx := fun h' => h ⟨ho, h'⟩
        exact sortSwap_other m s o (fun e => hi (e ▸ hivs.set hn (by omega))) (fun e => hi (e ▸ hivs.set hn hiv))
      · exact sortSwap_beyond m s _ _ o (by omega) idx
  have body : ∀ ivs (s : Outs E), InBox sizes ivs → sortBody region m d n ivs s o idx = s o idx := by
    intro ivs s hivs
    unfold sortBody
    have gen : ∀ (L : List Nat) (s : Outs E), (∀ iv ∈ L, iv + 1 < n) → L.foldl (sortStep region m d ivs) s o idx = s o idx := by
      intro L
      induction L with
      | nil => intro s _; rfl
      | cons iv L ih =>
        intro s hL
        rw [List.foldl_cons, ih _ (fun k hk => hL k (List.mem_cons_of_mem _ hk)), step ivs s iv hivs (hL iv (by simp))]
    exact gen _ _ (fun iv hiv => by have := List.mem_range.1 hiv; omega)
  have gen : ∀ (L : List (List Nat)) (s : Outs E), (∀ j ∈ L, InBox sizes j) →
      L.foldl (fun s j => sortBody region m d n j s) s o idx = s o idx := by
    intro L
    induction L with
    | nil => intro s _; rfl
    | cons j L ih =>
      intro s hL
      rw [List.foldl_cons, ih _ (fun k hk => hL k (List.mem_cons_of_mem _ hk)), body j s (hL j (by simp))]
  exact gen _ _ (fun j hj => mem_box.1 hj)

end Verif.Tm
