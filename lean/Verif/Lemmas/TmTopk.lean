import Verif.Lemmas.TmScan

namespace Verif.Tm

/-! ## Inserting -/

section
variable {P : Type} (ex : P → P → P × P)

/-- `x` goes along the list; `ex x y` is what is left there and what goes on. -/
def insRun : List P → P → List P × P
  | [], x => ([], x)
  | y :: L, x => ((ex x y).1 :: (insRun L (ex x y).2).1, (insRun L (ex x y).2).2)

theorem insRun_length : ∀ (L : List P) (x : P), (insRun ex L x).1.length = L.length
  | [], _ => rfl
  | _ :: L, x => congrArg (· + 1) (insRun_length L _)

variable {ex} {p : P → Prop} {le : P → P → Bool}

theorem insRun_perm (hex : ∀ x y, p x → p y → ex x y = (x, y) ∨ ex x y = (y, x)) : ∀ (L : List P) (x : P), p x → (∀ y ∈ L, p y) →
    ((insRun ex L x).2 :: (insRun ex L x).1).Perm (x :: L)
  | [], x, _, _ => .refl _
  | y :: L, x, hx, hL => by
    have hy := hL y (by simp)
    have hc : p (ex x y).2 := by
      rcases hex x y hx hy with h | h <;> rw [h]
      · exact hy
      · exact hx
    have ih := insRun_perm hex L (ex x y).2 hc (fun z hz => hL z (List.mem_cons_of_mem _ hz))
    rw [insRun]
    refine (List.Perm.swap _ _ _).trans ((ih.cons _).trans ?_)
    rcases hex x y hx hy with h | h <;> rw [h]
    exact List.Perm.swap _ _ _

theorem insRun_sorted (hle : IsOrder p le) (hperm : ∀ x y, p x → p y → ex x y = (x, y) ∨ ex x y = (y, x))
    (hex : ∀ x y, p x → p y → le (ex x y).1 (ex x y).2 = true) : ∀ (L : List P) (x : P), p x → (∀ y ∈ L, p y) →
      L.Pairwise (fun a b => le a b = true) →
      (insRun ex L x).1.Pairwise (fun a b => le a b = true) ∧ ∀ b ∈ (insRun ex L x).1, le b (insRun ex L x).2 = true
  | [], x, _, _, _ => ⟨.nil, by simp [insRun]⟩
  | y :: L, x, hx, hL, hs => by
    obtain ⟨h1, h2⟩ := List.pairwise_cons.1 hs
    have hy := hL y (by simp)
    have hL' : ∀ z ∈ L, p z := fun z hz => hL z (List.mem_cons_of_mem _ hz)
    have hpc : p (ex x y).1 ∧ p (ex x y).2 := by
      rcases hperm x y hx hy with h | h <;> rw [h]
      · exact ⟨hx, hy⟩
      · exact ⟨hy, hx⟩
    obtain ⟨i1, i2⟩ := insRun_sorted hle hperm hex L (ex x y).2 hpc.2 hL' h2
    have hfirst : ∀ z ∈ (ex x y).2 :: L, le (ex x y).1 z = true := by
      intro z hz
      rcases List.mem_cons.1 hz with rfl | hz
      · exact hex x y hx hy
      · have hyz := h1 z hz
        have he := hex x y hx hy
        rcases hperm x y hx hy with h | h <;> rw [h] at he ⊢
        · exact hle.trans x y z hx hy (hL' z hz) he hyz
        · exact hyz
    have hp := insRun_perm hperm L (ex x y).2 hpc.2 hL'
    rw [insRun]
    refine ⟨List.pairwise_cons.2 ⟨fun z hz => hfirst z (hp.mem_iff.1 (List.mem_cons_of_mem _ hz)), i1⟩, fun b hb => ?_⟩
    rcases List.mem_cons.1 hb with rfl | hb
    · exact hfirst _ (hp.mem_iff.1 (by simp))
    · exact i2 b hb

theorem insRun_best (hle : IsOrder p le) (hperm : ∀ x y, p x → p y → ex x y = (x, y) ∨ ex x y = (y, x))
    (hex : ∀ x y, p x → p y → le (ex x y).1 (ex x y).2 = true) (all best : List P) (hp : ∀ y ∈ all, p y) (x : P) (hx : p x)
    (h : IsBest le all best) : IsBest le (all ++ [x]) (insRun ex best x).1 := by
  obtain ⟨rest, h1, h2, h3⟩ := h
  have hb : ∀ y ∈ best, p y := fun y hy => hp y (h1.mem_iff.1 (List.mem_append_left _ hy))
  have hr : ∀ y ∈ rest, p y := fun y hy => hp y (h1.mem_iff.1 (List.mem_append_right _ hy))
  obtain ⟨s1, s2⟩ := insRun_sorted hle hperm hex best x hx hb h2
  have hpm := insRun_perm hperm best x hx hb
  refine ⟨(insRun ex best x).2 :: rest, ?_, s1, fun b hbm r hrm => ?_⟩
  · have e1 : ((insRun ex best x).1 ++ (insRun ex best x).2 :: rest).Perm
        ((insRun ex best x).2 :: ((insRun ex best x).1 ++ rest)) := List.perm_middle
    have e2 : ((insRun ex best x).2 :: ((insRun ex best x).1 ++ rest)).Perm (x :: (best ++ rest)) := hpm.append_right rest
    have e3 : (all ++ [x]).Perm (x :: all) := List.perm_append_singleton x all
    exact e1.trans (e2.trans ((h1.cons x).trans e3.symm))
  · rcases List.mem_cons.1 hrm with rfl | hrm
    · exact s2 b hbm
    · have hbp : b ∈ x :: best := hpm.mem_iff.1 (List.mem_cons_of_mem _ hbm)
      have hcp : (insRun ex best x).2 ∈ x :: best := hpm.mem_iff.1 (by simp)
      have pb : p b := by
        rcases List.mem_cons.1 hbp with rfl | h
        · exact hx
        · exact hb b h
      rcases List.mem_cons.1 hcp with hc | hc
      · rw [hc] at hpm
        exact h3 b (hpm.cons_inv.mem_iff.1 hbm) r hrm
      · exact hle.trans b _ r pb (hb _ hc) (hr r hrm) (s2 b hbm) (h3 _ hc r hrm)

theorem insRuns_best (hle : IsOrder p le) (hperm : ∀ x y, p x → p y → ex x y = (x, y) ∨ ex x y = (y, x))
    (hex : ∀ x y, p x → p y → le (ex x y).1 (ex x y).2 = true) : ∀ (xs all best : List P), (∀ y ∈ all, p y) → (∀ y ∈ xs, p y) →
      IsBest le all best → IsBest le (all ++ xs) (xs.foldl (fun b x => (insRun ex b x).1) best)
  | [], all, best, _, _, h => by simpa using h
  | x :: xs, all, best, h1, h2, h => by
    have hx := h2 x (by simp)
    have := insRuns_best hle hperm hex xs (all ++ [x]) (insRun ex best x).1 (by
      intro y hy
      rcases List.mem_append.1 hy with hy | hy
      · exact h1 y hy
      · rw [List.mem_singleton.1 hy]; exact hx) (fun y hy => h2 y (List.mem_cons_of_mem _ hy))
      (insRun_best hle hperm hex all best h1 x hx h)
    rw [List.append_assoc] at this
    exact this

end

/-! ## On buffers -/

variable {E : Type}

/-- One exchange as the code does it. -/
def exch (f : E → E → Bool) (x y : E × Int) : (E × Int) × (E × Int) :=
  let forward := f x.1 y.1
  let equal := forward == f y.1 x.1
  let indexCmp := forward || (equal && decide (x.2 < y.2))
  ((if forward then x.1 else y.1, if indexCmp then x.2 else y.2), (if forward then y.1 else x.1, if indexCmp then y.2 else x.2))

theorem pairLane_length (v : Buf E) (i : Buf Int) (d n : Nat) (o : List Nat) : (pairLane v i d n o).length = n := by simp [pairLane]

theorem pairLane_get (v : Buf E) (i : Buf Int) (d n : Nat) (o : List Nat) {k : Nat} (h : k < n) :
    (pairLane v i d n o)[k]? = some (v (o.insertIdx d k), i (o.insertIdx d k)) := by
  rw [pairLane, List.getElem?_map, List.getElem?_range h]; rfl

theorem pairLane_store (v : Buf E) (i : Buf Int) (d n : Nat) (o o' : List Nat) (k : Nat) (a : E) (b : Int) (h : d ≤ o.length)
    (h' : d ≤ o'.length) :
    pairLane (v.store (o'.insertIdx d k) a) (i.store (o'.insertIdx d k) b) d n o
      = if o' = o then (pairLane v i d n o).set k (a, b) else pairLane v i d n o := by
  by_cases e : o' = o
  · subst e
    rw [if_pos rfl]
    apply List.ext_getElem?
    intro j
    by_cases hj : j < n
    · rw [pairLane_get _ _ _ _ _ hj, List.getElem?_set, pairLane_get _ _ _ _ _ hj, pairLane_length]
      by_cases e2 : k = j
      · subst e2; rw [if_pos rfl, if_pos hj]; simp [Buf.store]
      · rw [if_neg e2]
        have : o'.insertIdx d j ≠ o'.insertIdx d k := fun h => e2 (insert_inj h' h' h).2.symm
        simp only [Buf.store, if_neg this]
    · rw [List.getElem?_eq_none (by rw [pairLane_length]; omega), List.getElem?_eq_none (by rw [List.length_set, pairLane_length]; omega)]
  · rw [if_neg e]
    refine List.map_congr_left fun j _ => ?_
    have : o.insertIdx d j ≠ o'.insertIdx d k := fun h2 => e (insert_inj h h' h2).1.symm
    simp only [Buf.store, if_neg this]

theorem topkStep_lane (f : E → E → Bool) (d n : Nat) (ivs : List Nat) (s : TopkState E) (k : Nat) (hd : d < ivs.length)
    (o : List Nat) (ho : d ≤ o.length) :
    pairLane (topkStep f d ivs s k).values (topkStep f d ivs s k).indices d n o
      = (if ivs.eraseIdx d = o then (pairLane s.values s.indices d n o).set k
            (exch f (s.value, s.index) (s.values ((ivs.eraseIdx d).insertIdx d k), s.indices ((ivs.eraseIdx d).insertIdx d k))).1
          else pairLane s.values s.indices d n o) ∧
    ((topkStep f d ivs s k).value, (topkStep f d ivs s k).index)
      = (exch f (s.value, s.index) (s.values ((ivs.eraseIdx d).insertIdx d k), s.indices ((ivs.eraseIdx d).insertIdx d k))).2 := by
  have hl : d ≤ (ivs.eraseIdx d).length := by rw [List.length_eraseIdx_of_lt hd]; omega
  unfold topkStep
  rw [set_eq_insert k hd]
  dsimp only
  rw [pairLane_store _ _ _ _ _ _ _ _ _ ho hl]
  exact ⟨rfl, rfl⟩

theorem topkRun_lane (f : E → E → Bool) (d : Nat) (ivs : List Nat) (hd : d < ivs.length) (o : List Nat) (ho : d ≤ o.length) (n : Nat) :
    ∀ (L P : List (E × Int)) (s : TopkState E), P.length + L.length ≤ n →
      ((∀ t y, (P ++ L)[t]? = some y →
        (s.values ((ivs.eraseIdx d).insertIdx d t), s.indices ((ivs.eraseIdx d).insertIdx d t)) = y)) →
      let r := (List.range' P.length L.length).foldl (topkStep f d ivs) s
      (∀ t y, (P ++ (insRun (exch f) L (s.value, s.index)).1)[t]? = some y →
        (r.values ((ivs.eraseIdx d).insertIdx d t), r.indices ((ivs.eraseIdx d).insertIdx d t)) = y) ∧
      (ivs.eraseIdx d ≠ o → pairLane r.values r.indices d n o = pairLane s.values s.indices d n o)
  | [], P, s, _, h => ⟨by simpa [insRun] using h, fun _ => rfl⟩
  | y :: L, P, s, hn, h => by
    have hl : d ≤ (ivs.eraseIdx d).length := by rw [List.length_eraseIdx_of_lt hd]; omega
    rw [List.length_cons, List.range'_succ, List.foldl_cons]
    have hy := h P.length y (by simp)
    obtain ⟨_, h2⟩ := topkStep_lane f d n ivs s P.length hd o ho
    rw [hy] at h2
    have hlanes := topkStep_lane f d n ivs s P.length hd o ho
    have hown := topkStep_lane f d n ivs s P.length hd (ivs.eraseIdx d) hl
    rw [if_pos rfl, hy] at hown
    have hown1 := hown.1
    have ih := topkRun_lane f d ivs hd o ho n L (P ++ [(exch f (s.value, s.index) y).1]) (topkStep f d ivs s P.length)
      (by simp at hn ⊢; omega) (by
        intro t z hz
        have ht : t < n := by
          have := (List.getElem?_eq_some_iff.1 hz).1
          simp at this hn; omega
        have e1 := congrArg (·[t]?) hown1
        simp only [pairLane_get _ _ _ _ _ ht, List.getElem?_set, pairLane_length] at e1
        by_cases e : P.length = t
        · subst e
          rw [if_pos rfl, if_pos ht] at e1
          have : (P ++ [(exch f (s.value, s.index) y).1] ++ L)[P.length]? = some (exch f (s.value, s.index) y).1 := by simp
          rw [this] at hz
          exact (Option.some.inj e1).trans (Option.some.inj hz)
        · rw [if_neg e] at e1
          have : (P ++ y :: L)[t]? = some z := by
            rw [← hz, List.append_assoc]
            by_cases hlt : t < P.length
            · rw [List.getElem?_append_left hlt, List.getElem?_append_left hlt]
            · rw [List.getElem?_append_right (by omega), List.getElem?_append_right (by omega)]
              obtain ⟨q, hq⟩ : ∃ q, t - P.length = q + 1 := ⟨t - P.length - 1, by omega⟩
              rw [hq]; rfl
          exact (Option.some.inj e1).trans (h t z this))
    rw [List.length_append, List.length_singleton] at ih
    obtain ⟨i1, i2⟩ := ih
    refine ⟨fun t z hz => i1 t z ?_, fun hne => ?_⟩
    · rw [h2, ← hz, insRun]
      simp
    · rw [i2 hne, hlanes.1, if_neg hne]

theorem topkBody_lane (f : E → E → Bool) (d k : Nat) (input : Buf E) (idx : Option (Buf Int)) (ivs : List Nat) (s : Buf E × Buf Int)
    (hd : d < ivs.length) (o : List Nat) (ho : d ≤ o.length) :
    pairLane (topkBody f d k input idx ivs s).1 (topkBody f d k input idx ivs s).2 d k o
      = if ivs.eraseIdx d = o then (insRun (exch f) (pairLane s.1 s.2 d k o) (input ivs, topkIndex d idx ivs)).1
        else pairLane s.1 s.2 d k o := by
  unfold topkBody
  dsimp only
  have hr := topkRun_lane f d ivs hd o ho k (pairLane s.1 s.2 d k (ivs.eraseIdx d)) [] ⟨s.1, s.2, input ivs, topkIndex d idx ivs⟩ (by simp [pairLane_length]) (by
    intro t y hy
    rw [List.nil_append] at hy
    have ht : t < k := by have := (List.getElem?_eq_some_iff.1 hy).1; rwa [pairLane_length] at this
    rw [pairLane_get _ _ _ _ _ ht] at hy
    exact Option.some.inj hy)
  rw [List.length_nil, pairLane_length, ← List.range_eq_range'] at hr
  obtain ⟨h1, h2⟩ := hr
  by_cases e : ivs.eraseIdx d = o
  · rw [if_pos e]
    subst e
    apply List.ext_getElem?
    intro t
    by_cases ht : t < k
    · have hlt : t < (insRun (exch f) (pairLane s.1 s.2 d k (ivs.eraseIdx d)) (input ivs, topkIndex d idx ivs)).1.length := by rw [insRun_length, pairLane_length]; exact ht
      have := h1 t _ (by rw [List.nil_append]; exact List.getElem?_eq_getElem hlt)
      rw [pairLane_get _ _ _ _ _ ht, List.getElem?_eq_getElem hlt, ← this]
    · rw [List.getElem?_eq_none (by rw [pairLane_length]; omega),
        List.getElem?_eq_none (by rw [insRun_length, pairLane_length]; omega)]
  · rw [if_neg e]
    exact h2 e

theorem topk_lane (f : E → E → Bool) (d k n : Nat) (sizes : List Nat) (hn : sizes[d]? = some n) (input : Buf E)
    (idx : Option (Buf Int)) (values : Buf E) (indices : Buf Int) (o : List Nat) (ho : InBox (sizes.eraseIdx d) o) :
    pairLane (topk f d k sizes input idx values indices).1 (topk f d k sizes input idx values indices).2 d k o
      = (pairLane input (topkIndex d idx) d n o).foldl (fun b x => (insRun (exch f) b x).1)
        (pairLane values indices d k o) := by
  have := lower_lane (fun (s : Buf E × Buf Int) o => pairLane s.1 s.2 d k o) (topkBody f d k input idx)
    (fun o j t => (insRun (exch f) t (input (o.insertIdx d j), topkIndex d idx (o.insertIdx d j))).1) hn
    (fun ivs s o hivs ho => by
      have := topkBody_lane f d k input idx ivs s (hivs.lt hn) o (ho.le hn)
      rw [this]
      by_cases e : ivs.eraseIdx d = o
      · rw [if_pos e, if_pos e, ← e, ← ivs_insert (hivs.lt hn)]
      · rw [if_neg e, if_neg e]) (values, indices) o ho
  unfold topk
  rw [this, show pairLane input (topkIndex d idx) d n o = (List.range n).map _ from rfl, List.foldl_map]

/-! ## The order -/

theorem exch_perm {f : E → E → Bool} {p : E → Prop} (hf : IsStrict p f) (x y : E × Int) (hx : p x.1) (hy : p y.1) :
    (exch f x y = (x, y) ∨ exch f x y = (y, x)) ∧ bestFirst f (exch f x y).1 (exch f x y).2 = true := by
  obtain ⟨a, i⟩ := x
  obtain ⟨b, j⟩ := y
  unfold exch bestFirst
  dsimp only at *
  cases h1 : f a b with
  | true =>
    have h2 := hf.asymm a b hx hy h1
    simp [h1]
  | false =>
    cases h2 : f b a with
    | true => simp [h2]
    | false =>
      have := hf.eq a b hx hy h1 h2
      subst this
      by_cases hij : i < j
      · simp [hij, h1]; omega
      · simp [hij, h1]; omega

theorem bestFirst_order {f : E → E → Bool} {p : E → Prop} (hf : IsStrict p f) : IsOrder (fun x : E × Int => p x.1) (bestFirst f) := by
  constructor
  · rintro ⟨a, i⟩ ⟨b, j⟩ ha hb
    unfold bestFirst
    dsimp only
    cases h1 : f a b with
    | true => simp
    | false =>
      cases h2 : f b a with
      | true => simp
      | false =>
        rcases Int.le_total i j with h | h
        · left; simp [h]
        · right; simp [h]
  · rintro ⟨a, i⟩ ⟨b, j⟩ ⟨c, k⟩ ha hb hc h1 h2
    unfold bestFirst at *
    dsimp only at *
    cases hab : f a b with
    | true =>
      cases hbc : f b c with
      | true => simp [hf.trans a b c ha hb hc hab hbc]
      | false =>
        rw [hbc] at h2
        cases hcb : f c b with
        | true => rw [hcb] at h2; simp at h2
        | false =>
          have := hf.eq b c hb hc hbc hcb
          subst this
          simp [hab]
    | false =>
      rw [hab] at h1
      cases hba : f b a with
      | true => rw [hba] at h1; simp at h1
      | false =>
        have := hf.eq a b ha hb hab hba
        subst this
        rw [hba] at h1
        cases hac : f a c with
        | true => simp
        | false =>
          rw [hac] at h2
          cases hca : f c a with
          | true => rw [hca] at h2; simp at h2
          | false =>
            rw [hca] at h2
            simp at h1 h2 ⊢
            omega


theorem topk_best {f : E → E → Bool} {p : E → Prop} (hf : IsStrict p f) (d k n : Nat) (sizes : List Nat) (hn : sizes[d]? = some n)
    (input : Buf E) (idx : Option (Buf Int)) (values : Buf E) (indices : Buf Int) (o : List Nat) (ho : InBox (sizes.eraseIdx d) o)
    (hin : ∀ x ∈ lane input d n o, p x) (hout : ∀ x ∈ lane values d k o, p x)
    (hs : (pairLane values indices d k o).Pairwise fun a b => bestFirst f a b = true) :
    IsBest (bestFirst f) (pairLane values indices d k o ++ pairLane input (topkIndex d idx) d n o)
      (pairLane (topk f d k sizes input idx values indices).1 (topk f d k sizes input idx values indices).2 d k o) := by
  rw [topk_lane f d k n sizes hn input idx values indices o ho]
  have hmem : ∀ {v : Buf E} {i : Buf Int} {m : Nat}, (∀ x ∈ lane v d m o, p x) → ∀ y ∈ pairLane v i d m o, p y.1 := by
    intro v i m h y hy
    obtain ⟨t, ht, rfl⟩ := List.mem_map.1 hy
    exact h _ (List.mem_map.2 ⟨t, ht, rfl⟩)
  exact insRuns_best (bestFirst_order hf) (fun x y hx hy => (exch_perm hf x y hx hy).1) (fun x y hx hy => (exch_perm hf x y hx hy).2)
    _ _ _ (hmem hout) (hmem hin) ⟨[], by simp, hs, by simp⟩

theorem max_fold {lt : E → E → Bool} {p : E → Prop} (hlt : IsStrict p lt) (low : E) (hlow : p low) (hmin : ∀ x, p x → lt x low = false)
    (g : Nat → E) (k : Nat) (hg : ∀ i, i < k → p (g i)) : ∀ t, t ≤ k →
    let r := (List.range t).foldl (fun (r : E × Nat) i => if lt r.1 (g i) then (g i, i) else r) (low, 0)
    p r.1 ∧ (∀ i, i < t → lt r.1 (g i) = false) ∧ (t = 0 → r = (low, 0)) ∧ (1 ≤ t → r.2 < t ∧ r.1 = g r.2)
  | 0, _ => ⟨hlow, fun i h => absurd h (Nat.not_lt_zero _), fun _ => rfl, fun h => absurd h (by omega)⟩
  | t + 1, ht => by
    obtain ⟨h0, h1, h2, h3⟩ := max_fold hlt low hlow hmin g k hg t (by omega)
    have hgt := hg t (by omega)
    rw [List.range_succ, List.foldl_append, List.foldl_cons, List.foldl_nil]
    generalize (List.range t).foldl (fun (r : E × Nat) i => if lt r.1 (g i) then (g i, i) else r) (low, 0) = r at *
    dsimp only at *
    cases hc : lt r.1 (g t) with
    | true =>
      rw [if_pos rfl]
      refine ⟨hgt, fun i hi => ?_, fun h => by omega, fun _ => ⟨by simp, rfl⟩⟩
      by_cases e : i = t
      · subst e
        cases hh : lt (g i) (g i) with
        | false => rfl
        | true => have := hlt.asymm _ _ hgt hgt hh; rw [hh] at this; exact this
      · cases hh : lt (g t) (g i) with
        | false => rfl
        | true =>
          have := hlt.trans _ _ _ h0 hgt (hg i (by omega)) hc hh
          rw [h1 i (by omega)] at this; cases this
    | false =>
      rw [if_neg (by simp)]
      refine ⟨h0, fun i hi => ?_, fun h => by omega, fun _ => ?_⟩
      · by_cases e : i = t
        · subst e; exact hc
        · exact h1 i (by omega)
      · by_cases e : t = 0
        · subst e
          have hr := h2 rfl
          rw [hr] at hc ⊢
          exact ⟨by simp, hlt.eq _ _ hlow hgt hc (hmin _ hgt)⟩
        · obtain ⟨h4, h5⟩ := h3 (by omega)
          exact ⟨by omega, h5⟩

/-- The greatest of the best `k` is the `k`-th. -/
theorem kth_best {lt : E → E → Bool} {p : E → Prop} (hlt : IsStrict p lt) (fill : E) (N : Int)
    (hmax : ∀ x, p x → lt fill x = false) (hfill : p fill) (l : List E) (hl : ∀ x ∈ l, p x) (hN : (l.length : Int) ≤ N) (k : Nat)
    (hk : k ≤ l.length) (B : List (E × Int)) (hB : B.length = k)
    (hbest : IsBest (bestFirst lt) (List.replicate k (fill, N) ++ (List.range l.length).map fun i : Nat => (l[i]?.getD fill, (i : Int))) B)
    (v : E) (i : Int) (hv : (v, i) ∈ B) (hvm : ∀ y ∈ B, lt v y.1 = false) :
    (∃ j : Nat, i = j ∧ l[j]? = some v) ∧ l.countP (fun x => lt x v) < k ∧ k ≤ l.countP (fun x => !lt v x) := by
  obtain ⟨rest, h1, _, h3⟩ := hbest
  generalize hR : ((List.range l.length).map fun i : Nat => (l[i]?.getD fill, (i : Int))) = R at *
  have hRmem : ∀ y ∈ R, ∃ j : Nat, y.2 = j ∧ l[j]? = some y.1 := by
    intro y hy
    rw [← hR] at hy
    obtain ⟨j, hj, rfl⟩ := List.mem_map.1 hy
    have hj := List.mem_range.1 hj
    refine ⟨j, rfl, ?_⟩
    rw [List.getElem?_eq_getElem hj]; rfl
  have hRlen : R.length = l.length := by rw [← hR]; simp
  have hRp : ∀ y ∈ R, p y.1 := fun y hy => by
    obtain ⟨j, _, h⟩ := hRmem y hy
    exact hl _ (List.mem_of_getElem? h)
  have hRN : ∀ y ∈ R, y.2 < N := fun y hy => by
    obtain ⟨j, h, h'⟩ := hRmem y hy
    have := (List.getElem?_eq_some_iff.1 h').1
    omega
  let real : E × Int → Bool := fun y => decide (y.2 < N)
  have hfR : R.filter real = R := List.filter_eq_self.2 fun y hy => decide_eq_true (hRN y hy)
  have hfF : (List.replicate k (fill, N)).filter real = [] := by
    rw [List.filter_eq_nil_iff]
    intro y hy
    rw [(List.mem_replicate.1 hy).2]
    simp [real]
  have hperm : (B.filter real ++ rest.filter real).Perm R := by
    have := h1.filter real
    rwa [List.filter_append, List.filter_append, hfF, hfR, List.nil_append] at this
  have hBreal : B.filter real = B := by
    rw [List.filter_eq_self]
    intro y hy
    by_cases hr : real y = true
    · exact hr
    · exfalso
      -- a filler is among the best, so an element is among the rest
      have hlt' : (B.filter real).length < k := by
        rw [← hB]
        exact Nat.lt_of_le_of_ne (List.length_filter_le _ _) (fun e => hr (List.length_filter_eq_length_iff.1 e y hy))
      have hlen := hperm.length_eq
      rw [List.length_append] at hlen
      have hpos : 0 < (rest.filter real).length := by omega
      obtain ⟨z, hz⟩ := List.exists_mem_of_length_pos hpos
      have hzr := List.mem_filter.1 hz
      have hzR : z ∈ R := hperm.mem_iff.1 (List.mem_append_right _ hz)
      have hyF : y ∈ List.replicate k (fill, N) ++ R := h1.mem_iff.1 (List.mem_append_left _ hy)
      have hyf : y = (fill, N) := by
        rcases List.mem_append.1 hyF with h | h
        · exact (List.mem_replicate.1 h).2
        · exact absurd (decide_eq_true (hRN y h)) hr
      have hle := h3 y hy z hzr.1
      rw [hyf] at hle
      unfold bestFirst at hle
      dsimp only at hle
      rw [hmax z.1 (hRp z hzR)] at hle
      have := hRN z hzR
      simp at hle
      omega
  rw [hBreal] at hperm
  have hmap : (R.map Prod.fst) = l := by
    rw [← hR, List.map_map]
    apply List.ext_getElem?
    intro j
    by_cases hj : j < l.length
    · rw [List.getElem?_map, List.getElem?_range hj, List.getElem?_eq_getElem hj]
      simp [List.getElem?_eq_getElem hj]
    · rw [List.getElem?_eq_none (by simp; omega), List.getElem?_eq_none (by omega)]
  have hc : (B.map Prod.fst ++ (rest.filter real).map Prod.fst).Perm l := by
    have := hperm.map Prod.fst
    rwa [hmap, List.map_append] at this
  have hvp : p v := hl v (hc.mem_iff.1 (List.mem_append_left _ (List.mem_map.2 ⟨_, hv, rfl⟩)))
  refine ⟨?_, ?_, ?_⟩
  · exact hRmem (v, i) (hperm.mem_iff.1 (List.mem_append_left _ hv))
  · rw [← hc.countP_eq, List.countP_append]
    have e1 : ((rest.filter real).map Prod.fst).countP (fun x => lt x v) = 0 := by
      rw [List.countP_eq_zero]
      intro x hx
      obtain ⟨y, hy, rfl⟩ := List.mem_map.1 hx
      have hle := h3 (v, i) hv y (List.mem_filter.1 hy).1
      unfold bestFirst at hle
      dsimp only at hle
      have hyp : p y.1 := hRp y (hperm.mem_iff.1 (List.mem_append_right _ hy))
      cases h : lt v y.1 with
      | true => simp [hlt.asymm _ _ hvp hyp h]
      | false =>
        rw [h] at hle
        simp at hle
        simp [hle.1]
    have e2 : (B.map Prod.fst).countP (fun x => lt x v) < k := by
      have hlen : (B.map Prod.fst).length = k := by rw [List.length_map, hB]
      refine Nat.lt_of_le_of_ne (hlen ▸ List.countP_le_length) (fun e => ?_)
      rw [← hlen] at e
      have := List.countP_eq_length.1 e v (List.mem_map.2 ⟨_, hv, rfl⟩)
      have h2 := hlt.asymm v v hvp hvp this
      rw [this] at h2
      cases h2
    omega
  · rw [← hc.countP_eq, List.countP_append]
    have : (B.map Prod.fst).countP (fun x => !lt v x) = k := by
      rw [List.countP_eq_length.2, List.length_map, hB]
      intro x hx
      obtain ⟨y, hy, rfl⟩ := List.mem_map.1 hx
      simp [hvm y hy]
    omega

end Verif.Tm
