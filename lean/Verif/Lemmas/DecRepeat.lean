import Verif.Lemmas.DecShape

/-! # Repetition -/

namespace Verif.Dec

open Lin

variable {E : Type}

/-! ## New dimensions -/

theorem insert_pre (pre post : List Int) (v : Int) : (pre ++ post).insertIdx pre.length v = pre ++ v :: post := by
  induction pre with
  | nil => rfl
  | cons n pre ih => rw [List.cons_append, List.length_cons, List.insertIdx_succ_cons, ih]; rfl

theorem unsqueeze_at {x : Tensor E} {pre post : List Int} {d : Nat} (hs : x.sizes = pre ++ post) (hd : d = pre.length) :
    ∃ t, unsqueeze x (d : Int) = some t ∧ t.sizes = pre ++ 1 :: post ∧ ∀ a z c, a.length = pre.length → t.elem (a ++ z :: c) = x.elem (a ++ c) := by
  subst hd
  refine ⟨unsq pre.length x, unsqueeze_of ⟨by rw [hs, List.length_append]; omega, .inl rfl⟩, ?_, ?_⟩
  · show x.sizes.insertIdx pre.length 1 = _
    rw [hs]
    exact insert_pre pre post 1
  · intro a z c ha
    show x.elem ((a ++ z :: c).eraseIdx pre.length) = _
    rw [← ha]
    congr 1
    simp [List.eraseIdx_append]

theorem batchLoop_of : ∀ (n i : Nat) (x : Tensor E) (pre post : List Int), x.sizes = pre ++ post → i = pre.length →
    ∃ t, batchLoop x i n = some t ∧ t.sizes = pre ++ List.replicate n 1 ++ post ∧
      ∀ a z c, a.length = pre.length → z.length = n → t.elem (a ++ z ++ c) = x.elem (a ++ c) := by
  intro n
  induction n with
  | zero =>
    intro i x pre post hs _
    refine ⟨x, rfl, by simpa using hs, ?_⟩
    intro a z c _ hz
    rw [List.length_eq_zero_iff.1 hz, List.append_nil]
  | succ n ih =>
    intro i x pre post hs hi
    obtain ⟨u, u1, u2, u3⟩ := unsqueeze_at hs hi
    obtain ⟨t, t1, t2, t3⟩ := ih (i + 1) u (pre ++ [1]) post (by rw [u2]; simp) (by simp [hi])
    refine ⟨t, ?_, ?_, ?_⟩
    · simp only [batchLoop, u1, t1, Option.bind_eq_bind, Option.bind_some]
    · rw [t2, List.replicate_succ]; simp
    · intro a z c ha hz
      cases z with
      | nil => simp at hz
      | cons y z =>
        have := t3 (a ++ [y]) z c (by simp [ha]) (by simpa using hz)
        rw [show a ++ y :: z ++ c = a ++ [y] ++ z ++ c by simp, this, show a ++ [y] ++ c = a ++ y :: c by simp, u3 a y c ha]

/-! ## Lists of sizes and indices at each stage -/

def exSizes : List (Rep × Bool) → List Int → List Int
  | p :: ps, n :: ns => if skips p then n :: exSizes ps ns else 1 :: n :: exSizes ps ns
  | _, _ => []

def tgSizes : List (Rep × Bool) → List Int → List Int
  | p :: ps, n :: ns => if p.2 then p.1.value :: tgSizes ps ns else if p.1.int = 1 then n :: tgSizes ps ns else p.1.value :: n :: tgSizes ps ns
  | _, _ => []

def fnSizes : List (Rep × Bool) → List Int → List Int
  | p :: ps, n :: ns => (if p.2 then p.1.value else if p.1.int = 1 then n else p.1.value * n) :: fnSizes ps ns
  | _, _ => []

/-- The index without the new dimensions. -/
def sqIdx : List (Rep × Bool) → List Int → List Int
  | [], _ => []
  | p :: ps, b => if skips p then b.headD 0 :: sqIdx ps b.tail else b.tail.headD 0 :: sqIdx ps b.tail.tail

/-- The index before dimensions are merged. -/
def flIdx : List (Rep × Bool) → List Int → List Int → List Int
  | p :: ps, n :: ns, k :: ks => if skips p then k :: flIdx ps ns ks else k / n :: k % n :: flIdx ps ns ks
  | _, _, _ => []

theorem unsqueezeLoop_of (batch : Nat) : ∀ (ps : List (Rep × Bool)) (ns : List Int) (count i : Nat) (x : Tensor E) (pre : List Int),
    ps.length = ns.length → x.sizes = pre ++ ns → i + count - batch = pre.length → batch ≤ i →
    ∃ t, unsqueezeLoop x batch count i ps = some t ∧ t.sizes = pre ++ exSizes ps ns ∧
      ∀ a b, a.length = pre.length → b.length = (exSizes ps ns).length → t.elem (a ++ b) = x.elem (a ++ sqIdx ps b) := by
  intro ps
  induction ps with
  | nil =>
    intro ns count i x pre hl hs _ _
    cases ns with
    | cons => simp at hl
    | nil =>
      refine ⟨x, rfl, hs, ?_⟩
      intro a b _ hb
      rw [List.length_eq_zero_iff.1 hb]
      rfl
  | cons p ps ih =>
    intro ns count i x pre hl hs hi hb
    cases ns with
    | nil => simp at hl
    | cons n ns =>
      have hl' : ps.length = ns.length := by simpa using hl
      by_cases h : skips p = true
      · obtain ⟨t, t1, t2, t3⟩ := ih ns count (i + 1) x (pre ++ [n]) hl' (by rw [hs]; simp) (by simp; omega) (by omega)
        refine ⟨t, ?_, ?_, ?_⟩
        · simp only [unsqueezeLoop, h, if_true, t1]
        · rw [t2]; simp [exSizes, h]
        · intro a b ha hlb
          simp only [exSizes, h, if_true] at hlb
          cases b with
          | nil => simp at hlb
          | cons k b =>
            have := t3 (a ++ [k]) b (by simp [ha]) (by simpa using hlb)
            simp only [List.append_assoc, List.cons_append, List.nil_append] at this
            rw [this]
            simp [sqIdx, h]
      · obtain ⟨u, u1, u2, u3⟩ := unsqueeze_at hs hi
        obtain ⟨t, t1, t2, t3⟩ := ih ns (count + 1) (i + 1) u (pre ++ [1, n]) hl' (by rw [u2]; simp) (by simp; omega) (by omega)
        refine ⟨t, ?_, ?_, ?_⟩
        · simp only [unsqueezeLoop, h, u1, t1, Option.bind_eq_bind, Option.bind_some]
          rfl
        · rw [t2]; simp [exSizes, h]
        · intro a b ha hlb
          simp only [exSizes, h] at hlb
          match b, hlb with
          | [], hlb => simp at hlb
          | [_], hlb => simp at hlb
          | z :: k :: b, hlb =>
            have := t3 (a ++ [z, k]) b (by simp [ha]) (by simpa using hlb)
            simp only [List.append_assoc, List.cons_append, List.nil_append] at this
            rw [this, u3 a z (k :: sqIdx ps b) ha]
            simp [sqIdx, h]

theorem lengthsLoop_of (x : Tensor E) : ∀ (ps : List (Rep × Bool)) (ns pre lengths : List Int), ps.length = ns.length → x.sizes = pre ++ exSizes ps ns →
    lengths.length = pre.length → lengthsLoop x lengths ps = lengths ++ tgSizes ps ns := by
  intro ps
  induction ps with
  | nil => intro ns pre lengths hl _ _; cases ns <;> simp [lengthsLoop, tgSizes]
  | cons p ps ih =>
    intro ns pre lengths hl hs hlen
    cases ns with
    | nil => simp at hl
    | cons n ns =>
      have hl' : ps.length = ns.length := by simpa using hl
      by_cases h : p.2 = true
      · have hsk : skips p = true := by simp [skips, h]
        simp only [exSizes, hsk, if_true] at hs
        simp only [lengthsLoop, tgSizes, h, if_true]
        rw [ih ns (pre ++ [n]) (lengths ++ [p.1.value]) hl' (by rw [hs]; simp) (by simp [hlen])]
        simp
      · by_cases h1 : p.1.int = 1
        · have hsk : skips p = true := by simp [skips, h1]
          simp only [exSizes, hsk, if_true] at hs
          have hg : x.sizes.getD lengths.length 0 = n := by rw [hs]; exact getD_pre hlen _ _ _
          have e1 : (if p.1.int ≠ 1 then lengths ++ [p.1.value] else lengths) = lengths := if_neg (fun hn => hn h1)
          simp only [lengthsLoop, tgSizes]
          rw [if_neg h, if_neg h, if_pos h1, e1, hg, ih ns (pre ++ [n]) (lengths ++ [n]) hl' (by rw [hs]; simp) (by simp [hlen])]
          simp
        · have hsk : skips p = false := by simp [skips, h1, h]
          simp only [exSizes, hsk] at hs
          have hs' : x.sizes = pre ++ 1 :: n :: exSizes ps ns := hs
          have hg : x.sizes.getD (lengths ++ [p.1.value]).length 0 = n := by
            rw [hs', show pre ++ 1 :: n :: exSizes ps ns = (pre ++ [1]) ++ n :: exSizes ps ns by simp]; exact getD_pre (by simp [hlen]) _ _ _
          have e1 : (if p.1.int ≠ 1 then lengths ++ [p.1.value] else lengths) = lengths ++ [p.1.value] := if_pos h1
          simp only [lengthsLoop, tgSizes]
          rw [if_neg h, if_neg h, if_neg h1, e1, hg, ih ns (pre ++ [1, n]) (lengths ++ [p.1.value] ++ [n]) hl' (by rw [hs']; simp) (by simp [hlen])]
          simp

theorem flattenLoop_of : ∀ (ps : List (Rep × Bool)) (ns : List Int) (i : Nat) (x : Tensor E) (pre : List Int),
    ps.length = ns.length → x.sizes = pre ++ tgSizes ps ns → i = pre.length →
    ∃ t, flattenLoop x i ps = some t ∧ t.sizes = pre ++ fnSizes ps ns ∧
      ∀ a ks, a.length = pre.length → ks.length = ps.length → t.elem (a ++ ks) = x.elem (a ++ flIdx ps ns ks) := by
  intro ps
  induction ps with
  | nil =>
    intro ns i x pre hl hs _
    refine ⟨x, rfl, by cases ns <;> simpa [tgSizes, fnSizes] using hs, ?_⟩
    intro a ks _ hk
    rw [List.length_eq_zero_iff.1 hk]
    cases ns <;> rfl
  | cons p ps ih =>
    intro ns i x pre hl hs hi
    cases ns with
    | nil => simp at hl
    | cons n ns =>
      have hl' : ps.length = ns.length := by simpa using hl
      by_cases h : skips p = true
      · have key : ∃ m, tgSizes (p :: ps) (n :: ns) = m :: tgSizes ps ns ∧ fnSizes (p :: ps) (n :: ns) = m :: fnSizes ps ns := by
          by_cases h2 : p.2 = true
          · exact ⟨p.1.value, by simp [tgSizes, h2], by simp [fnSizes, h2]⟩
          · have h1 : p.1.int = 1 := by simpa [skips, h2] using h
            exact ⟨n, by simp [tgSizes, h2, h1], by simp [fnSizes, h2, h1]⟩
        obtain ⟨m, m1, m2⟩ := key
        obtain ⟨t, t1, t2, t3⟩ := ih ns (i + 1) x (pre ++ [m]) hl' (by rw [hs, m1]; simp) (by simp [hi])
        refine ⟨t, ?_, ?_, ?_⟩
        · simp only [flattenLoop, h, if_true, t1]
        · rw [t2, m2]; simp
        · intro a ks ha hk
          cases ks with
          | nil => simp at hk
          | cons k ks =>
            have := t3 (a ++ [k]) ks (by simp [ha]) (by simpa using hk)
            simp only [List.append_assoc, List.cons_append, List.nil_append] at this
            rw [this]
            simp [flIdx, h]
      · have h2 : ¬ p.2 = true := fun h2 => h (by simp [skips, h2])
        have h1 : ¬ p.1.int = 1 := fun h1 => h (by simp [skips, h1])
        have m1 : tgSizes (p :: ps) (n :: ns) = p.1.value :: n :: tgSizes ps ns := by simp [tgSizes, h2, h1]
        have m2 : fnSizes (p :: ps) (n :: ns) = (p.1.value * n) :: fnSizes ps ns := by simp [fnSizes, h2, h1]
        obtain ⟨u, u1, u2, u3⟩ := collapse_of (x := x) (pre := pre) (mid := [p.1.value, n]) (post := tgSizes ps ns) (s := i) (e := i + 1)
          (by rw [hs, m1]; simp) hi (by simp [hi]) (by simp)
        obtain ⟨t, t1, t2, t3⟩ := ih ns (i + 1) u (pre ++ [p.1.value * n]) hl' (by rw [u2]; simp) (by simp [hi])
        refine ⟨t, ?_, ?_, ?_⟩
        · simp only [flattenLoop, h, u1, t1, Option.bind_eq_bind, Option.bind_some]
          rfl
        · rw [t2, m2]; simp
        · intro a ks ha hk
          cases ks with
          | nil => simp at hk
          | cons k ks =>
            have := t3 (a ++ [k]) ks (by simp [ha]) (by simpa using hk)
            simp only [List.append_assoc, List.cons_append, List.nil_append] at this
            have u' := u3 a k (flIdx ps ns ks) ha
            rw [delinearize_pair] at u'
            rw [this, u']
            simp [flIdx, h]

/-! ## Broadcasting -/

theorem expandSizes_keep : ∀ {sizes size : List Int}, sizes.length = size.length → (∀ s ∈ size, 0 ≤ s) → expandSizes sizes size = size := by
  intro sizes
  induction sizes with
  | nil => intro size h _; cases size with
    | nil => rfl
    | cons => simp at h
  | cons n ns ih => intro size h hs; cases size with
    | nil => simp at h
    | cons s ss =>
      have h0 := hs s (by simp)
      have := ih (size := ss) (by simpa using h) (fun t ht => hs t (by simp [ht]))
      unfold expandSizes at this ⊢
      rw [List.zipWith_cons_cons, this, if_neg (by omega)]

/-- The index of the element of the input. -/
def oneIdx (sizes idx : List Int) : List Int := List.zipWith (fun n i => if n = 1 then 0 else i) sizes idx

theorem expand_of {x : Tensor E} {size : List Int} (hl : x.sizes.length = size.length)
    (hc : ∀ p ∈ List.zip x.sizes (expandSizes x.sizes size), 0 ≤ p.2 ∧ (p.1 = 1 ∨ p.1 = p.2)) :
    expand x size = some ⟨expandSizes x.sizes size, fun idx => x.elem (oneIdx x.sizes idx)⟩ := by
  unfold expand
  exact if_pos ⟨hl, List.all_eq_true.2 fun p hp => decide_eq_true (hc p hp)⟩

theorem exSizes_length : ∀ (ps : List (Rep × Bool)) (ns : List Int), (exSizes ps ns).length = (tgSizes ps ns).length := by
  intro ps
  induction ps with
  | nil => intro ns; rfl
  | cons p ps ih => intro ns; cases ns with
    | nil => rfl
    | cons n ns =>
      by_cases h2 : p.2 = true
      · simp [exSizes, tgSizes, skips, h2, ih ns]
      · by_cases h1 : p.1.int = 1 <;> simp [exSizes, tgSizes, skips, h2, h1, ih ns]

/-- What is known of the dimensions in order. -/
def GoodDims (ps : List (Rep × Bool)) (ns : List Int) : Prop :=
  List.Forall₂ (fun (p : Rep × Bool) (n : Int) => 0 ≤ p.1.value ∧ 0 ≤ n ∧ (p.2 = true → n = 1 ∧ p.1.int ≠ 1) ∧ (p.1.int = 1 → p.1.value = 1)) ps ns

theorem goodDims_of : ∀ {reps : List Rep} {type : List (Option Int)} {ns : List Int}, reps.length = ns.length →
    List.Forall₂ (fun (o : Option Int) n => ∀ k, o = some k → n = k) type ns → (∀ r ∈ reps, 0 ≤ r.value) → (∀ n ∈ ns, 0 ≤ n) → GoodDims (singletons reps type) ns := by
  intro reps type ns hl ht
  induction ht generalizing reps with
  | nil => intro _ _; cases reps with
    | nil => exact .nil
    | cons => simp at hl
  | cons h _ ih => intro hr hn; cases reps with
    | nil => simp at hl
    | cons r rs =>
      refine .cons ⟨hr r (by simp), hn _ (by simp), ?_, ?_⟩ (ih (by simpa using hl) (fun q hq => hr q (by simp [hq])) (fun q hq => hn q (by simp [hq])))
      · intro hb
        have := of_decide_eq_true hb
        exact ⟨h 1 this.1, fun (h1 : r.int = 1) => by omega⟩
      · show r.int = 1 → r.value = 1
        unfold Rep.int
        by_cases hk : r.known = true
        · rw [if_pos hk]; exact id
        · rw [if_neg hk]; intro h; cases h

theorem goodDims_expand {ps : List (Rep × Bool)} {ns : List Int} (h : GoodDims ps ns) :
    ∀ q ∈ List.zip (exSizes ps ns) (tgSizes ps ns), 0 ≤ q.2 ∧ (q.1 = 1 ∨ q.1 = q.2) := by
  induction h with
  | nil => intro q hq; simp [exSizes] at hq
  | @cons p n ps ns h _ ih =>
    intro q hq
    by_cases h2 : p.2 = true
    · simp only [exSizes, tgSizes, skips, h2, Bool.or_true, if_true, List.zip_cons_cons, List.mem_cons] at hq
      rcases hq with hq | hq
      · subst hq; exact ⟨h.1, .inl (h.2.2.1 h2).1⟩
      · exact ih q hq
    · by_cases h1 : p.1.int = 1
      · have hq' : q = (n, n) ∨ q ∈ (exSizes ps ns).zip (tgSizes ps ns) := by simpa [exSizes, tgSizes, skips, h2, h1] using hq
        rcases hq' with hq | hq
        · subst hq; exact ⟨h.2.1, .inr rfl⟩
        · exact ih q hq
      · have hq' : q = (1, p.1.value) ∨ q = (n, n) ∨ q ∈ (exSizes ps ns).zip (tgSizes ps ns) := by simpa [exSizes, tgSizes, skips, h2, h1] using hq
        rcases hq' with hq | hq | hq
        · subst hq; exact ⟨h.1, .inl rfl⟩
        · subst hq; exact ⟨h.2.1, .inr rfl⟩
        · exact ih q hq

theorem goodDims_sizes {ps : List (Rep × Bool)} {ns : List Int} (h : GoodDims ps ns) : fnSizes ps ns = List.zipWith (fun p n => p.1.value * n) ps ns := by
  induction h with
  | nil => rfl
  | @cons p n ps ns h _ ih =>
    rw [fnSizes, List.zipWith_cons_cons, ih]
    congr 1
    by_cases h2 : p.2 = true
    · rw [if_pos h2, (h.2.2.1 h2).1, Int.mul_one]
    · rw [if_neg h2]
      by_cases h1 : p.1.int = 1
      · rw [if_pos h1, h.2.2.2 h1, Int.one_mul]
      · rw [if_neg h1]

theorem goodDims_index {ps : List (Rep × Bool)} {ns : List Int} (h : GoodDims ps ns) : ∀ ks, inRange (fnSizes ps ns) ks = true →
    (flIdx ps ns ks).length = (exSizes ps ns).length ∧
    sqIdx ps (oneIdx (exSizes ps ns) (flIdx ps ns ks)) = List.zipWith (fun i n => i % n) ks ns := by
  induction h with
  | nil => intro ks hk; cases ks <;> simp_all [fnSizes, inRange, exSizes, flIdx, sqIdx]
  | @cons p n ps ns h _ ih =>
    intro ks hk
    cases ks with
    | nil => simp [fnSizes, inRange] at hk
    | cons k ks =>
      rw [fnSizes, inRange, Bool.and_eq_true, decide_eq_true_eq] at hk
      obtain ⟨hk, hks⟩ := hk
      obtain ⟨ih1, ih2⟩ := ih ks hks
      by_cases h2 : p.2 = true
      · have hsk : skips p = true := by simp [skips, h2]
        have hn := (h.2.2.1 h2).1
        subst hn
        simp only [flIdx, exSizes, hsk, if_true, List.length_cons, ih1, sqIdx, oneIdx, List.zipWith_cons_cons, List.headD_cons, List.tail_cons, true_and]
        unfold oneIdx at ih2
        rw [ih2, Int.emod_one]
      · by_cases h1 : p.1.int = 1
        · have hsk : skips p = true := by simp [skips, h1]
          rw [if_neg h2, if_pos h1] at hk
          simp only [flIdx, exSizes, hsk, if_true, List.length_cons, ih1, sqIdx, oneIdx, List.zipWith_cons_cons, List.headD_cons, List.tail_cons, true_and]
          unfold oneIdx at ih2
          rw [ih2, Int.emod_eq_of_lt hk.1 hk.2]
          by_cases hn : n = 1
          · rw [if_pos hn]; congr 1; omega
          · rw [if_neg hn]
        · have hsk : ¬ skips p = true := by simp [skips, h1, h2]
          simp only [flIdx, exSizes, sqIdx]
          rw [if_neg hsk, if_neg hsk, if_neg hsk]
          simp only [oneIdx, List.length_cons, ih1, List.zipWith_cons_cons, List.headD_cons, List.tail_cons, true_and]
          unfold oneIdx at ih2
          rw [ih2]
          by_cases hn : n = 1
          · rw [if_pos hn, hn, Int.emod_one]
          · rw [if_neg hn]

theorem singletons_length : ∀ {reps : List Rep} {type : List (Option Int)}, reps.length = type.length → (singletons reps type).length = reps.length := by
  intro reps
  induction reps with
  | nil => intro type _; rfl
  | cons r rs ih => intro type h; cases type with
    | nil => simp at h
    | cons n ns => simp [singletons, ih (type := ns) (by simpa using h)]

theorem singletons_values : ∀ {reps : List Rep} {type : List (Option Int)} {ns : List Int}, reps.length = type.length →
    List.zipWith (fun (p : Rep × Bool) n => p.1.value * n) (singletons reps type) ns = List.zipWith (· * ·) (reps.map (·.value)) ns := by
  intro reps
  induction reps with
  | nil => intro type ns _; rfl
  | cons r rs ih => intro type ns h; cases type with
    | nil => simp at h
    | cons o os => cases ns with
      | nil => rfl
      | cons n ns => simp [singletons, ih (type := os) (ns := ns) (by simpa using h)]

theorem repeat_ok {x : Tensor E} {type : List (Option Int)} {reps : List Rep} (ht : List.Forall₂ (fun (o : Option Int) n => ∀ k, o = some k → n = k) type x.sizes)
    (hx : ∀ n ∈ x.sizes, 0 ≤ n) (hr : ∀ r ∈ reps, 0 ≤ r.value) (hl : x.sizes.length ≤ reps.length) :
    ∃ t, decRepeat x type reps = .ok t ∧ IsRepeatOf t x (reps.map (·.value)) := by
  have htl := ht.length_eq
  have hdl : (reps.drop (reps.length - x.sizes.length)).length = x.sizes.length := by rw [List.length_drop]; omega
  have hg := goodDims_of (reps := reps.drop (reps.length - x.sizes.length)) hdl ht (fun r h => hr r (List.mem_of_mem_drop h)) hx
  generalize hps : singletons (reps.drop (reps.length - x.sizes.length)) type = ps at hg
  have hpl : ps.length = x.sizes.length := hg.length_eq
  generalize hb : reps.length - x.sizes.length = batch at *
  have htk : (reps.take batch).length = batch := by rw [List.length_take]; omega
  have hml : ((reps.take batch).map (·.value)).length = batch := by rw [List.length_map, htk]
  obtain ⟨a, a1, a2, a3⟩ := batchLoop_of batch 0 x [] x.sizes rfl rfl
  simp only [List.nil_append] at a2
  obtain ⟨b, b1, b2, b3⟩ := unsqueezeLoop_of batch ps x.sizes batch batch a (List.replicate batch 1) hpl a2 (by simp) (Nat.le_refl _)
  have hlen := lengthsLoop_of b ps x.sizes (List.replicate batch 1) ((reps.take batch).map (·.value)) hpl b2 (by rw [hml]; simp)
  have hnn : ∀ s ∈ (reps.take batch).map (·.value) ++ tgSizes ps x.sizes, 0 ≤ s := by
    intro s hs
    rcases List.mem_append.1 hs with hs | hs
    · obtain ⟨r, h1, h2⟩ := List.mem_map.1 hs
      exact h2 ▸ hr r (List.mem_of_mem_take h1)
    · obtain ⟨j, hj, he⟩ := List.mem_iff_getElem.1 hs
      have := goodDims_expand hg ((exSizes ps x.sizes)[j]'(by rw [exSizes_length]; exact hj), s) (by
        rw [← he, List.mem_iff_getElem]
        exact ⟨j, by rw [List.length_zip, exSizes_length]; omega, by rw [List.getElem_zip]⟩)
      exact this.1
  have hel : b.sizes.length = ((reps.take batch).map (·.value) ++ tgSizes ps x.sizes).length := by
    rw [b2, List.length_append, List.length_append, exSizes_length]; rw [hml, List.length_replicate]
  have hex := expandSizes_keep hel hnn
  have hexp := expand_of (x := b) (size := (reps.take batch).map (·.value) ++ tgSizes ps x.sizes) hel (by
    rw [hex, b2, List.zip_append (by rw [hml]; simp)]
    intro q hq
    rcases List.mem_append.1 hq with hq | hq
    · have h1 := List.of_mem_zip hq
      exact ⟨hnn _ (List.mem_append_left _ h1.2), .inl (List.eq_of_mem_replicate h1.1)⟩
    · exact goodDims_expand hg q hq)
  rw [hex] at hexp
  obtain ⟨t, t1, t2, t3⟩ := flattenLoop_of ps x.sizes batch _ ((reps.take batch).map (·.value)) hpl
    (show (Tensor.mk ((reps.take batch).map (·.value) ++ tgSizes ps x.sizes) fun idx => b.elem (oneIdx b.sizes idx)).sizes = _ from rfl) hml.symm
  have hsz : t.sizes = List.zipWith (· * ·) (reps.map (·.value)) (List.replicate batch 1 ++ x.sizes) := by
    rw [t2, goodDims_sizes hg, ← hps, singletons_values (by rw [hdl, htl])]
    conv_rhs => rw [← List.take_append_drop batch reps, List.map_append, List.zipWith_append (by rw [hml]; simp)]
    congr 1
    have : ∀ (l : List Int), List.zipWith (· * ·) l (List.replicate l.length 1) = l := by
      intro l
      induction l with
      | nil => rfl
      | cons v l ih => rw [List.length_cons, List.replicate_succ, List.zipWith_cons_cons, ih, Int.mul_one]
    have h := this ((reps.take batch).map (·.value))
    rw [List.length_map, htk] at h
    exact h.symm
  refine ⟨t, ?_, ?_, ?_⟩
  · unfold decRepeat
    rw [if_neg (by omega)]
    apply of_some
    simp only [hb, hps, a1, b1, hlen, hexp, t1, Option.bind_eq_bind, Option.bind_some]
  · rw [List.length_map, hb]; exact hsz
  · intro idx hidx
    rw [List.length_map, hb]
    rw [t2] at hidx
    have hil := inRange_length hidx
    have hfl : (fnSizes ps x.sizes).length = ps.length := by rw [goodDims_sizes hg, List.length_zipWith]; omega
    rw [List.length_append, List.length_map, htk, hfl] at hil
    rw [← List.take_append_drop batch idx, inRange_split _ _ _ _ (by rw [hml, List.length_take]; omega), Bool.and_eq_true] at hidx
    obtain ⟨g1, g2⟩ := goodDims_index hg _ hidx.2
    have h3 := t3 (idx.take batch) (idx.drop batch) (by rw [hml, List.length_take]; omega) (by rw [List.length_drop]; omega)
    rw [List.take_append_drop] at h3
    rw [h3]
    show b.elem (oneIdx b.sizes (idx.take batch ++ flIdx ps x.sizes (idx.drop batch))) = _
    have hone : oneIdx b.sizes (idx.take batch ++ flIdx ps x.sizes (idx.drop batch)) =
        oneIdx (List.replicate batch 1) (idx.take batch) ++ oneIdx (exSizes ps x.sizes) (flIdx ps x.sizes (idx.drop batch)) := by
      unfold oneIdx
      rw [b2, List.zipWith_append (by simp; omega)]
    have hlen1 : (oneIdx (List.replicate batch 1) (idx.take batch)).length = batch := by unfold oneIdx; simp; omega
    rw [hone, b3 _ _ (by rw [hlen1]; simp) (by unfold oneIdx; rw [List.length_zipWith, g1]; simp), g2]
    have := a3 [] (oneIdx (List.replicate batch 1) (idx.take batch)) (List.zipWith (fun i n => i % n) (idx.drop batch) x.sizes) rfl hlen1
    simpa using this

end Verif.Dec
