import Verif.Lemmas.LinSqueeze

namespace Verif.Lin

variable {E : Type}

/-! ## `squeeze` -/

def notOne (n : Int) : Bool := decide (n ≠ 1)

/-- Ones, and a dimension that stays. -/
def Run (v : Int) (w : List Int) : Prop := ∃ a : Nat, w = List.replicate a 1 ++ [v]

theorem squeezeAll_done {res : List Int} {ns : List Int} {i j : Nat} {g : List (List Nat)} (h : res.length ≤ j) : squeezeAll res ns i j g = (g, ns, i, j) := by
  cases ns with
  | nil => rfl
  | cons n ns => rw [squeezeAll, if_neg (by omega)]

theorem modify_mid {α : Type} {a b : List α} {x : α} {f : α → α} : (a ++ x :: b).modify a.length f = a ++ f x :: b := by
  induction a with
  | nil => rfl
  | cons y a ih => rw [List.cons_append, List.length_cons, List.modify_succ_cons, ih]; rfl

theorem squeezeAll_spec : ∀ (ns res0 : List Int) (k a : Nat) (done : List (List Nat)), done.length = res0.length → ns.filter notOne ≠ [] →
    ∃ ws rest, squeezeAll (res0 ++ ns.filter notOne) ns (k + a) res0.length (done ++ List.range' k a :: List.replicate ((ns.filter notOne).length - 1) []) =
        (done ++ groupsOf k (ws.map List.length), rest, k + ws.flatten.length, res0.length + (ns.filter notOne).length) ∧
      ws.flatten ++ rest = List.replicate a 1 ++ ns ∧ (∀ n ∈ rest, n = 1) ∧ List.Forall₂ Run (ns.filter notOne) ws := by
  intro ns
  induction ns with
  | nil => intro _ _ _ _ _ h; exact absurd rfl h
  | cons n ns ih =>
    intro res0 k a done hd h
    have hrange : List.range' k a ++ [k + a] = List.range' k (a + 1) := by
      rw [List.range'_concat, Nat.one_mul]
    by_cases hn : n = 1
    · subst hn
      have e : (1 :: ns).filter notOne = ns.filter notOne := by rw [List.filter_cons, if_neg (by decide)]
      rw [e] at h ⊢
      obtain ⟨m, r, hr⟩ := List.exists_cons_of_ne_nil h
      have hm1 : m ≠ 1 := by
        have : m ∈ ns.filter notOne := by rw [hr]; simp
        have := (List.mem_filter.mp this).2
        exact of_decide_eq_true this
      rw [squeezeAll, if_pos (by rw [hr]; simp), if_neg (by rw [getD_right (Nat.le_refl _), hr]; simpa using fun e => hm1 e.symm), ← hd, modify_mid, hrange, hd]
      obtain ⟨ws, rest, h1, h2, h3, h4⟩ := ih res0 k (a + 1) done hd h
      refine ⟨ws, rest, h1, ?_, h3, h4⟩
      rw [h2, List.replicate_succ', List.append_assoc]
      rfl
    · have e : (n :: ns).filter notOne = n :: ns.filter notOne := by rw [List.filter_cons, if_pos (by simpa [notOne] using hn)]
      rw [e] at h ⊢
      rw [squeezeAll, if_pos (by simp), if_pos (by rw [getD_right (Nat.le_refl _)]; simp), ← hd, modify_mid, hrange, hd]
      by_cases hr : ns.filter notOne = []
      · rw [hr, squeezeAll_done (by simp)]
        refine ⟨[List.replicate a 1 ++ [n]], ns, ?_, ?_, ?_, List.Forall₂.cons ⟨a, rfl⟩ List.Forall₂.nil⟩
        · simp [groupsOf]
          omega
        · simp
        · intro m hm
          by_cases h1 : m = 1
          · exact h1
          · exact absurd (List.filter_eq_nil_iff.mp hr m hm) (by simpa [notOne] using h1)
      · obtain ⟨ws, rest, h1, h2, h3, h4⟩ := ih (res0 ++ [n]) (k + a + 1) 0 (done ++ [List.range' k (a + 1)]) (by simp [hd]) hr
        obtain ⟨m, r, hr'⟩ := List.exists_cons_of_ne_nil hr
        refine ⟨(List.replicate a 1 ++ [n]) :: ws, rest, ?_, ?_, h3, List.Forall₂.cons ⟨a, rfl⟩ h4⟩
        · rw [List.append_assoc, List.length_append, List.length_singleton, List.append_assoc, List.singleton_append, List.singleton_append, Nat.add_zero] at h1
          rw [show List.replicate ((n :: ns.filter notOne).length - 1) ([] : List Nat) = List.range' (k + a + 1) 0 :: List.replicate ((ns.filter notOne).length - 1) [] by
            rw [hr']; rfl]
          rw [h1]
          simp [groupsOf]
          refine ⟨?_, ?_, ?_⟩ <;> first | omega | rfl
        · rw [List.flatten_cons, List.append_assoc, h2]
          simp

def Form (o : List Int) : Prop := ∃ (a b : Nat) (v : Int), v ≠ 1 ∧ o = List.replicate a 1 ++ v :: List.replicate b 1

def stays (ts sizes : List Int) : List Int := ((ts.zip sizes).filter fun p => decide (p.1 ≠ 1)).map (·.2)

theorem stays_append {a b c d : List Int} (h : a.length = b.length) : stays (a ++ c) (b ++ d) = stays a b ++ stays c d := by
  unfold stays
  rw [List.zip_append h, List.filter_append, List.map_append]

theorem agree_ones : ∀ {a : Nat} {s : List Int}, List.Forall₂ (fun v n => v = unknown ∨ v = n) (List.replicate a 1) s → s = List.replicate a 1 := by
  intro a
  induction a with
  | zero => intro s h; cases h; rfl
  | succ a ih =>
    intro s h
    rw [List.replicate_succ] at h
    cases h with
    | cons h1 h2 => rw [ih h2, ← h1.resolve_left (by decide), List.replicate_succ]

theorem stays_ones (a : Nat) (s : List Int) : stays (List.replicate a 1) s = [] := by
  unfold stays
  rw [List.map_eq_nil_iff, List.filter_eq_nil_iff]
  rintro ⟨p, q⟩ hp
  have := List.eq_of_mem_replicate (List.of_mem_zip hp).1
  simp [this]

theorem cut_runs : ∀ {O : List (List Int)} {sizes : List Int}, (∀ o ∈ O, Form o) → List.Forall₂ (fun v n => v = unknown ∨ v = n) O.flatten sizes →
    ∃ S : List (List Int), sizes = S.flatten ∧ O.map List.length = S.map List.length ∧ S.map List.prod = stays O.flatten sizes := by
  intro O
  induction O with
  | nil => intro sizes _ h; cases h; exact ⟨[], rfl, rfl, rfl⟩
  | cons o O ih =>
    intro sizes hf h
    rw [List.flatten_cons] at h
    obtain ⟨s, r, rfl, h1, h2⟩ := forall2_split o h
    obtain ⟨S, e1, e2, e3⟩ := ih (fun o ho => hf o (by simp [ho])) h2
    obtain ⟨a, b, v, hv, rfl⟩ := hf o (by simp)
    have hl := h1.length_eq
    obtain ⟨s1, r1, rfl, h3, h4⟩ := forall2_split _ h1
    cases h4 with
    | @cons _ m _ s2 h5 h6 =>
    have i1 := agree_ones h3
    have i2 := agree_ones h6
    subst i1 i2
    refine ⟨(List.replicate a 1 ++ m :: List.replicate b 1) :: S, by rw [List.flatten_cons, e1], by rw [List.map_cons, List.map_cons, e2, hl], ?_⟩
    rw [List.map_cons, e3, List.flatten_cons, stays_append hl, stays_append (by simp), stays_ones, List.nil_append, List.prod_append, List.prod_cons]
    have : stays (v :: List.replicate b 1) (m :: List.replicate b 1) = m :: stays (List.replicate b 1) (List.replicate b 1) := by
      unfold stays
      rw [List.zip_cons_cons, List.filter_cons, if_pos (by simpa using hv), List.map_cons]
    rw [this, stays_ones]
    simp

theorem stays_types (ty : List (Option Int)) (sizes : List Int) (h : ∀ v ∈ ty, v ≠ some unknown) : stays (typeSizes ty) sizes = dropKnownOnes ty sizes := by
  unfold stays dropKnownOnes typeSizes
  induction ty generalizing sizes with
  | nil => rfl
  | cons o ty ih =>
    cases sizes with
    | nil => rfl
    | cons n sizes =>
      have ih := ih sizes fun v hv => h v (by simp [hv])
      rw [List.map_cons, List.zip_cons_cons, List.zip_cons_cons, List.filter_cons, List.filter_cons]
      cases o with
      | none =>
        rw [if_pos (by simp [unknown]), if_pos (by simp), List.map_cons, List.map_cons, ih]
      | some m =>
        by_cases hm : m = 1
        · subst hm
          rw [if_neg (by simp), if_neg (by simp), ih]
        · rw [if_pos (by simpa using hm), if_pos (by simpa using hm), List.map_cons, List.map_cons, ih]

theorem filter_types (ty : List (Option Int)) : typeSizes (ty.filter fun v => decide (v ≠ some 1)) = (typeSizes ty).filter notOne := by
  unfold typeSizes
  rw [List.filter_map]
  congr 1
  apply List.filter_congr
  intro v _
  cases v with
  | none => rfl
  | some m => simp [notOne]

theorem verify_form {v : Int} {a b : Nat} : Verifies v (List.replicate a 1 ++ v :: List.replicate b 1) := by
  by_cases h : v = unknown
  · exact Or.inl ⟨by simp [h], h⟩
  · refine Or.inr ⟨?_, by simp [List.prod_append]⟩
    intro hm
    rcases List.mem_append.mp hm with hm | hm
    · exact absurd (List.eq_of_mem_replicate hm) (by decide)
    · rcases List.mem_cons.mp hm with hm | hm
      · exact h hm.symm
      · exact absurd (List.eq_of_mem_replicate hm) (by decide)

theorem forall2_last {α β : Type} {R : α → β → Prop} {l : List α} {m : List β} (h : List.Forall₂ R l m) (hl : l ≠ []) :
    ∃ l' a m' b, l = l' ++ [a] ∧ m = m' ++ [b] ∧ List.Forall₂ R l' m' ∧ R a b := by
  obtain ⟨l', a, rfl⟩ := snoc_of_ne hl
  obtain ⟨m', r, rfl, h1, h2⟩ := forall2_split l' h
  cases h2 with
  | cons h2 h3 => cases h3; exact ⟨l', a, m', _, rfl, rfl, h1, h2⟩

theorem zeros_position (l : List (Option Int)) : inRange (List.replicate l.length 1) (l.map fun _ => 0) = true ∧
    position (List.replicate l.length 1) (l.map fun _ => 0) = 0 := by
  induction l with
  | nil => exact ⟨rfl, rfl⟩
  | cons a l ih =>
    rw [List.length_cons, List.replicate_succ, List.map_cons]
    refine ⟨?_, ?_⟩
    · rw [inRange, ih.1]; rfl
    · rw [position, ih.2]; simp

theorem lowerSqueeze_spec {x : Operand E} (ht : x.Typed) (hx : ∀ n ∈ x.tensor.sizes, 0 ≤ n) (h0 : x.type ≠ []) :
    ∃ t, lowerSqueeze x (x.type.filter fun v => decide (v ≠ some 1)) = .ok t ∧ t.sizes = dropKnownOnes x.type x.tensor.sizes ∧ IsReshapeOf t x.tensor := by
  have hu : ∀ v ∈ x.type, v ≠ some unknown := by
    rintro v hv rfl
    obtain ⟨i, hi, e⟩ := List.mem_iff_getElem.mp hv
    have := ht.2 i unknown (by rw [List.getElem?_eq_getElem hi, e])
    have := hx unknown (List.mem_of_getElem? this)
    exact absurd this (by decide)
  unfold lowerSqueeze
  dsimp only
  rw [if_neg (fun h => h0 (List.eq_nil_of_length_eq_zero h))]
  by_cases h1 : x.type.length = (x.type.filter fun v => decide (v ≠ some 1)).length
  · rw [if_pos h1]
    have e : (x.type.filter fun v => decide (v ≠ some 1)) = x.type := List.Sublist.eq_of_length List.filter_sublist h1.symm
    rw [e, if_pos (castOk_iff.mpr ht)]
    refine ⟨_, rfl, ?_, IsReshapeOf.refl hx⟩
    unfold dropKnownOnes
    rw [List.filter_eq_self.mpr, List.map_snd_zip (Nat.le_of_eq ht.1.symm)]
    rintro ⟨p, q⟩ hp
    exact (List.filter_eq_self.mp e) p (List.of_mem_zip hp).1
  · rw [if_neg h1]
    by_cases h2 : (x.type.filter fun v => decide (v ≠ some 1)).length = 0
    · rw [if_pos h2]
      have hall : ∀ v ∈ x.type, v = some 1 := by
        intro v hv
        have := List.filter_eq_nil_iff.mp (List.eq_nil_of_length_eq_zero h2) v hv
        simpa using this
      have hs : x.tensor.sizes = List.replicate x.type.length 1 := by
        refine agree_ones (a := x.type.length) ?_
        rw [show List.replicate x.type.length 1 = typeSizes x.type by
          symm
          rw [List.eq_replicate_iff]
          unfold typeSizes
          refine ⟨List.length_map _, fun b hb => ?_⟩
          obtain ⟨v, hv, rfl⟩ := List.mem_map.mp hb
          rw [hall v hv]
          rfl]
        exact typed_agree ht
      unfold collapseTo
      rw [if_pos List.length_nil, if_pos]
      · refine ⟨_, rfl, ?_, reshape_of (fun _ => x.type.map fun _ => 0) ?_ (by simp) (fun i hi => ?_) (fun i hi => rfl)⟩
        · unfold dropKnownOnes
          symm
          rw [List.map_eq_nil_iff, List.filter_eq_nil_iff]
          rintro ⟨p, q⟩ hp
          simp [hall p (List.of_mem_zip hp).1]
        · rw [hs]; simp
        · rw [hs]
          cases i with
          | cons => simp [inRange] at hi
          | nil =>
            exact zeros_position x.type
      · rw [Bool.and_eq_true]
        refine ⟨rfl, ?_⟩
        rw [List.all_eq_true]
        intro n hn
        unfold typeSizes at hn
        obtain ⟨v, hv, rfl⟩ := List.mem_map.mp hn
        rw [hall v hv]
        rfl
    · rw [if_neg h2, filter_types]
      have hlen : (x.type.filter fun v => decide (v ≠ some 1)).length = ((typeSizes x.type).filter notOne).length := by
        rw [← filter_types]; unfold typeSizes; rw [List.length_map]
      rw [hlen] at h2 ⊢
      have hne : (typeSizes x.type).filter notOne ≠ [] := fun e => h2 (by rw [e]; rfl)
      obtain ⟨ws, rest, e1, e2, e3, e4⟩ := squeezeAll_spec (typeSizes x.type) [] 0 0 [] rfl hne
      obtain ⟨m, r, hr⟩ := List.exists_cons_of_ne_nil hne
      simp only [List.nil_append, Nat.add_zero, List.length_nil, List.range'_zero, Nat.zero_add, List.replicate_zero] at e1 e2
      rw [show ([] : List Nat) :: List.replicate (((typeSizes x.type).filter notOne).length - 1) [] = List.replicate ((typeSizes x.type).filter notOne).length [] by
        rw [hr]; rfl] at e1
      rw [e1]
      dsimp only
      have ha : rest.any (fun n => decide (n ≠ 1)) = false := by
        rw [List.any_eq_false]
        intro n hn
        simp [e3 n hn]
      rw [ha, if_neg (by simp), if_neg (by simp)]
      have hmem : ∀ v ∈ (typeSizes x.type).filter notOne, v ≠ 1 := fun v hv => of_decide_eq_true (List.mem_filter.mp hv).2
      obtain ⟨r', v, ws', wl, f1, f2, f3, f4⟩ := forall2_last e4 hne
      rw [f1] at hmem ⊢
      obtain ⟨a, rfl⟩ := f4
      have hrest : rest = List.replicate rest.length 1 := List.eq_replicate_iff.mpr ⟨rfl, e3⟩
      generalize hb : rest.length = b at hrest ⊢
      subst hrest
      rw [f2] at e2 ⊢
      have hO : typeSizes x.type = (ws' ++ [List.replicate a 1 ++ v :: List.replicate b 1]).flatten := by rw [← e2]; simp
      have hg : (groupsOf 0 ((ws' ++ [List.replicate a 1 ++ [v]]).map List.length)).modify ((groupsOf 0 ((ws' ++ [List.replicate a 1 ++ [v]]).map List.length)).length - 1)
            (· ++ List.range' (ws' ++ [List.replicate a 1 ++ [v]]).flatten.length b) =
          groupsOf 0 ((ws' ++ [List.replicate a 1 ++ v :: List.replicate b 1]).map List.length) := by
        rw [List.map_append, List.map_append, groupsOf_append, groupsOf_append]
        have : (groupsOf 0 (ws'.map List.length) ++ groupsOf (0 + (ws'.map List.length).sum) ([List.replicate a 1 ++ [v]].map List.length)).length - 1 = (groupsOf 0 (ws'.map List.length)).length := by
          simp [groupsOf]
        rw [this]
        simp only [List.map_cons, List.map_nil, groupsOf, modify_mid]
        congr 2
        rw [show (List.replicate a (1 : Int) ++ v :: List.replicate b 1).length = (List.replicate a (1 : Int) ++ [v]).length + b by simp; omega, ← List.range'_append_1]
        congr 2
        rw [List.flatten_append, List.length_append, sum_lengths]
        simp
      rw [hg]
      have hform : ∀ o ∈ ws' ++ [List.replicate a 1 ++ v :: List.replicate b 1], Form o := by
        intro o ho
        rcases List.mem_append.mp ho with ho | ho
        · have : ∃ u ∈ r', Run u o := by
            clear hg hO e2 e1 hmem f1 f2 e4
            induction f3 with
            | nil => cases ho
            | cons h _ ih =>
              rcases List.mem_cons.mp ho with rfl | ho'
              · exact ⟨_, by simp, h⟩
              · obtain ⟨u, hu, hr⟩ := ih (by simp [ho']) ho'
                exact ⟨u, by simp [hu], hr⟩
          obtain ⟨u, hu, c, rfl⟩ := this
          exact ⟨c, 0, u, hmem u (by simp [hu]), rfl⟩
        · rw [List.mem_singleton.mp ho]
          exact ⟨a, b, v, hmem v (by simp), rfl⟩
      obtain ⟨S, s1, s2, s3⟩ := cut_runs hform (by rw [← hO]; exact typed_agree ht)
      rw [← hO, stays_types _ _ hu] at s3
      rw [← s3]
      refine collapseTo_ok hx (by simp) hO ?_ s1 s2
      refine forall2_append ?_ (List.Forall₂.cons verify_form List.Forall₂.nil)
      clear hform hg hO e2 e1 hmem f1 f2 e4 s1 s2 s3
      induction f3 with
      | nil => exact List.Forall₂.nil
      | cons h _ ih =>
        obtain ⟨c, rfl⟩ := h
        exact List.Forall₂.cons (verify_form (b := 0)) ih

theorem drop_filter {ty : List (Option Int)} {sizes : List Int} (ht : TypeOf ty sizes) (h1 : ∀ i : Nat, ty[i]? = some none → sizes[i]? ≠ some 1) :
    dropKnownOnes ty sizes = sizes.filter notOne := by
  unfold dropKnownOnes
  induction ty generalizing sizes with
  | nil =>
    have := List.eq_nil_of_length_eq_zero ht.1.symm
    rw [this]
    rfl
  | cons o ty ih =>
    cases sizes with
    | nil => exact absurd ht.1 (by simp)
    | cons n sizes =>
      have ih := ih (sizes := sizes) ⟨by simpa using ht.1, fun d m hd => by simpa using ht.2 (d + 1) m (by simpa using hd)⟩
        (fun i hi => by simpa using h1 (i + 1) (by simpa using hi))
      rw [List.zip_cons_cons, List.filter_cons, List.filter_cons]
      have hiff : (o ≠ some 1) ↔ n ≠ 1 := by
        cases o with
        | none =>
          have := h1 0 rfl
          simp at this
          simp [this]
        | some m =>
          have := ht.2 0 m rfl
          simp at this
          simp [this]
      by_cases hn : n = 1
      · rw [if_neg (by simpa using not_not.mp (mt hiff.mp (not_not.mpr hn))), if_neg (by simp [notOne, hn]), ih]
      · rw [if_pos (by simpa using hiff.mpr hn), if_pos (by simp [notOne, hn]), List.map_cons, ih]

end Verif.Lin
