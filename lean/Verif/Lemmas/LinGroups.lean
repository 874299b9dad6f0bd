import Verif.Lemmas.LinFlatten
import Verif.Model.LinSqueeze
import Verif.Spec.LinSqueeze

namespace Verif.Lin

variable {E : Type}

/-! ## Groups of consecutive dimensions -/

/-- Groups of the given lengths, from dimension `i`. -/
def groupsOf : Nat → List Nat → List (List Nat)
  | _, [] => []
  | i, l :: ls => List.range' i l :: groupsOf (i + l) ls

theorem groupsOf_flatten : ∀ (ls : List Nat) (i : Nat), (groupsOf i ls).flatten = List.range' i ls.sum := by
  intro ls
  induction ls with
  | nil => intro i; rfl
  | cons l ls ih =>
    intro i
    rw [groupsOf, List.flatten_cons, ih, List.sum_cons]
    have := List.range'_append (s := i) (m := l) (n := ls.sum) (step := 1)
    rw [Nat.one_mul] at this
    exact this

theorem groupsOf_length : ∀ (ls : List Nat) (i : Nat), (groupsOf i ls).length = ls.length := by
  intro ls
  induction ls with
  | nil => intro i; rfl
  | cons l ls ih => intro i; rw [groupsOf, List.length_cons, List.length_cons, ih]

theorem groupsOf_append : ∀ (as bs : List Nat) (i : Nat), groupsOf i (as ++ bs) = groupsOf i as ++ groupsOf (i + as.sum) bs := by
  intro as
  induction as with
  | nil => intro bs i; simp [groupsOf]
  | cons a as ih => intro bs i; rw [List.cons_append, groupsOf, groupsOf, ih, List.sum_cons, Nat.add_assoc]; rfl

theorem groupsOf_ones : ∀ (n i : Nat), groupsOf i (List.replicate n 1) = (List.range' i n).map fun d => [d] := by
  intro n
  induction n with
  | zero => intro i; rfl
  | succ n ih => intro i; rw [List.replicate_succ, groupsOf, ih]; rfl

theorem sum_lengths (O : List (List Int)) : (O.map List.length).sum = O.flatten.length := by
  rw [List.length_flatten]

theorem groupsOf_at : ∀ (O : List (List Int)) (P Q : List Int), (groupsOf P.length (O.map List.length)).map (at_ (P ++ O.flatten ++ Q)) = O := by
  intro O
  induction O with
  | nil => intro P Q; rfl
  | cons o O ih =>
    intro P Q
    rw [List.map_cons, groupsOf, List.map_cons, at_range _ _ _ (by simp)]
    congr 1
    · rw [List.append_assoc, List.drop_left, List.flatten_cons, List.append_assoc, List.take_left]
    · have := ih (P ++ o) Q
      rw [List.length_append] at this
      rw [List.flatten_cons, ← List.append_assoc P]
      exact this

theorem groupsOf_at' (O : List (List Int)) : (groupsOf 0 (O.map List.length)).map (at_ O.flatten) = O := by
  have := groupsOf_at O [] []
  rwa [List.nil_append, List.append_nil] at this

theorem groupsOf_nodup (ls : List Nat) (i : Nat) : ∀ g ∈ groupsOf i ls, g.Nodup := by
  induction ls generalizing i with
  | nil => intro g hg; cases hg
  | cons l ls ih =>
    intro g hg
    rw [groupsOf] at hg
    rcases List.mem_cons.mp hg with rfl | hg
    · exact List.nodup_range'
    · exact ih _ g hg

/-! ## The verifier -/

/-- What the verifier asks of a collapsed size and those it is made of. -/
def Verifies (c : Int) (o : List Int) : Prop := (unknown ∈ o ∧ c = unknown) ∨ (unknown ∉ o ∧ c = o.prod)

theorem groupsVerify_of {c : List Int} {O : List (List Int)} (h : List.Forall₂ Verifies c O) : groupsVerify c O.flatten (groupsOf 0 (O.map List.length)) = true := by
  unfold groupsVerify
  rw [Bool.and_eq_true, Bool.and_eq_true, decide_eq_true_eq, decide_eq_true_eq]
  refine ⟨⟨?_, ?_⟩, ?_⟩
  · rw [groupsOf_flatten, sum_lengths, List.range_eq_range']
  · rw [groupsOf_length, List.length_map, h.length_eq]
  · have e : ∀ (c : List Int) (G : List (List Nat)),
        (List.zipWith (fun c g => if g.any (fun d => decide (O.flatten.getD d 0 = unknown)) then decide (c = unknown)
          else decide (c = (g.map fun d => O.flatten.getD d 0).prod)) c G) =
        List.zipWith (fun c o => if o.any (fun n => decide (n = unknown)) then decide (c = unknown) else decide (c = o.prod)) c (G.map (at_ O.flatten)) := by
      intro c G
      rw [List.zipWith_map_right]
      congr 1
      funext c g
      unfold at_
      rw [List.any_map]
      rfl
    rw [e, groupsOf_at']
    clear e
    induction h with
    | nil => rfl
    | @cons c o cs os h1 h2 ih =>
      rw [List.zipWith_cons_cons, List.all_cons, ih, Bool.and_true]
      rcases h1 with ⟨h1, h3⟩ | ⟨h1, h3⟩
      · rw [if_pos (by simpa using h1)]; simpa using h3
      · rw [if_neg (by simpa using h1)]; simpa using h3

/-! ## `expand_shape` -/

theorem forall2_split {α β : Type} {R : α → β → Prop} : ∀ (a : List α) {b : List α} {s : List β}, List.Forall₂ R (a ++ b) s →
    ∃ a' b', s = a' ++ b' ∧ List.Forall₂ R a a' ∧ List.Forall₂ R b b' := by
  intro a
  induction a with
  | nil => intro b s h; exact ⟨[], s, rfl, List.Forall₂.nil, h⟩
  | cons x a ih =>
    intro b s h
    cases h with
    | cons h1 h2 =>
      obtain ⟨a', b', rfl, h3, h4⟩ := ih h2
      exact ⟨_ :: a', b', rfl, List.Forall₂.cons h1 h3, h4⟩

/-- Sizes in a type, of a group and as they are. -/
structure Piece (o s : List Int) : Prop where
  agree : List.Forall₂ (fun v n => v = unknown ∨ v = n) o s
  nonneg : ∀ n ∈ s, 0 ≤ n
  one : o.count unknown ≤ 1
  divides : unknown ∈ o → (o.filter fun v => decide (v ≠ unknown)).prod ≠ 0

/-- The sizes of a group after expansion. -/
def pieceExpand (n : Int) (o : List Int) : List Int :=
  o.map fun v => if v ≠ unknown then v else n / (o.filter fun v => decide (v ≠ unknown)).prod

theorem expandedSize_piece {outs : List Int} {g : List Nat} (hn : g.Nodup) (h1 : (at_ outs g).count unknown ≤ 1) (n : Int) :
    g.map (expandedSize outs n g) = pieceExpand n (at_ outs g) := by
  unfold pieceExpand
  rw [show (at_ outs g) = g.map (outs.getD · 0) from rfl, List.map_map]
  apply List.map_congr_left
  intro d hd
  unfold expandedSize
  show _ = if outs.getD d 0 ≠ unknown then _ else _
  by_cases hu : outs.getD d 0 ≠ unknown
  · rw [if_pos hu, if_pos hu]
  · rw [if_neg hu, if_neg hu]
    have hu : outs.getD d 0 = unknown := Classical.byContradiction hu
    rw [List.filter_map]
    congr 2
    show _ = List.map (fun x => outs.getD x 0) _
    congr 1
    apply List.filter_congr
    intro e he
    show _ = decide (outs.getD e 0 ≠ unknown)
    by_cases hed : e = d
    · subst hed
      rw [hu]
      simp
    · have : outs.getD e 0 ≠ unknown := by
        intro hue
        obtain ⟨a, b, rfl⟩ := List.append_of_mem hd
        have hmem : e ∈ a ++ b := by
          simp only [List.mem_append, List.mem_cons] at he ⊢
          rcases he with h | h | h
          · exact Or.inl h
          · exact absurd h hed
          · exact Or.inr h
        unfold at_ at h1
        rw [List.map_append, List.map_cons, List.count_append, List.count_cons, hu, if_pos (by simp)] at h1
        have : 0 < (List.map (fun d => outs.getD d 0) (a ++ b)).count unknown := by
          apply List.count_pos_iff.mpr
          rw [← hue]
          exact List.mem_map.mpr ⟨e, hmem, rfl⟩
        rw [List.map_append, List.count_append] at this
        omega
      rw [decide_eq_true hed, decide_eq_true this]

theorem Piece.expand {o s : List Int} (h : Piece o s) : pieceExpand s.prod o = s := by
  unfold pieceExpand
  by_cases hu : unknown ∈ o
  · obtain ⟨a, b, rfl⟩ := List.append_of_mem hu
    have h1 := h.one
    have hd := h.divides hu
    rw [List.count_append, List.count_cons_self] at h1
    have na : ∀ v ∈ a, v ≠ unknown := by
      rintro v hv rfl
      have := List.count_pos_iff.mpr hv
      omega
    have nb : ∀ v ∈ b, v ≠ unknown := by
      rintro v hv rfl
      have := List.count_pos_iff.mpr hv
      omega
    have same : ∀ {l m : List Int}, List.Forall₂ (fun v n => v = unknown ∨ v = n) l m → (∀ v ∈ l, v ≠ unknown) → l = m := by
      intro l m h
      induction h with
      | nil => intro _; rfl
      | cons h1 _ ih => intro hl; rw [h1.resolve_left (hl _ (by simp)), ih fun v hv => hl v (by simp [hv])]
    obtain ⟨a', r, hs, ha', hr⟩ := forall2_split a h.agree
    obtain ⟨m, b', _, hb', rfl⟩ := List.forall₂_cons_left_iff.mp hr
    have ea := same ha' na
    have eb := same hb' nb
    subst ea eb
    subst hs
    have fl : ∀ l : List Int, (∀ v ∈ l, v ≠ unknown) → (l.filter fun v => decide (v ≠ unknown)) = l := by
      intro l hl
      rw [List.filter_eq_self]
      intro v hv
      simpa using hl v hv
    have ef : ((a ++ unknown :: b).filter fun v => decide (v ≠ unknown)) = a ++ b := by
      rw [List.filter_append, List.filter_cons, if_neg (by simp), fl a na, fl b nb]
    rw [ef] at hd ⊢
    have mp : ∀ l : List Int, (∀ v ∈ l, v ≠ unknown) → ∀ k : Int, (l.map fun v => if v ≠ unknown then v else k) = l := by
      intro l hl k
      rw [List.map_congr_left (g := id), List.map_id]
      intro v hv
      exact if_pos (hl v hv)
    rw [List.map_append, List.map_cons, mp a na, mp b nb, if_neg (by simp)]
    congr 2
    rw [List.prod_append, List.prod_cons, List.prod_append, Int.mul_left_comm]
    rw [List.prod_append] at hd
    exact Int.mul_ediv_cancel m hd
  · have := h.agree
    have hm : (o.map fun v => if v ≠ unknown then v else s.prod / (o.filter fun v => decide (v ≠ unknown)).prod) = o := by
      rw [List.map_congr_left (g := id), List.map_id]
      intro v hv
      exact if_pos (by rintro rfl; exact hu hv)
    rw [hm]
    clear hm h
    induction this with
    | nil => rfl
    | @cons v n o s h1 _ ih =>
      have hv : v ≠ unknown := by rintro rfl; exact hu (by simp)
      rw [h1.resolve_left hv, ih fun hm => hu (by simp [hm])]

theorem zipWith_groups {outs : List Int} : ∀ {groups : List (List Nat)} {S : List (List Int)}, (∀ g ∈ groups, g.Nodup) →
    List.Forall₂ Piece (groups.map (at_ outs)) S →
    List.zipWith (fun n g => g.map (expandedSize outs n g)) (S.map List.prod) groups = S := by
  intro groups
  induction groups with
  | nil => intro S _ h; cases h; rfl
  | cons g groups ih =>
    intro S hn h
    rw [List.map_cons] at h
    cases h with
    | cons h1 h2 =>
      rw [List.map_cons, List.zipWith_cons_cons, ih (fun g hg => hn g (by simp [hg])) h2, expandedSize_piece (hn g (by simp)) h1.one, h1.expand]

theorem expandShape_ok {x : Tensor E} {O S : List (List Int)} (hx : x.sizes = S.map List.prod) (h : List.Forall₂ Piece O S) :
    ∃ t, expandShape x O.flatten (groupsOf 0 (O.map List.length)) = .ok t ∧ t.sizes = S.flatten := by
  unfold expandShape
  have e := zipWith_groups (outs := O.flatten) (groups := groupsOf 0 (O.map List.length)) (S := S) (groupsOf_nodup _ _) (by rw [groupsOf_at']; exact h)
  rw [hx, e]
  dsimp only
  rw [if_pos]
  · exact ⟨_, rfl, rfl⟩
  · refine ⟨?_, ?_⟩
    · rw [List.zipWith_map_left, List.zipWith_self, List.all_map]
      simp
    · rw [List.all_eq_true]
      intro g hg
      have hc : ∀ o ∈ O, o.count unknown ≤ 1 := by
        intro o ho
        clear e hx hg
        induction h with
        | nil => cases ho
        | cons h1 _ ih =>
          rcases List.mem_cons.mp ho with rfl | ho
          · exact h1.one
          · exact ih ho
      have : (at_ O.flatten g).count unknown ≤ 1 := by
        apply hc
        have := groupsOf_at' O
        rw [← this]
        exact List.mem_map.mpr ⟨g, hg, by rw [this]⟩
      unfold at_ at this
      rw [decide_eq_true_eq, ← List.countP_eq_length_filter]
      rw [List.count_eq_countP, List.countP_map] at this
      have e : (fun d => decide (O.flatten.getD d 0 = unknown)) = (fun x => x == unknown) ∘ fun d => O.flatten.getD d 0 := by
        funext d
        show decide _ = (_ == _)
        rw [Bool.eq_iff_iff]
        simp
      rw [e]
      exact this

theorem typed_agree {x : Operand E} (ht : x.Typed) : List.Forall₂ (fun v n => v = unknown ∨ v = n) (typeSizes x.type) x.tensor.sizes := typed_agrees ht

theorem expandTo_ok {x : Operand E} (hx : ∀ n ∈ x.tensor.sizes, 0 ≤ n) (ht : x.Typed) (h0 : x.type.length ≠ 0) {O S : List (List Int)}
    (hv : List.Forall₂ Verifies (typeSizes x.type) O) (hS : x.tensor.sizes = S.map List.prod) (h : List.Forall₂ Piece O S) :
    ∃ t, expandTo x O.flatten (groupsOf 0 (O.map List.length)) = .ok t ∧ t.sizes = S.flatten ∧ IsReshapeOf t x.tensor := by
  unfold expandTo
  rw [if_neg h0, groupsVerify_of hv, if_neg (by simp)]
  obtain ⟨t, e1, e2⟩ := expandShape_ok hS h
  refine ⟨t, e1, e2, expand_reshape hx (by rw [groupsOf_flatten, sum_lengths, List.range_eq_range']) ?_ ?_ e1⟩
  · rw [groupsOf_length, List.length_map, ← hv.length_eq]
    unfold typeSizes
    rw [List.length_map]
    exact ht.1
  · intro n hn
    obtain ⟨o, ho, hno⟩ := List.mem_flatten.mp hn
    have : ∃ s, Piece o s := by
      clear hv hS e1 hn e2
      induction h with
      | nil => cases ho
      | cons h1 _ ih =>
        rcases List.mem_cons.mp ho with rfl | ho
        · exact ⟨_, h1⟩
        · exact ih ho
    obtain ⟨s, hs⟩ := this
    have ha := hs.agree
    have hp := hs.nonneg
    clear hs ho
    induction ha with
    | nil => cases hno
    | @cons v m o s h1 _ ih =>
      rcases List.mem_cons.mp hno with rfl | hno
      · rcases h1 with h1 | h1
        · rw [h1]; decide
        · have := hp m (by simp); omega
      · exact ih hno fun n hn => hp n (by simp [hn])

theorem collapseTo_ok {x : Operand E} (hx : ∀ n ∈ x.tensor.sizes, 0 ≤ n) {outs : List Int} (h0 : outs.length ≠ 0) {O S : List (List Int)}
    (hO : typeSizes x.type = O.flatten) (hv : List.Forall₂ Verifies outs O) (hS : x.tensor.sizes = S.flatten) (hl : O.map List.length = S.map List.length) :
    ∃ t, collapseTo x outs (groupsOf 0 (O.map List.length)) = .ok t ∧ t.sizes = S.map List.prod ∧ IsReshapeOf t x.tensor := by
  unfold collapseTo
  rw [if_neg h0, hO, groupsVerify_of hv, if_neg (by simp)]
  refine ⟨_, rfl, ?_, collapse_reshape hx ?_⟩
  · show (List.map _ _).map List.prod = _
    rw [hl, hS]
    congr 1
    exact groupsOf_at' S
  · rw [groupsOf_flatten, hl, sum_lengths, List.range_eq_range', hS]

end Verif.Lin
