import Verif.Lemmas.LinViewLoop

namespace Verif.Lin

variable {E : Type}

/-! ## Groups of dimensions -/

/-- The sizes of the dimensions `g`. -/
def at_ (l : List Int) (g : List Nat) : List Int := g.map fun d => l.getD d 0

theorem at_append (l : List Int) (g h : List Nat) : at_ l (g ++ h) = at_ l g ++ at_ l h := List.map_append ..

theorem at_range (l : List Int) (i a : Nat) (h : i + a ≤ l.length) : at_ l (List.range' i a) = (l.drop i).take a := by
  apply List.ext_getElem (by simp [at_]; omega)
  intro k h1 h2
  simp [at_] at h1
  simp [at_, List.getD_eq_getElem?_getD, (by omega : i + k < l.length)]

/-- A group of dimensions of the input and one of the output with as many elements. -/
structure Good (mx my : Int) (ins outs : List Int) (gx gy : List Nat) : Prop where
  nx : gx ≠ []
  ny : gy ≠ []
  le : nu (at_ ins gx) ≤ 1
  nu : nu (at_ ins gx) = nu (at_ outs gy)
  prod : (sub mx (at_ ins gx)).prod = (sub my (at_ outs gy)).prod

theorem ones_spec (m : Int) {l : List Int} : ∀ {g : List Nat}, (∀ d ∈ g, l.getD d 0 = 1) → nu (at_ l g) = 0 ∧ (sub m (at_ l g)).prod = 1 := by
  intro g
  induction g with
  | nil => intro _; exact ⟨rfl, rfl⟩
  | cons d g ih =>
    intro h
    obtain ⟨a, b⟩ := ih fun e he => h e (by simp [he])
    have hd : l.getD d 0 = 1 := h d (by simp)
    have e : at_ l (d :: g) = 1 :: at_ l g := by unfold at_; rw [List.map_cons, hd]
    rw [e]
    refine ⟨?_, ?_⟩
    · rw [nu_cons, a]; decide
    · show ((if (1 : Int) = unknown then m else 1) :: sub m (at_ l g)).prod = 1
      rw [List.prod_cons, b, if_neg (by decide)]
      rfl

theorem Good.extend {mx my : Int} {ins outs : List Int} {gx gy ex ey : List Nat} (h : Good mx my ins outs gx gy)
    (hx : ∀ d ∈ ex, ins.getD d 0 = 1) (hy : ∀ d ∈ ey, outs.getD d 0 = 1) : Good mx my ins outs (gx ++ ex) (gy ++ ey) := by
  obtain ⟨a, b⟩ := ones_spec mx hx
  obtain ⟨c, d⟩ := ones_spec my hy
  refine ⟨by simp [h.nx], by simp [h.ny], ?_, ?_, ?_⟩
  · rw [at_append, nu_append, a]; exact h.le
  · rw [at_append, at_append, nu_append, nu_append, a, c, h.nu]
  · rw [at_append, at_append, sub_append, sub_append, List.prod_append, List.prod_append, b, d, h.prod]

/-- What is true between the turns of the loop. -/
structure Inv (mx my : Int) (is os : List Int) (st : ViewState) : Prop where
  ins : st.ins = is
  outs : st.outs = os
  checks : st.checks = []
  i : st.inA.flatten = List.range st.i
  o : st.outA.flatten = List.range st.o
  groups : List.Forall₂ (Good mx my is os) st.inA st.outA

theorem forall2_snoc {α β : Type} {R : α → β → Prop} {A : List α} {B : List β} {a : α} {b : β} (h : List.Forall₂ R A B) (hr : R a b) :
    List.Forall₂ R (A ++ [a]) (B ++ [b]) := by
  induction h with
  | nil => exact List.Forall₂.cons hr List.Forall₂.nil
  | cons h1 _ ih => exact List.Forall₂.cons h1 ih

theorem range_add (i a : Nat) : List.range i ++ List.range' i a = List.range (i + a) := by
  rw [List.range_eq_range', List.range_eq_range']
  have := List.range'_append (s := 0) (m := i) (n := a) (step := 1)
  rw [Nat.one_mul, Nat.zero_add] at this
  exact this

/-- The sizes of the dimensions from `i` up to `n`. -/
def slice (l : List Int) (i n : Nat) : List Int := (l.drop i).take (n - i)

theorem slice_length (l : List Int) (i n : Nat) (h : n ≤ l.length) : (slice l i n).length = n - i := by
  unfold slice
  simp
  omega

theorem slice_drop (l : List Int) (i n a : Nat) : (slice l i n).drop a = slice l (i + a) n := by
  unfold slice
  rw [List.drop_take, List.drop_drop, Nat.sub_sub]

theorem slice_take (l : List Int) (i n a : Nat) (h : i + a ≤ n) : (slice l i n).take a = (l.drop i).take a := by
  unfold slice
  rw [List.take_take, Nat.min_eq_left (by omega)]

theorem slice_pos {l : List Int} (h : Pos l) (i n : Nat) : Pos (slice l i n) := (h.drop i).take _

theorem Inv.group {mx my : Int} {ins outs : List Int} {st : ViewState} {ni no a b : Nat} (h : Inv mx my ins outs st) (hni : ni ≤ ins.length) (hno : no ≤ outs.length)
    (hi : st.i ≤ ni) (ho : st.o ≤ no) (hn : nu (slice ins st.i ni) ≤ 1)
    (hm : Matched mx my (slice ins st.i ni) (slice outs st.o no) a b) : Inv mx my ins outs (st.group a b) ∧ st.i + a ≤ ni ∧ st.o + b ≤ no := by
  have h1 := hm.ax
  have h2 := hm.by_
  rw [slice_length _ _ _ hni] at h1
  rw [slice_length _ _ _ hno] at h2
  have e1 : at_ ins (List.range' st.i a) = (slice ins st.i ni).take a := by
    rw [at_range _ _ _ (by omega), slice_take _ _ _ _ (by omega)]
  have e2 : at_ outs (List.range' st.o b) = (slice outs st.o no).take b := by
    rw [at_range _ _ _ (by omega), slice_take _ _ _ _ (by omega)]
  refine ⟨⟨h.ins, h.outs, h.checks, ?_, ?_, ?_⟩, by omega, by omega⟩
  · show (st.inA ++ [List.range' st.i a]).flatten = List.range (st.i + a)
    rw [List.flatten_append, h.i, ← range_add]
    simp
  · show (st.outA ++ [List.range' st.o b]).flatten = List.range (st.o + b)
    rw [List.flatten_append, h.o, ← range_add]
    simp
  · apply forall2_snoc h.groups
    refine ⟨?_, ?_, ?_, ?_, ?_⟩
    · intro e; have := congrArg List.length e; simp at this; have := hm.a1; omega
    · intro e; have := congrArg List.length e; simp at this; have := hm.b1; omega
    · rw [e1]; have := nu_take_drop (slice ins st.i ni) a; omega
    · rw [e1, e2]; exact hm.nu
    · rw [e1, e2]; exact hm.prod

/-- Slices that can be matched as far as the loop gets. -/
structure Fit (mx my : Int) (xs ys : List Int) : Prop where
  nu : nu xs = nu ys
  le : Lin.nu xs ≤ 1
  prod : Lin.nu xs ≠ 0 → (sub mx xs).prod = (sub my ys).prod

theorem Fit.rest {mx my : Int} (hmx : 1 ≤ mx) (hmy : 1 ≤ my) {xs ys : List Int} {a b : Nat} (px : Pos xs) (h : Fit mx my xs ys) (hm : Matched mx my xs ys a b) :
    Fit mx my (xs.drop a) (ys.drop b) := by
  have h1 := nu_take_drop xs a
  have h2 := nu_take_drop ys b
  refine ⟨by have := h.nu; have := hm.nu; omega, by have := h.le; omega, fun hne => ?_⟩
  have h3 := h.prod (by omega)
  rw [sub_take_drop mx xs a, sub_take_drop my ys b, ← hm.prod] at h3
  have := sub_pos hmx (px.take a)
  exact Int.eq_of_mul_eq_mul_left (by omega) h3

/-- Slices with as many elements. -/
structure Bal (mx my : Int) (xs ys : List Int) : Prop where
  nu : nu xs = nu ys
  prod : (sub mx xs).prod = (sub my ys).prod

theorem Bal.static {mx my : Int} {xs ys : List Int} (h : Bal mx my xs ys) (hz : Lin.nu xs = 0) : Lin.nu ys = 0 ∧ xs.prod = ys.prod := by
  have h1 := h.nu
  have h2 := h.prod
  rw [sub_static mx hz, sub_static my (by omega)] at h2
  exact ⟨by omega, h2⟩

theorem Bal.rest {mx my : Int} (hmx : 1 ≤ mx) {xs ys : List Int} {a b : Nat} (px : Pos xs) (h : Bal mx my xs ys) (hm : Matched mx my xs ys a b) :
    Bal mx my (xs.drop a) (ys.drop b) := by
  have h1 := nu_take_drop xs a
  have h2 := nu_take_drop ys b
  have h3 := h.prod
  refine ⟨by have := h.nu; have := hm.nu; omega, ?_⟩
  rw [sub_take_drop mx xs a, sub_take_drop my ys b, ← hm.prod] at h3
  have := sub_pos hmx (px.take a)
  exact Int.eq_of_mul_eq_mul_left (by omega) h3

theorem matched_all {mx my : Int} {xs ys : List Int} {a b : Nat} (h : mapAll xs ys = some (a, b)) (hf : Fit mx my xs ys) : Matched mx my xs ys a b := by
  obtain ⟨h1, h2, h3, h4, h5⟩ := mapAll_spec h
  refine ⟨h3, h4, by omega, by omega, ?_, ?_⟩
  · rw [h1, h2, List.take_length, List.take_length]; exact hf.nu
  · rw [h1, h2, List.take_length, List.take_length]
    by_cases hz : nu xs = 0
    · have hz' : nu ys = 0 := by rw [← hf.nu]; exact hz
      rw [sub_static mx hz, sub_static my hz', h5 hz hz']
    · exact hf.prod hz

theorem glue (l : List Int) (i n : Nat) (h : i ≤ n) : l.take i ++ slice l i n ++ l.drop n = l := by
  have : l.drop n = (l.drop i).drop (n - i) := by rw [List.drop_drop]; congr 1; omega
  rw [this, List.append_assoc]
  unfold slice
  rw [List.take_append_drop, List.take_append_drop]

theorem viewInner_spec {mx my : Int} (hmx : 1 ≤ mx) (hmy : 1 ≤ my) {ins outs : List Int} (px : Pos ins) (py : Pos outs) {ni no : Nat}
    (hni : ni ≤ ins.length) (hno : no ≤ outs.length) : ∀ (fuel : Nat) (assumed : Bool) (st : ViewState), Inv mx my ins outs st → st.i ≤ ni → st.o ≤ no →
    Fit mx my (slice ins st.i ni) (slice outs st.o no) →
    (viewInner mx my ni no fuel assumed st = .unmatched ∧
      ¬(Bal mx my (slice ins st.i ni) (slice outs st.o no) ∧ ni - st.i ≤ fuel ∧ (assumed = true → nu (slice ins st.i ni) = 0))) ∨
    ∃ st', viewInner mx my ni no fuel assumed st = .ok st' ∧ Inv mx my ins outs st' ∧ st'.i ≤ ni ∧ st'.o ≤ no ∧ st.i ≤ st'.i ∧ st.o ≤ st'.o ∧
      ¬(st'.i < ni ∧ st'.o < no) ∧
      (Bal mx my (slice ins st.i ni) (slice outs st.o no) → Bal mx my (slice ins st'.i ni) (slice outs st'.o no)) := by
  intro fuel
  induction fuel with
  | zero =>
    intro assumed st h hi ho hf
    unfold viewInner
    by_cases hc : ¬(st.i < ni ∧ st.o < no)
    · rw [if_pos hc]
      exact Or.inr ⟨st, rfl, h, hi, ho, Nat.le_refl _, Nat.le_refl _, hc, fun h => h⟩
    · rw [if_neg hc]
      exact Or.inl ⟨rfl, by omega⟩
  | succ fuel ih =>
    intro assumed st h hi ho hf
    unfold viewInner
    by_cases hc : ¬(st.i < ni ∧ st.o < no)
    · rw [if_pos hc]
      exact Or.inr ⟨st, rfl, h, hi, ho, Nat.le_refl _, Nat.le_refl _, hc, fun h => h⟩
    · rw [if_neg hc]
      dsimp only
      rw [h.ins, h.outs]
      have ex : (ins.drop st.i).take (ni - st.i) = slice ins st.i ni := rfl
      have ey : (outs.drop st.o).take (no - st.o) = slice outs st.o no := rfl
      rw [ex, ey]
      have sx : slice ins st.i ni ≠ [] := by
        intro e
        have := congrArg List.length e
        rw [slice_length _ _ _ hni] at this
        simp at this
        omega
      have sy : slice outs st.o no ≠ [] := by
        intro e
        have := congrArg List.length e
        rw [slice_length _ _ _ hno] at this
        simp at this
        omega
      have first : nu (slice ins st.i ni) = 0 → (slice ins st.i ni).getD 0 0 ≠ unknown := by
        intro hz e
        cases hs : slice ins st.i ni with
        | nil => exact sx hs
        | cons s l =>
          rw [hs] at e hz
          simp at e
          rw [nu_cons, if_pos e] at hz
          omega
      by_cases ha : assumed = true ∧ (slice ins st.i ni).length = 1 ∧ (slice outs st.o no).length ≠ 1 ∧ (slice ins st.i ni).getD 0 0 = unknown
      · rw [if_pos ha]
        exact Or.inl ⟨rfl, fun hb => first (hb.2.2 ha.1) ha.2.2.2⟩
      · rw [if_neg ha]
        -- a turn that makes a group
        have turn : ∀ (as : Bool) (a b : Nat), Matched mx my (slice ins st.i ni) (slice outs st.o no) a b →
            ((assumed = true → nu (slice ins st.i ni) = 0) → as = true → nu (slice ins (st.i + a) ni) = 0) →
            (viewInner mx my ni no fuel as (st.group a b) = .unmatched ∧
              ¬(Bal mx my (slice ins st.i ni) (slice outs st.o no) ∧ ni - st.i ≤ fuel + 1 ∧ (assumed = true → nu (slice ins st.i ni) = 0))) ∨
            ∃ st', viewInner mx my ni no fuel as (st.group a b) = .ok st' ∧ Inv mx my ins outs st' ∧ st'.i ≤ ni ∧ st'.o ≤ no ∧ st.i ≤ st'.i ∧ st.o ≤ st'.o ∧
              ¬(st'.i < ni ∧ st'.o < no) ∧
              (Bal mx my (slice ins st.i ni) (slice outs st.o no) → Bal mx my (slice ins st'.i ni) (slice outs st'.o no)) := by
          intro as a b hm has
          obtain ⟨g1, g2, g3⟩ := h.group hni hno hi ho hf.le hm
          have r1 := hf.rest hmx hmy (slice_pos px _ _) hm
          rw [slice_drop, slice_drop] at r1
          have r2 : Bal mx my (slice ins st.i ni) (slice outs st.o no) → Bal mx my (slice ins (st.i + a) ni) (slice outs (st.o + b) no) := by
            intro hb
            have := hb.rest hmx (slice_pos px _ _) hm
            rwa [slice_drop, slice_drop] at this
          rcases ih as (st.group a b) g1 g2 g3 r1 with ⟨e, hn⟩ | ⟨st', e, h1, h2, h3, h4, h5, h6, h7⟩
          · refine Or.inl ⟨e, fun hb => hn ⟨r2 hb.1, ?_, has hb.2.2⟩⟩
            have := hm.a1
            show ni - (st.i + a) ≤ fuel
            omega
          · refine Or.inr ⟨st', e, h1, h2, h3, ?_, ?_, h6, fun hb => h7 (r2 hb)⟩
            · exact Nat.le_trans (Nat.le_add_right st.i a) h4
            · exact Nat.le_trans (Nat.le_add_right st.o b) h5
        have less : ∀ a, nu (slice ins st.i ni) = 0 → nu (slice ins (st.i + a) ni) = 0 := by
          intro a hz
          have := nu_take_drop (slice ins st.i ni) a
          rw [slice_drop] at this
          omega
        cases hA : mapAll (slice ins st.i ni) (slice outs st.o no) with
        | some p =>
          obtain ⟨a, b⟩ := p
          dsimp only
          rw [adjustSlices_eq hf.nu]
          dsimp only
          rw [glue _ _ _ hi, glue _ _ _ ho]
          have est : ({ st with ins := ins, outs := outs } : ViewState) = st := by
            rw [← h.ins, ← h.outs]
          have := turn assumed a b (matched_all hA hf) (fun h1 h2 => less a (h1 h2))
          rw [show ({ ins := ins, outs := outs, i := st.i, o := st.o, inA := st.inA, outA := st.outA, checks := st.checks } : ViewState) = st from est]
          exact this
        | none =>
          dsimp only
          cases hS : mapStatic (slice ins st.i ni) (slice outs st.o no) with
          | some p =>
            obtain ⟨a, b⟩ := p
            exact turn assumed a b (mapStatic_spec mx my hS) (fun h1 h2 => less a (h1 h2))
          | none =>
            dsimp only
            cases hP : mapParallel (slice ins st.i ni) (slice outs st.o no) mx my with
            | some p =>
              obtain ⟨a, b⟩ := p
              exact turn true a b (mapParallel_spec hP) (fun _ _ => by
                have h1 := mapParallel_uses hP hS
                have h2 := nu_take_drop (slice ins st.i ni) a
                rw [slice_drop] at h2
                have := hf.le
                omega)
            | none =>
              dsimp only
              by_cases hu : (slice ins st.i ni).getD 0 0 = unknown
              · exfalso
                have hz : nu (slice ins st.i ni) ≠ 0 := fun hz => first hz hu
                obtain ⟨a, b, e⟩ := mapParallel_complete hmx hmy (slice_pos px st.i ni) (slice_pos py st.o no) hf.le hf.nu sx sy (hf.prod hz)
                rw [e] at hP
                cases hP
              · rw [if_neg hu]
                refine Or.inl ⟨rfl, fun hb => ?_⟩
                by_cases hz : nu (slice ins st.i ni) = 0
                · obtain ⟨hz', hpr⟩ := hb.1.static hz
                  obtain ⟨a, b, e⟩ := mapStatic_complete (slice_pos px st.i ni) (slice_pos py st.o no) hz hz' sx sy hpr
                  rw [e] at hS
                  cases hS
                · obtain ⟨a, b, e⟩ := mapParallel_complete hmx hmy (slice_pos px st.i ni) (slice_pos py st.o no) hf.le hf.nu sx sy (hf.prod hz)
                  rw [e] at hP
                  cases hP

/-! ## Dimensions of size one -/

theorem pushLast_snoc (G : List (List Nat)) (g : List Nat) (d : Nat) : pushLast (G ++ [g]) d = G ++ [g ++ [d]] := by
  unfold pushLast
  rw [show (G ++ [g]).length - 1 = G.length by simp, modify_at]

theorem absorb_spec (shape : List Int) (next : Nat) : ∀ (fuel d : Nat) (G : List (List Nat)) (g : List Nat) (d' : Nat) (g' : List (List Nat)),
    absorb shape next fuel d (G ++ [g]) = some (d', g') →
    ∃ k, d' = d + k ∧ g' = G ++ [g ++ List.range' d k] ∧ (∀ e, d ≤ e → e < d + k → e ≠ next → shape.getD e 0 = 1) ∧
      ¬(d' ≤ next ∧ d' < shape.length) ∧ (k = 0 ∨ (d' ≤ next + 1 ∧ d' ≤ shape.length)) := by
  intro fuel
  induction fuel with
  | zero =>
    intro d G g d' g' h
    unfold absorb at h
    by_cases hc : ¬(d ≤ next ∧ d < shape.length)
    · rw [if_pos hc] at h
      cases h
      exact ⟨0, rfl, by simp, by omega, hc, Or.inl rfl⟩
    · rw [if_neg hc] at h; cases h
  | succ fuel ih =>
    intro d G g d' g' h
    unfold absorb at h
    by_cases hc : ¬(d ≤ next ∧ d < shape.length)
    · rw [if_pos hc] at h
      cases h
      exact ⟨0, rfl, by simp, by omega, hc, Or.inl rfl⟩
    · rw [if_neg hc] at h
      dsimp only at h
      by_cases ho : d ≠ next ∧ shape.getD d 0 ≠ 1
      · rw [if_pos ho] at h; cases h
      · rw [if_neg ho, pushLast_snoc] at h
        obtain ⟨k, h1, h2, h3, h4, h5⟩ := ih _ _ _ _ _ h
        refine ⟨k + 1, by omega, ?_, ?_, h4, Or.inr (by omega)⟩
        · rw [h2, List.append_assoc, List.range'_succ]
          rfl
        · intro e h6 h7 h8
          by_cases he : e = d
          · subst he
            exact Classical.byContradiction fun hne => ho ⟨h8, hne⟩
          · exact h3 e (by omega) (by omega) h8

theorem absorb_complete (shape : List Int) (next : Nat) : ∀ (fuel d : Nat) (g : List (List Nat)),
    (∀ e, d ≤ e → e < shape.length → e ≠ next → shape.getD e 0 = 1) → shape.length - d ≤ fuel → ∃ r, absorb shape next fuel d g = some r := by
  intro fuel
  induction fuel with
  | zero =>
    intro d g h1 h2
    unfold absorb
    rw [if_pos (by omega)]
    exact ⟨_, rfl⟩
  | succ fuel ih =>
    intro d g h1 h2
    unfold absorb
    by_cases hc : ¬(d ≤ next ∧ d < shape.length)
    · rw [if_pos hc]; exact ⟨_, rfl⟩
    · rw [if_neg hc]
      dsimp only
      rw [if_neg (fun ho => ho.2 (h1 d (Nat.le_refl _) (by omega) ho.1))]
      exact ih _ _ (fun e a b c => h1 e (by omega) b c) (by omega)

theorem prod_one_ones : ∀ {l : List Int}, Pos l → nu l = 0 → l.prod = 1 → ∀ x ∈ l, x = 1 := by
  intro l
  induction l with
  | nil => intro _ _ _ x hx; cases hx
  | cons a l ih =>
    intro hp hn h x hx
    rw [nu_cons] at hn
    have ha : a ≠ unknown := by
      intro ha
      rw [if_pos ha] at hn
      omega
    rw [if_neg ha] at hn
    have h1 := (hp a (by simp)).resolve_left ha
    have h2 := nu_pos_prod (by omega) hp.tail
    rw [List.prod_cons] at h
    have h3 : a * 1 ≤ a * l.prod := Int.mul_le_mul_of_nonneg_left h2 (by omega)
    have h4 : 1 * l.prod ≤ a * l.prod := Int.mul_le_mul_of_nonneg_right h1 (by omega)
    rcases List.mem_cons.mp hx with rfl | hx
    · omega
    · exact ih hp.tail (by omega) (by omega) x hx

theorem slice_ones {l : List Int} {i n : Nat} (hn : n ≤ l.length) (hp : Pos l) (h0 : nu (slice l i n) = 0) (h1 : (slice l i n).prod = 1) :
    ∀ e, i ≤ e → e < n → l.getD e 0 = 1 := by
  intro e he hen
  refine prod_one_ones (slice_pos hp i n) h0 h1 _ ?_
  unfold slice
  apply List.mem_iff_getElem.mpr
  refine ⟨e - i, by simp; omega, ?_⟩
  simp [List.getD_eq_getElem?_getD, (by omega : e < l.length), (by omega : i + (e - i) = e)]

theorem snoc_of_ne {α : Type} {l : List α} (h : l ≠ []) : ∃ a b, l = a ++ [b] := ⟨l.dropLast, l.getLast h, (List.dropLast_append_getLast h).symm⟩

theorem forall2_unsnoc {α β : Type} {R : α → β → Prop} : ∀ {A : List α} {B : List β} {a : α} {b : β}, List.Forall₂ R (A ++ [a]) (B ++ [b]) →
    List.Forall₂ R A B ∧ R a b := by
  intro A
  induction A with
  | nil =>
    intro B a b h
    cases B with
    | nil => cases h with | cons h1 _ => exact ⟨List.Forall₂.nil, h1⟩
    | cons c B =>
      cases h with
      | cons h1 h2 => have := h2.length_eq; simp at this
  | cons x A ih =>
    intro B a b h
    cases B with
    | nil =>
      cases h with
      | cons h1 h2 => have := h2.length_eq; simp at this
    | cons c B =>
      cases h with
      | cons h1 h2 =>
        obtain ⟨a1, a2⟩ := ih h2
        exact ⟨List.Forall₂.cons h1 a1, a2⟩

theorem flatten_snoc (G : List (List Nat)) (g e : List Nat) : (G ++ [g ++ e]).flatten = (G ++ [g]).flatten ++ e := by
  simp

/-- The last turn of the outer loop. -/
theorem viewOuter_end {mx my : Int} (hmx : 1 ≤ mx) (hmy : 1 ≤ my) {ins outs : List Int} (px : Pos ins) (py : Pos outs) {st : ViewState} (h : Inv mx my ins outs st)
    (hi : st.i ≤ ins.length) (ho : st.o ≤ outs.length) (hf : Fit mx my (slice ins st.i ins.length) (slice outs st.o outs.length))
    (hg : (st.i < ins.length ∧ st.o < outs.length) ∨ st.inA ≠ []) :
    (viewOuter mx my st (ins.length, outs.length) = .unmatched ∧ ¬ Bal mx my (slice ins st.i ins.length) (slice outs st.o outs.length)) ∨
    ∃ st', viewOuter mx my st (ins.length, outs.length) = .ok st' ∧ Inv mx my ins outs st' ∧ st'.i = ins.length ∧ st'.o = outs.length := by
  unfold viewOuter
  dsimp only
  rw [h.ins]
  rcases viewInner_spec hmx hmy px py (Nat.le_refl _) (Nat.le_refl _) ins.length false st h hi ho hf with ⟨e, hn⟩ | ⟨s, e, hs, h2, h3, h4, h5, h6, h7⟩
  · rw [e]
    exact Or.inl ⟨rfl, fun hb => hn ⟨hb, by omega, by simp⟩⟩
  · rw [e]
    dsimp only [Outcome.bind]
    rw [if_neg (by rw [hs.ins]; simp)]
    have hne : s.inA ≠ [] := by
      intro hnil
      have hflat := hs.i
      have hout : s.outA = [] := by
        have := hs.groups
        rw [hnil] at this
        exact List.eq_nil_of_length_eq_zero this.length_eq.symm
      have hflat2 := hs.o
      rw [hnil] at hflat
      rw [hout] at hflat2
      have z1 : s.i = 0 := by have := congrArg List.length hflat; simpa using this.symm
      have z2 : s.o = 0 := by have := congrArg List.length hflat2; simpa using this.symm
      rcases hg with hg | hg
      · omega
      · -- the groups so far are still there
        apply hg
        have : st.i = 0 := by omega
        have hfl := h.i
        rw [this] at hfl
        have gs := h.groups
        cases hin : st.inA with
        | nil => rfl
        | cons g G =>
          exfalso
          rw [hin] at gs hfl
          obtain ⟨b, B, g1, _, _⟩ := List.forall₂_cons_left_iff.mp gs
          have := g1.nx
          simp at hfl
          exact this hfl.1
    obtain ⟨G, g, eG⟩ := snoc_of_ne hne
    have hne2 : s.outA ≠ [] := by
      intro hnil
      have := hs.groups.length_eq
      rw [eG, hnil] at this
      simp at this
    obtain ⟨G', g', eG'⟩ := snoc_of_ne hne2
    rw [hs.ins, hs.outs]
    have hones : Bal mx my (slice ins st.i ins.length) (slice outs st.o outs.length) →
        (∀ e, s.i ≤ e → e < ins.length → ins.getD e 0 = 1) ∧ (∀ e, s.o ≤ e → e < outs.length → outs.getD e 0 = 1) := by
      intro hb
      have hb := h7 hb
      have hz : nu (slice ins s.i ins.length) = 0 := by
        by_cases hh : s.i < ins.length
        · have : slice outs s.o outs.length = [] := by
            apply List.eq_nil_of_length_eq_zero
            rw [slice_length _ _ _ (Nat.le_refl _)]
            omega
          rw [hb.nu, this]
          rfl
        · have : slice ins s.i ins.length = [] := by
            apply List.eq_nil_of_length_eq_zero
            rw [slice_length _ _ _ (Nat.le_refl _)]
            omega
          rw [this]
          rfl
      obtain ⟨hz', hpr⟩ := hb.static hz
      have key : (slice ins s.i ins.length).prod = 1 := by
        by_cases hh : s.i < ins.length
        · have : slice outs s.o outs.length = [] := by
            apply List.eq_nil_of_length_eq_zero
            rw [slice_length _ _ _ (Nat.le_refl _)]
            omega
          rw [hpr, this]
          rfl
        · have : slice ins s.i ins.length = [] := by
            apply List.eq_nil_of_length_eq_zero
            rw [slice_length _ _ _ (Nat.le_refl _)]
            omega
          rw [this]
          rfl
      exact ⟨slice_ones (Nat.le_refl _) px hz key, slice_ones (Nat.le_refl _) py hz' (by rw [← hpr]; exact key)⟩
    cases hA : absorb ins ins.length ins.length s.i s.inA with
    | none =>
      dsimp only
      refine Or.inl ⟨rfl, fun hb => ?_⟩
      obtain ⟨r, hr⟩ := absorb_complete ins ins.length ins.length s.i s.inA (fun e a b _ => (hones hb).1 e a b) (by omega)
      rw [hr] at hA
      cases hA
    | some p =>
      obtain ⟨i', inA'⟩ := p
      dsimp only
      cases hB : absorb outs outs.length outs.length s.o s.outA with
      | none =>
        dsimp only
        refine Or.inl ⟨rfl, fun hb => ?_⟩
        obtain ⟨r, hr⟩ := absorb_complete outs outs.length outs.length s.o s.outA (fun e a b _ => (hones hb).2 e a b) (by omega)
        rw [hr] at hB
        cases hB
      | some p =>
        obtain ⟨o', outA'⟩ := p
        dsimp only
        rw [eG] at hA
        rw [eG'] at hB
        obtain ⟨k, a1, a2, a3, a4, a5⟩ := absorb_spec _ _ _ _ _ _ _ _ hA
        obtain ⟨l, b1, b2, b3, b4, b5⟩ := absorb_spec _ _ _ _ _ _ _ _ hB
        have hi' : i' = ins.length := by omega
        have ho' : o' = outs.length := by omega
        refine Or.inr ⟨_, rfl, ⟨rfl, rfl, hs.checks, ?_, ?_, ?_⟩, hi', ho'⟩
        · show inA'.flatten = List.range i'
          rw [a2, flatten_snoc, ← eG, hs.i, range_add, ← a1]
        · show outA'.flatten = List.range o'
          rw [b2, flatten_snoc, ← eG', hs.o, range_add, ← b1]
        · show List.Forall₂ _ inA' outA'
          have gs := hs.groups
          rw [eG, eG'] at gs
          obtain ⟨g1, g2⟩ := forall2_unsnoc gs
          rw [a2, b2]
          refine forall2_snoc g1 (g2.extend ?_ ?_)
          · intro d hd
            rw [List.mem_range'_1] at hd
            exact a3 d hd.1 hd.2 (by omega)
          · intro d hd
            rw [List.mem_range'_1] at hd
            exact b3 d hd.1 hd.2 (by omega)

/-- A turn up to the unknown dimensions, if these are known to be equal. -/
theorem viewOuter_mid {ins outs : List Int} (px : Pos ins) (py : Pos outs) {st : ViewState} (h : Inv 1 1 ins outs st) {u v : Nat}
    (hu : u < ins.length) (hv : v < outs.length) (hui : ins.getD u 0 = unknown) (hvo : outs.getD v 0 = unknown) (hi : st.i ≤ u) (ho : st.o ≤ v)
    (hx : nu (slice ins st.i u) = 0) (hy : nu (slice outs st.o v) = 0) :
    viewOuter 1 1 st (u, v) = .unmatched ∨
    ∃ st', viewOuter 1 1 st (u, v) = .ok st' ∧ Inv 1 1 ins outs st' ∧ st'.i = u + 1 ∧ st'.o = v + 1 ∧ st'.inA ≠ [] := by
  unfold viewOuter
  dsimp only
  rw [h.ins]
  rcases viewInner_spec (by omega) (by omega) px py (Nat.le_of_lt hu) (Nat.le_of_lt hv) ins.length false st h hi ho ⟨by omega, by omega, by omega⟩ with
    ⟨e, hn⟩ | ⟨s, e, hs, h2, h3, h4, h5, h6, h7⟩
  · rw [e]
    exact Or.inl rfl
  · rw [e]
    dsimp only [Outcome.bind]
    rw [if_pos (by rw [hs.ins]; omega)]
    dsimp only
    rw [hs.ins, hs.outs]
    cases hA : absorb ins u ins.length s.i (s.inA ++ [[]]) with
    | none => exact Or.inl rfl
    | some p =>
      obtain ⟨i', inA'⟩ := p
      dsimp only
      cases hB : absorb outs v outs.length s.o (s.outA ++ [[]]) with
      | none => exact Or.inl rfl
      | some p =>
        obtain ⟨o', outA'⟩ := p
        dsimp only
        obtain ⟨k, a1, a2, a3, a4, a5⟩ := absorb_spec _ _ _ _ _ _ _ _ hA
        obtain ⟨l, b1, b2, b3, b4, b5⟩ := absorb_spec _ _ _ _ _ _ _ _ hB
        have hi' : i' = u + 1 := by omega
        have ho' : o' = v + 1 := by omega
        have hgood : ∀ {l : List Int} {w j k : Nat}, l.getD w 0 = unknown → j ≤ w → j + k = w + 1 → (∀ e, j ≤ e → e < j + k → e ≠ w → l.getD e 0 = 1) →
            nu (at_ l (List.range' j k)) = 1 ∧ (sub 1 (at_ l (List.range' j k))).prod = 1 := by
          intro l w j k hw hj hk hone
          have hk' : k = (w - j) + 1 := by omega
          subst hk'
          obtain ⟨c, d⟩ := ones_spec (l := l) 1 (g := List.range' j (w - j)) (fun e he => by
            rw [List.mem_range'_1] at he
            exact hone e he.1 (by omega) (by omega))
          have es : List.range' j (w - j + 1) = List.range' j (w - j) ++ [w] := by
            rw [List.range'_1_concat, show j + (w - j) = w by omega]
          have ew : at_ l [w] = [unknown] := by show [l.getD w 0] = _; rw [hw]
          rw [es, at_append, nu_append, c, ew, sub_append, List.prod_append, d]
          exact ⟨by decide, by decide⟩
        obtain ⟨c1, c2⟩ := hgood hui (by omega) (by omega) a3
        obtain ⟨d1, d2⟩ := hgood hvo (by omega) (by omega) b3
        refine Or.inr ⟨_, rfl, ⟨rfl, rfl, hs.checks, ?_, ?_, ?_⟩, hi', ho', ?_⟩
        · show inA'.flatten = List.range i'
          rw [a2, flatten_snoc, a1, ← range_add, ← hs.i]
          simp
        · show outA'.flatten = List.range o'
          rw [b2, flatten_snoc, b1, ← range_add, ← hs.o]
          simp
        · show List.Forall₂ _ inA' outA'
          rw [a2, b2]
          refine forall2_snoc hs.groups ⟨?_, ?_, ?_, ?_, ?_⟩
          · intro hnil; have := congrArg List.length hnil; simp at this; omega
          · intro hnil; have := congrArg List.length hnil; simp at this; omega
          · rw [List.nil_append, c1]
          · rw [List.nil_append, List.nil_append, c1, d1]
          · rw [List.nil_append, List.nil_append, c2, d2]
        · show inA' ≠ []
          rw [a2]
          simp

end Verif.Lin
