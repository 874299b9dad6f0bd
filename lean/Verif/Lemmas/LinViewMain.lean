import Verif.Lemmas.LinViewFinish
import Mathlib.Tactic.Ring

namespace Verif.Lin

variable {E : Type}

/-! ## The outer loop -/

theorem getD_left {a b : List Int} {d : Nat} (h : d < a.length) : (a ++ b).getD d 0 = a.getD d 0 := by
  rw [List.getD_eq_getElem?_getD, List.getD_eq_getElem?_getD, List.getElem?_append_left h]

theorem getD_right {a b : List Int} {d : Nat} (h : a.length ≤ d) : (a ++ b).getD d 0 = b.getD (d - a.length) 0 := by
  rw [List.getD_eq_getElem?_getD, List.getD_eq_getElem?_getD, List.getElem?_append_right h]

theorem nu_split {l : List Int} (h : nu l = 1) : ∃ a b, l = a ++ unknown :: b ∧ nu a = 0 ∧ nu b = 0 := by
  obtain ⟨a, b, e⟩ := List.append_of_mem (mem_nu (by omega : nu l ≠ 0))
  refine ⟨a, b, e, ?_, ?_⟩ <;> (rw [e, nu_append, nu_cons, if_pos rfl] at h; omega)

theorem nu_getD {l : List Int} (h : nu l = 0) (d : Nat) : l.getD d 0 ≠ unknown := by
  rw [List.getD_eq_getElem?_getD]
  cases hd : l[d]? with
  | none => decide
  | some n =>
    intro e
    have e : n = unknown := e
    exact nu_mem (e ▸ List.mem_of_getElem? hd) h

/-- The body of the loop of `unchangedDims`. -/
def unchangedStep (equal : Prop) [Decidable equal] (outs : List Int) (u : Nat) (p : ViewSize × Nat) : Option (Nat × Nat) :=
  match p.1 with
  | .sizeOf d => some (d, p.2)
  | _ => if equal ∧ outs.getD p.2 0 = unknown then some (u, p.2) else none

theorem unchangedDims_eq (ins outs : List Int) (size : List ViewSize) :
    unchangedDims ins outs size = size.zipIdx.filterMap (unchangedStep (ins.count unknown = 1 ∧ outs.count unknown = 1 ∧ ins.prod = outs.prod) outs (ins.idxOf unknown)) ++
      [(ins.length, outs.length)] := rfl

theorem step_none {equal : Prop} [Decidable equal] {outs : List Int} {u : Nat} {p : ViewSize × Nat} (h : ∀ d, p.1 ≠ .sizeOf d)
    (hn : ¬(equal ∧ outs.getD p.2 0 = unknown)) : unchangedStep equal outs u p = none := by
  obtain ⟨s, o⟩ := p
  cases s with
  | sizeOf d => exact absurd rfl (h d)
  | const n => exact if_neg hn
  | other v => exact if_neg hn

theorem unchanged_none {ins outs : List Int} {size : List ViewSize} (hs : NoSizeOf size)
    (h : ¬(ins.count unknown = 1 ∧ outs.count unknown = 1 ∧ ins.prod = outs.prod)) : unchangedDims ins outs size = [(ins.length, outs.length)] := by
  rw [unchangedDims_eq]
  have : size.zipIdx.filterMap (unchangedStep (ins.count unknown = 1 ∧ outs.count unknown = 1 ∧ ins.prod = outs.prod) outs (ins.idxOf unknown)) = [] := by
    rw [List.filterMap_eq_nil_iff]
    intro p hp
    exact step_none (hs p.1 (List.fst_mem_of_mem_zipIdx hp)) fun hh => h hh.1
  rw [this]
  rfl

theorem unchanged_one {ins outs a b : List Int} {size : List ViewSize} (hs : NoSizeOf size) (hl : size.length = outs.length)
    (h : ins.count unknown = 1 ∧ outs.count unknown = 1 ∧ ins.prod = outs.prod) (e : outs = a ++ unknown :: b) (ha : nu a = 0) (hb : nu b = 0) :
    unchangedDims ins outs size = [(ins.idxOf unknown, a.length), (ins.length, outs.length)] := by
  rw [unchangedDims_eq]
  have hget : ∀ d, outs.getD d 0 = unknown → d = a.length := by
    intro d hd
    by_cases h1 : d < a.length
    · rw [e, getD_left h1] at hd
      exact absurd hd (nu_getD ha d)
    · by_cases h2 : d = a.length
      · exact h2
      · rw [e, getD_right (by omega), show d - a.length = (d - a.length - 1) + 1 by omega, List.getD_cons_succ] at hd
        exact absurd hd (nu_getD hb _)
  have hget' : outs.getD a.length 0 = unknown := by
    rw [e, getD_right (Nat.le_refl _)]
    simp
  have hlt : a.length < size.length := by rw [hl, e]; simp
  have esz : size = size.take a.length ++ size[a.length] :: size.drop (a.length + 1) := by
    rw [← List.drop_eq_getElem_cons hlt, List.take_append_drop]
  have : size.zipIdx.filterMap (unchangedStep (ins.count unknown = 1 ∧ outs.count unknown = 1 ∧ ins.prod = outs.prod) outs (ins.idxOf unknown)) =
      [(ins.idxOf unknown, a.length)] := by
    rw [esz, List.zipIdx_append, List.filterMap_append, List.zipIdx_cons, List.filterMap_cons]
    have hsl : size[a.length] ∈ size := List.getElem_mem hlt
    have hlen : (size.take a.length).length = a.length := by simp; omega
    have l1 : (size.take a.length).zipIdx.filterMap (unchangedStep (ins.count unknown = 1 ∧ outs.count unknown = 1 ∧ ins.prod = outs.prod) outs (ins.idxOf unknown)) = [] := by
      rw [List.filterMap_eq_nil_iff]
      intro p hp
      refine step_none (hs p.1 (List.mem_of_mem_take (List.fst_mem_of_mem_zipIdx hp))) fun hh => ?_
      have h1 := hget _ hh.2
      have := List.snd_lt_of_mem_zipIdx hp
      omega
    have l2 : ((size.drop (a.length + 1)).zipIdx (0 + (size.take a.length).length + 1)).filterMap
        (unchangedStep (ins.count unknown = 1 ∧ outs.count unknown = 1 ∧ ins.prod = outs.prod) outs (ins.idxOf unknown)) = [] := by
      rw [List.filterMap_eq_nil_iff]
      intro p hp
      refine step_none (hs p.1 (List.mem_of_mem_drop (List.fst_mem_of_mem_zipIdx hp))) fun hh => ?_
      have h1 := hget _ hh.2
      have := List.le_snd_of_mem_zipIdx hp
      omega
    have l3 : unchangedStep (ins.count unknown = 1 ∧ outs.count unknown = 1 ∧ ins.prod = outs.prod) outs (ins.idxOf unknown)
        (size[a.length], 0 + (size.take a.length).length) = some (ins.idxOf unknown, a.length) := by
      have hne := hs _ hsl
      generalize size[a.length] = s at hne
      rw [hlen, Nat.zero_add]
      cases s with
      | sizeOf d => exact absurd rfl (hne d)
      | const n => exact if_pos ⟨h, hget'⟩
      | other v => exact if_pos ⟨h, hget'⟩
    rw [l1, l2, l3]
    rfl
  rw [this]
  rfl

theorem slice_all (l : List Int) : slice l 0 l.length = l := by
  unfold slice
  simp

theorem viewOuters_spec {mx my : Int} (hmx : 1 ≤ mx) (hmy : 1 ≤ my) {ins outs : List Int} (px : Pos ins) (py : Pos outs) (hx : ins ≠ []) (hy : outs ≠ [])
    {size : List ViewSize} (hs : NoSizeOf size) (hl : size.length = outs.length) (hn : nu ins = nu outs) (hn1 : nu ins ≤ 1)
    (hp : (sub mx ins).prod = (sub my outs).prod) (heq : nu ins ≠ 0 → ins.prod = outs.prod → mx = 1 ∧ my = 1) :
    (viewOuters mx my ⟨ins, outs, 0, 0, [], [], []⟩ (unchangedDims ins outs size) = .unmatched ∧ nu ins ≠ 0 ∧ ins.prod = outs.prod) ∨
    ∃ st, viewOuters mx my ⟨ins, outs, 0, 0, [], [], []⟩ (unchangedDims ins outs size) = .ok st ∧ Inv mx my ins outs st ∧ st.i = ins.length ∧ st.o = outs.length := by
  have h0 : Inv mx my ins outs ⟨ins, outs, 0, 0, [], [], []⟩ := ⟨rfl, rfl, rfl, rfl, rfl, List.Forall₂.nil⟩
  have lx := List.length_pos_iff.mpr hx
  have ly := List.length_pos_iff.mpr hy
  by_cases he : ins.count unknown = 1 ∧ outs.count unknown = 1 ∧ ins.prod = outs.prod
  · have hz : nu ins ≠ 0 := by have := he.1; unfold nu; omega
    obtain ⟨e1, e2⟩ := heq hz he.2.2
    subst e1 e2
    obtain ⟨a, b, eo, ha, hb⟩ := nu_split (l := outs) he.2.1
    obtain ⟨c, d, ei, hc, hd⟩ := nu_split (l := ins) he.1
    have hidx : ins.idxOf unknown = c.length := by
      rw [ei, List.idxOf_append_of_notMem (fun hm => nu_mem hm hc)]
      simp
    rw [unchanged_one hs hl he eo ha hb, hidx]
    have hcl : c.length < ins.length := by rw [ei]; simp
    have hal : a.length < outs.length := by rw [eo]; simp
    have sl : ∀ (p q : List Int), slice (p ++ unknown :: q) 0 p.length = p ∧ slice (p ++ unknown :: q) (p.length + 1) (p ++ unknown :: q).length = q := by
      intro p q
      refine ⟨by unfold slice; simp, ?_⟩
      unfold slice
      rw [List.drop_append, List.drop_eq_nil_of_le (by omega), show p.length + 1 - p.length = 1 by omega, List.nil_append, List.drop_succ_cons, List.drop_zero,
        List.take_of_length_le (by simp; omega)]
    have gt : ∀ (p q : List Int), (p ++ unknown :: q).getD p.length 0 = unknown := by
      intro p q
      rw [getD_right (Nat.le_refl _)]
      simp
    have nb : nu ins ≠ 0 ∧ ins.prod = outs.prod := ⟨hz, he.2.2⟩
    rcases viewOuter_mid px py h0 hcl hal (by rw [ei]; exact gt c d) (by rw [eo]; exact gt a b) (Nat.zero_le _) (Nat.zero_le _)
      (by show nu (slice ins 0 c.length) = 0; rw [ei, (sl c d).1]; exact hc) (by show nu (slice outs 0 a.length) = 0; rw [eo, (sl a b).1]; exact ha) with
      e | ⟨st, e, h1, h2, h3, h4⟩
    · left
      refine ⟨?_, nb⟩
      rw [viewOuters, e]
      rfl
    · have f1 : nu (slice ins st.i ins.length) = 0 := by rw [h2, ei, (sl c d).2]; exact hd
      have f2 : nu (slice outs st.o outs.length) = 0 := by rw [h3, eo, (sl a b).2]; exact hb
      rcases viewOuter_end hmx hmy px py h1 (by omega) (by omega) ⟨by omega, by omega, by omega⟩ (Or.inr h4) with ⟨e', _⟩ | ⟨st', e', g1, g2, g3⟩
      · left
        refine ⟨?_, nb⟩
        rw [viewOuters, e]
        show viewOuters 1 1 st [(ins.length, outs.length)] = _
        rw [viewOuters, e']
        rfl
      · right
        refine ⟨st', ?_, g1, g2, g3⟩
        rw [viewOuters, e]
        show viewOuters 1 1 st [(ins.length, outs.length)] = _
        rw [viewOuters, e']
        rfl
  · rw [unchanged_none hs he]
    have := viewOuter_end hmx hmy px py h0 (Nat.zero_le _) (Nat.zero_le _)
      (by show Fit mx my (slice ins 0 ins.length) (slice outs 0 outs.length); rw [slice_all, slice_all]; exact ⟨hn, hn1, fun _ => hp⟩) (Or.inl ⟨lx, ly⟩)
    rcases this with ⟨e, hnb⟩ | ⟨st, e, h1, h2, h3⟩
    · left
      exact absurd (by show Bal mx my (slice ins 0 ins.length) (slice outs 0 outs.length); rw [slice_all, slice_all]; exact ⟨hn, hp⟩) hnb
    · right
      refine ⟨st, ?_, h1, h2, h3⟩
      rw [viewOuters, e]
      rfl

/-! ## The sizes the program computes with -/

/-- Sizes known are those of `A`. -/
def Agrees (l A : List Int) : Prop := List.Forall₂ (fun s n => s = unknown ∨ s = n) l A

theorem Agrees.static {l A : List Int} (h : Agrees l A) (hn : nu l = 0) : l = A := by
  induction h with
  | nil => rfl
  | @cons s n l A h1 _ ih =>
    rw [nu_cons] at hn
    by_cases hs : s = unknown
    · rw [if_pos hs] at hn; omega
    · rw [if_neg hs] at hn
      rw [h1.resolve_left hs, ih (by omega)]

theorem Agrees.split {l A : List Int} (h : Agrees l A) (hn : nu l = 1) :
    ∃ a b u, l = a ++ unknown :: b ∧ A = a ++ u :: b ∧ nu a = 0 ∧ nu b = 0 := by
  induction h with
  | nil => simp [nu] at hn
  | @cons s n l A h1 h2 ih =>
    rw [nu_cons] at hn
    by_cases hs : s = unknown
    · rw [if_pos hs] at hn
      refine ⟨[], l, n, by rw [hs]; rfl, ?_, rfl, by omega⟩
      rw [Agrees.static h2 (by omega)]
      rfl
    · rw [if_neg hs] at hn
      obtain ⟨a, b, u, e1, e2, e3, e4⟩ := ih (by omega)
      refine ⟨s :: a, b, u, by rw [e1]; rfl, by rw [← h1.resolve_left hs, e2]; rfl, ?_, e4⟩
      rw [nu_cons, if_neg hs, e3]

theorem Agrees.pos {l A : List Int} (h : Agrees l A) (hA : ∀ n ∈ A, 1 ≤ n) : Pos l := by
  induction h with
  | nil => intro x hx; cases hx
  | @cons s n l A h1 _ ih =>
    intro x hx
    rcases List.mem_cons.mp hx with rfl | hx
    · rcases h1 with h1 | h1
      · exact Or.inl h1
      · right; rw [h1]; exact hA n (by simp)
    · exact ih (fun n hn => hA n (by simp [hn])) x hx

theorem nu_of_pos : ∀ {A : List Int}, (∀ n ∈ A, 1 ≤ n) → nu A = 0 := by
  intro A
  induction A with
  | nil => intro _; rfl
  | cons a A ih =>
    intro h
    have := h a (by simp)
    rw [nu_cons, if_neg (by unfold unknown; omega), ih fun n hn => h n (by simp [hn])]

theorem sub_split (m : Int) (a b : List Int) (ha : nu a = 0) (hb : nu b = 0) : sub m (a ++ unknown :: b) = a ++ m :: b := by
  rw [sub_append, sub_static m ha]
  congr 1
  show m :: sub m b = _
  rw [sub_static m hb]

theorem setUnknown_split (m : Int) : ∀ (a b : List Int), nu a = 0 → setUnknown m (a ++ unknown :: b) = a ++ m :: b := by
  intro a b
  induction a with
  | nil => intro _; exact if_pos rfl
  | cons x a ih =>
    intro h
    rw [nu_cons] at h
    by_cases hx : x = unknown
    · rw [if_pos hx] at h; omega
    · rw [if_neg hx] at h
      show (if x = unknown then _ else x :: setUnknown m (a ++ unknown :: b)) = _
      rw [if_neg hx, ih (by omega)]
      rfl

/-- The one size that is not known is computed. -/
theorem solve {a b : List Int} {u N : Int} (hA : ∀ n ∈ a ++ u :: b, 1 ≤ n) (hp : (a ++ u :: b).prod = N) :
    (a ++ unknown :: b).prod.tdiv unknown ≠ 0 ∧ N.tdiv ((a ++ unknown :: b).prod.tdiv unknown) = u := by
  have ha : 1 ≤ a.prod := (le_prod_of_mem fun n hn => hA n (by simp [hn])).1
  have hb : 1 ≤ b.prod := (le_prod_of_mem fun n hn => hA n (by simp [hn])).1
  have hab := Int.mul_pos (a := a.prod) (b := b.prod) (by omega) (by omega)
  have e : (a ++ unknown :: b).prod.tdiv unknown = a.prod * b.prod := by
    rw [List.prod_append, List.prod_cons]
    have : a.prod * (unknown * b.prod) = (a.prod * b.prod) * unknown := by
      rw [Int.mul_left_comm, Int.mul_comm]
    rw [this, Int.mul_tdiv_cancel _ (by decide)]
  rw [e]
  refine ⟨by omega, ?_⟩
  rw [← hp, List.prod_append, List.prod_cons, Int.mul_left_comm, Int.mul_tdiv_cancel _ (by omega)]

theorem calculateSingle_spec {ins outs A B : List Int} (hi : Agrees ins A) (ho : Agrees outs B) (hA : ∀ n ∈ A, 1 ≤ n) (hB : ∀ n ∈ B, 1 ≤ n)
    (hp : B.prod = A.prod) (hx : ins ≠ []) (hy : outs ≠ []) :
    (nu ins + nu outs ≤ 1 → calculateSingle ins outs = some (A, B)) ∧ (nu ins + nu outs ≠ 1 → calculateSingle ins outs = some (ins, outs)) := by
  have h0 : nu ins + nu outs ≠ 1 → calculateSingle ins outs = some (ins, outs) := by
    intro h
    unfold calculateSingle
    split
    · rfl
    · rw [if_pos (by unfold nu at h; omega)]
  refine ⟨fun h => ?_, h0⟩
  by_cases h1 : nu ins + nu outs = 1
  · unfold calculateSingle
    rw [if_neg (by simp [hx, hy]), if_neg (by unfold nu at h1; omega)]
    by_cases h2 : nu ins = 1
    · rw [if_pos (show ins.count unknown = 1 from h2)]
      obtain ⟨a, b, u, e1, e2, e3, e4⟩ := hi.split h2
      have eo := ho.static (by omega)
      subst e1 e2 eo
      obtain ⟨s1, s2⟩ := solve hA hp.symm
      dsimp only
      rw [if_neg s1, s2, setUnknown_split _ _ _ e3]
    · rw [if_neg (show ¬ ins.count unknown = 1 from h2)]
      obtain ⟨a, b, u, e1, e2, e3, e4⟩ := ho.split (by omega)
      have ei := hi.static (by omega)
      subst e1 e2 ei
      obtain ⟨s1, s2⟩ := solve hB hp
      dsimp only
      rw [if_neg s1, s2, setUnknown_split _ _ _ e3]
  · rw [h0 h1, hi.static (by omega), ho.static (by omega)]

theorem natAbs_prod : ∀ {l : List Int}, Pos l → (l.prod.natAbs : Int) = (sub 1 l).prod := by
  intro l
  induction l with
  | nil => intro _; rfl
  | cons x l ih =>
    intro h
    show _ = ((if x = unknown then 1 else x) :: sub 1 l).prod
    rw [List.prod_cons, List.prod_cons, Int.natAbs_mul, Nat.cast_mul, ih h.tail]
    congr 1
    by_cases hx : x = unknown
    · rw [if_pos hx, hx]; rfl
    · rw [if_neg hx]
      have := (h x (by simp)).resolve_left hx
      omega

theorem multiplier_spec {ins outs A B : List Int} (hi : Agrees ins A) (ho : Agrees outs B) (hA : ∀ n ∈ A, 1 ≤ n) (hB : ∀ n ∈ B, 1 ≤ n)
    (hp : B.prod = A.prod) (hn : nu ins = nu outs) (hn1 : nu ins ≤ 1) :
    ∃ mx my t, getMultiplier ins outs = some (mx, my) ∧ 1 ≤ mx ∧ 1 ≤ my ∧ 1 ≤ t ∧ sub (t * mx) ins = A ∧ sub (t * my) outs = B ∧
      (nu ins ≠ 0 → (sub mx ins).prod = (sub my outs).prod) ∧ (nu ins ≠ 0 → ins.prod = outs.prod → mx = 1 ∧ my = 1) := by
  have px := hi.pos hA
  have py := ho.pos hB
  have ex := natAbs_prod px
  have ey := natAbs_prod py
  have p1 := sub_pos (m := 1) (by omega) px
  have q1 := sub_pos (m := 1) (by omega) py
  generalize hP : ins.prod.natAbs = p at *
  generalize hQ : outs.prod.natAbs = q at *
  have hp0 : 0 < p := by omega
  have hq0 : 0 < q := by omega
  have hg : 0 < Nat.gcd p q := Nat.gcd_pos_of_pos_left q hp0
  obtain ⟨p', ep⟩ := Nat.gcd_dvd_left p q
  obtain ⟨q', eq⟩ := Nat.gcd_dvd_right p q
  have hp' : 0 < p' := by
    rcases Nat.eq_zero_or_pos p' with h | h
    · rw [h, Nat.mul_zero] at ep; omega
    · exact h
  have hq' : 0 < q' := by
    rcases Nat.eq_zero_or_pos q' with h | h
    · rw [h, Nat.mul_zero] at eq; omega
    · exact h
  have dp : p / Nat.gcd p q = p' := Nat.div_eq_of_eq_mul_right hg ep
  have dq : q / Nat.gcd p q = q' := Nat.div_eq_of_eq_mul_right hg eq
  have hm : getMultiplier ins outs = some ((q' : Int), (p' : Int)) := by
    unfold getMultiplier
    dsimp only
    rw [hP, hQ, if_neg (by omega), dp, dq]
  have cop : Nat.Coprime q' p' := by
    have := Nat.coprime_div_gcd_div_gcd hg
    rw [dp, dq] at this
    exact this.symm
  by_cases hz : nu ins = 0
  · refine ⟨q', p', 1, hm, by omega, by omega, by omega, ?_, ?_, fun h => absurd hz h, fun h => absurd hz h⟩
    · rw [sub_static _ hz]; exact hi.static hz
    · rw [sub_static _ (by omega)]; exact ho.static (by omega)
  · obtain ⟨a, b, u, e1, e2, e3, e4⟩ := hi.split (by omega)
    obtain ⟨c, d, v, f1, f2, f3, f4⟩ := ho.split (by omega)
    have hu : 1 ≤ u := hA u (by rw [e2]; simp)
    have hv : 1 ≤ v := hB v (by rw [f2]; simp)
    have sA : ∀ m : Int, (sub m ins).prod = m * p := by
      intro m
      have := sub_mul m 1 ins
      rw [Int.mul_one] at this
      rw [this, ← ex, show nu ins = 1 by omega, pow_one]
    have sB : ∀ m : Int, (sub m outs).prod = m * q := by
      intro m
      have := sub_mul m 1 outs
      rw [Int.mul_one] at this
      rw [this, ← ey, show nu outs = 1 by omega, pow_one]
    have A' : sub u ins = A := by rw [e1, e2, sub_split _ _ _ e3 e4]
    have B' : sub v outs = B := by rw [f1, f2, sub_split _ _ _ f3 f4]
    have hpq : v * (q : Int) = u * p := by rw [← sA, ← sB, A', B', hp]
    obtain ⟨u', rfl⟩ := Int.eq_ofNat_of_zero_le (by omega : 0 ≤ u)
    obtain ⟨v', rfl⟩ := Int.eq_ofNat_of_zero_le (by omega : 0 ≤ v)
    have hpq : v' * q = u' * p := by exact_mod_cast hpq
    have hpq' : v' * q' = u' * p' := by
      have : p.gcd q * (v' * q') = p.gcd q * (u' * p') := by
        calc p.gcd q * (v' * q') = v' * (p.gcd q * q') := by ring
          _ = v' * q := by rw [← eq]
          _ = u' * p := hpq
          _ = u' * (p.gcd q * p') := by rw [← ep]
          _ = p.gcd q * (u' * p') := by ring
      exact Nat.eq_of_mul_eq_mul_left hg this
    have hdvd : q' ∣ u' := cop.dvd_of_dvd_mul_right ⟨v', by rw [← hpq', Nat.mul_comm]⟩
    obtain ⟨t, et⟩ := hdvd
    have ev : v' = t * p' := by
      have : v' * q' = (t * p') * q' := by rw [hpq', et]; ring
      exact Nat.eq_of_mul_eq_mul_right hq' this
    have ht : 0 < t := by
      rcases Nat.eq_zero_or_pos t with h | h
      · rw [h, Nat.mul_zero] at et; omega
      · exact h
    refine ⟨q', p', t, hm, by omega, by omega, by omega, ?_, ?_, fun _ => ?_, fun _ he => ?_⟩
    · rw [← A', et]
      congr 1
      push_cast
      ring
    · rw [← B', ev]
      push_cast
      rfl
    · rw [sA, sB]
      have : q' * p = p' * q := by
        calc q' * p = q' * (p.gcd q * p') := by rw [← ep]
          _ = p' * (p.gcd q * q') := by ring
          _ = p' * q := by rw [← eq]
      exact_mod_cast this
    · have : p = q := by rw [← hP, ← hQ, he]
      subst this
      rw [Nat.gcd_self, Nat.div_self hp0] at dp dq
      subst dp dq
      exact ⟨rfl, rfl⟩

/-! ## The pattern -/

theorem typed_agrees {x : Operand E} (hx : x.Typed) : Agrees (x.type.map (·.getD unknown)) x.tensor.sizes := by
  unfold Agrees
  rw [List.forall₂_iff_get]
  refine ⟨by simpa using hx.1, fun k h1 h2 => ?_⟩
  simp only [List.get_eq_getElem, List.getElem_map]
  simp only [List.length_map] at h1
  cases h : x.type[k] with
  | none => exact Or.inl rfl
  | some n =>
    right
    have := hx.2 k n (by rw [List.getElem?_eq_getElem h1, h])
    rw [List.getElem?_eq_getElem h2] at this
    injection this with this
    exact this.symm

theorem typed_nu {x : Operand E} (hx : x.Typed) (hA : ∀ n ∈ x.tensor.sizes, 1 ≤ n) : nu (x.type.map (·.getD unknown)) = x.type.count none := by
  have key : ∀ (l : List (Option Int)), (∀ n, some n ∈ l → 1 ≤ n) → nu (l.map (·.getD unknown)) = l.count none := by
    intro l
    induction l with
    | nil => intro _; rfl
    | cons o l ih =>
      intro h
      rw [List.map_cons, nu_cons, ih fun n hn => h n (by simp [hn]), List.count_cons]
      cases o with
      | none => simp; omega
      | some n =>
        have := h n (by simp)
        rw [if_neg (by show n ≠ -1; omega)]
        simp
  apply key
  intro n hn
  obtain ⟨k, hk⟩ := List.mem_iff_getElem?.mp hn
  exact hA n (List.mem_of_getElem? (hx.2 k n hk))

theorem known_agrees {ins : List Int} {sizes : List Int} : ∀ {size : List ViewSize} {B : List Int}, NoSizeOf size →
    List.Forall₂ (fun s n => s = n ∨ s = -1) (size.map (·.value sizes)) B → Agrees (size.map (·.known ins)) B := by
  intro size
  induction size with
  | nil => intro B _ h; cases h; exact List.Forall₂.nil
  | cons s size ih =>
    intro B hs h
    cases B with
    | nil => cases h
    | cons b B =>
      rw [List.map_cons, List.forall₂_cons] at h
      refine List.Forall₂.cons ?_ (ih (fun t ht => hs t (by simp [ht])) h.2)
      cases s with
      | sizeOf d => exact absurd rfl (hs _ (by simp) d)
      | other v => exact Or.inl rfl
      | const n =>
        show (if n ≠ -1 then n else unknown) = unknown ∨ (if n ≠ -1 then n else unknown) = b
        by_cases hn : n = -1
        · rw [if_neg (by simpa using hn)]; exact Or.inl rfl
        · rw [if_pos hn]; exact Or.inr (h.1.resolve_right hn)

theorem known_nu {ins : List Int} : ∀ {size : List ViewSize}, NoSizeOf size → nu (size.map (·.known ins)) = size.countP fun s => !s.isNumber := by
  intro size
  induction size with
  | nil => intro _; rfl
  | cons s size ih =>
    intro hs
    rw [List.map_cons, nu_cons, ih fun t ht => hs t (by simp [ht]), List.countP_cons]
    cases s with
    | sizeOf d => exact absurd rfl (hs _ (by simp) d)
    | other v => simp [ViewSize.known, ViewSize.isNumber]; omega
    | const n =>
      show (if (if n ≠ -1 then n else unknown) = unknown then 1 else 0) + _ = _ + if (!decide (n ≠ -1)) = true then 1 else 0
      by_cases hn : n = -1
      · subst hn; simp [unknown]; omega
      · rw [if_pos hn, if_neg (by exact hn), if_neg (by simpa using hn)]; omega

theorem count_infer {sizes : List Int} : ∀ (size : List ViewSize),
    size.countP ViewSize.infers ≤ (size.map (·.value sizes)).count (-1) := by
  intro size
  induction size with
  | nil => simp
  | cons s size ih =>
    rw [List.countP_cons, List.map_cons, List.count_cons]
    cases s with
    | const n =>
      show _ + (if decide (n = -1) = true then 1 else 0) ≤ _ + if (n == -1) = true then 1 else 0
      by_cases hn : n = -1
      · rw [if_pos (by simpa using hn), if_pos (by simpa using hn)]; omega
      · rw [if_neg (by simpa using hn), if_neg (by simpa using hn)]; omega
    | sizeOf d => simp [ViewSize.infers]; omega
    | other v => simp [ViewSize.infers]; omega

theorem all_ones {l : List Int} (h : ∀ n ∈ l, 1 ≤ n) (hp : l.prod = 1) : ∀ n ∈ l, n = 1 :=
  prod_one_ones (fun n hn => Or.inr (h n hn)) (nu_of_pos h) hp

theorem known_prod : ∀ l : List (Option Int), (l.map (·.getD unknown)).prod = (-1) ^ l.count none * (knownSizes l).prod := by
  intro l
  induction l with
  | nil => rfl
  | cons o l ih =>
    unfold knownSizes at ih ⊢
    rw [List.map_cons, List.prod_cons, ih]
    cases o with
    | none =>
      rw [List.count_cons_self, List.filterMap_cons_none rfl, Int.pow_succ]
      show -1 * _ = _
      rw [Int.mul_comm ((-1) ^ _) (-1), Int.mul_assoc]
    | some n =>
      rw [List.count_cons_of_ne (by simp), List.filterMap_cons_some (f := id) (a := some n) (b := n) rfl, List.prod_cons]
      show n * _ = _
      rw [Int.mul_left_comm]

theorem number_prod (ins : List Int) : ∀ {size : List ViewSize}, NoSizeOf size →
    (size.map (·.known ins)).prod = (-1) ^ size.countP (fun s => !s.isNumber) * (numbers size).prod := by
  intro size
  induction size with
  | nil => intro _; rfl
  | cons s size ih =>
    intro hs
    have ih := ih fun t ht => hs t (by simp [ht])
    unfold numbers at ih ⊢
    rw [List.map_cons, List.prod_cons, ih, List.countP_cons]
    cases s with
    | sizeOf d => exact absurd rfl (hs (.sizeOf d) (by simp) d)
    | other v =>
      rw [if_pos (by rfl), List.filterMap_cons_none rfl, Int.pow_succ]
      show -1 * _ = _
      rw [Int.mul_comm ((-1) ^ _) (-1), Int.mul_assoc]
    | const n =>
      by_cases hn : n = -1
      · rw [if_pos (by simp [ViewSize.isNumber, hn]), List.filterMap_cons_none (by simp [hn]), Int.pow_succ]
        show (if n ≠ -1 then n else unknown) * _ = _
        rw [if_neg (by simp [hn]), Int.mul_comm ((-1) ^ _) (-1), Int.mul_assoc]
        rfl
      · rw [if_neg (by simp [ViewSize.isNumber, hn]), List.filterMap_cons_some (by simp [hn]; rfl), List.prod_cons]
        show (if n ≠ -1 then n else unknown) * _ = _
        rw [if_pos (by simp [hn]), Nat.add_zero, Int.mul_left_comm]

theorem lowerView_spec {x : Operand E} (hx : x.Typed) (hA : ∀ n ∈ x.tensor.sizes, 1 ≤ n) {size : List ViewSize} (hs : NoSizeOf size) {target : List Int}
    (hf : Fills (size.map (·.value x.tensor.sizes)) target) (hB : ∀ n ∈ target, 1 ≤ n) (hp : target.prod = x.tensor.sizes.prod) (hb : target.prod < 2 ^ 31)
    {resTy : List (Option Int)} (hr : TypeOf resTy target) (h1 : x.type.count none ≤ 1) (h0 : target = [] → x.type.count none = 0) :
    (lowerView x size resTy = .unmatched ∧ (1 < size.countP (fun s => !s.isNumber) ∨
      (x.type.count none = 1 ∧ size.countP (fun s => !s.isNumber) = 1 ∧ (knownSizes x.type).prod = (numbers size).prod))) ∨ ∃ t, lowerView x size resTy = .ok t ∧ t.sizes = target := by
  have hi := typed_agrees hx
  have ni := typed_nu hx hA
  have ho := known_agrees (ins := x.type.map (·.getD unknown)) hs hf.1
  have no := known_nu (ins := x.type.map (·.getD unknown)) hs
  have kp := known_prod x.type
  have np := number_prod (x.type.map (·.getD unknown)) hs
  have hsl : size.length = target.length := by have := hf.1.length_eq; simpa using this
  unfold lowerView
  dsimp only
  by_cases hz : resTy.length = 0
  · rw [if_pos hz]
    have ht : target = [] := List.eq_nil_of_length_eq_zero (by rw [← hr.1]; exact hz)
    subst ht
    have := all_ones hA (by rw [← hp]; rfl)
    rw [if_pos (by
      rw [hi.static (by rw [ni]; exact h0 rfl), List.all_eq_true]
      intro n hn
      simpa using this n hn)]
    exact Or.inr ⟨_, rfl, rfl⟩
  · rw [if_neg hz]
    have htl : target ≠ [] := by
      rintro rfl
      exact hz hr.1
    by_cases hxz : (x.type.map (·.getD unknown)).length = 0
    · rw [if_pos hxz]
      have hxs : x.tensor.sizes = [] := List.eq_nil_of_length_eq_zero (by rw [← hx.1]; simpa using hxz)
      have h1 := all_ones hB (by rw [hp, hxs]; rfl)
      have : resTy.map (fun _ => (1 : Int)) = target := by
        apply List.ext_getElem (by simp [hr.1])
        intro k a b
        simp only [List.getElem_map]
        exact (h1 _ (List.getElem_mem b)).symm
      rw [this, if_pos (castOk_iff.mpr hr)]
      exact Or.inr ⟨_, rfl, rfl⟩
    · rw [if_neg hxz, if_neg (by rw [hsl, hr.1]; simp), if_neg (by have := count_infer (sizes := x.tensor.sizes) size; have := hf.2; omega)]
      generalize x.type.map (·.getD unknown) = ins at *
      generalize hout : size.map (·.known ins) = outs at *
      have hne : ins ≠ [] := fun h => hxz (by rw [h]; rfl)
      have hol : outs.length = target.length := ho.length_eq
      have hone : outs ≠ [] := by
        rintro rfl
        exact htl (List.eq_nil_of_length_eq_zero hol.symm)
      obtain ⟨c1, c2⟩ := calculateSingle_spec hi ho hA hB hp hne hone
      -- the sizes computed with
      have core : ∀ (is os : List Int), Agrees is x.tensor.sizes → Agrees os target → is ≠ [] → os ≠ [] → nu is = nu os → nu is ≤ 1 →
          calculateSingle ins outs = some (is, os) →
          ((match calculateSingle ins outs with
            | none => (.crash : Outcome (Tensor E))
            | some (ins, outs) =>
              if outs.count unknown > 1 then .unmatched else
              match getMultiplier ins outs with
              | none => .crash
              | some (mx, my) =>
                (viewOuters mx my ⟨ins, outs, 0, 0, [], [], []⟩ (unchangedDims ins outs size)).bind fun st => viewFinish x size resTy st) = .unmatched ∧ nu is ≠ 0 ∧ is.prod = os.prod) ∨
          ∃ t, (match calculateSingle ins outs with
            | none => (.crash : Outcome (Tensor E))
            | some (ins, outs) =>
              if outs.count unknown > 1 then .unmatched else
              match getMultiplier ins outs with
              | none => .crash
              | some (mx, my) =>
                (viewOuters mx my ⟨ins, outs, 0, 0, [], [], []⟩ (unchangedDims ins outs size)).bind fun st => viewFinish x size resTy st) = .ok t ∧ t.sizes = target := by
        intro is os his hos hx0 hy0 hn hn1 e
        obtain ⟨mx, my, t, hm, m1, m2, t1, sA, sB, hpr, heq⟩ := multiplier_spec his hos hA hB hp hn hn1
        rw [e]
        dsimp only
        rw [if_neg (by have : nu os ≤ 1 := (by omega); unfold nu at this; omega), hm]
        dsimp only
        rcases viewOuters_spec m1 m2 (his.pos hA) (hos.pos hB) hx0 hy0 hs (by rw [hos.length_eq, hsl]) hn hn1 (by
            by_cases hz0 : nu is = 0
            · rw [sub_static _ hz0, sub_static _ (by omega), his.static hz0, hos.static (by omega), hp]
            · exact hpr hz0) heq with ⟨e1, hnb⟩ | ⟨st, e1, hI, hi1, ho1⟩
        · rw [e1]
          exact Or.inl ⟨rfl, hnb⟩
        · rw [e1]
          obtain ⟨r, hr1, hr2⟩ := viewFinish_ok (size := size) hI hi1 ho1 (hos.pos hB) t1 m2 sA.symm (by rw [sB]; exact hb) (by rw [sB]; exact hr)
          exact Or.inr ⟨r, hr1, by rw [hr2, sB]⟩
      by_cases hcount : nu ins + nu outs ≤ 1
      · have e := c1 hcount
        have self : ∀ l : List Int, Agrees l l := by
          intro l
          induction l with
          | nil => exact List.Forall₂.nil
          | cons a l ih => exact List.Forall₂.cons (Or.inr rfl) ih
        have zA := nu_of_pos hA
        have zB := nu_of_pos hB
        have hAne : x.tensor.sizes ≠ [] := by
          intro h
          have := hi.length_eq
          rw [h] at this
          exact hne (List.eq_nil_of_length_eq_zero this)
        rcases core _ _ (self _) (self _) hAne htl (by omega) (by omega) e with ⟨_, h⟩ | h
        · exact absurd zA h.1
        · exact Or.inr h
      · have e := c2 (by omega)
        by_cases h2 : nu outs > 1
        · left
          refine ⟨?_, by omega⟩
          rw [e]
          dsimp only
          rw [if_pos (show outs.count unknown > 1 from h2)]
        · rcases core ins outs hi ho hne hone (by omega) (by omega) e with ⟨e', h3, h4⟩ | h
          · have n1 : x.type.count none = 1 := by omega
            have n2 : size.countP (fun s => !s.isNumber) = 1 := by omega
            rw [h4, np, n1, n2, Int.pow_one] at kp
            refine Or.inl ⟨e', Or.inr ⟨n1, n2, ?_⟩⟩
            omega
          · exact Or.inr h

theorem lowerView_sound {x : Operand E} (hx : x.Typed) (hn : ∀ n ∈ x.tensor.sizes, 0 ≤ n) {size : List ViewSize} {resTy : List (Option Int)} {t : Tensor E}
    (h : lowerView x size resTy = .ok t) : IsReshapeOf t x.tensor ∧ TypeOf resTy t.sizes := by
  unfold lowerView at h
  dsimp only at h
  have ones : ∀ {l i : List Int}, (∀ n ∈ l, n = 1) → inRange l i = true → i = l.map fun _ => 0 := by
    intro l
    induction l with
    | nil => intro i _ hi; cases i with
      | nil => rfl
      | cons => simp [inRange] at hi
    | cons n l ih => intro i hl hi; cases i with
      | nil => simp [inRange] at hi
      | cons j i =>
        simp only [inRange, Bool.and_eq_true, decide_eq_true_eq] at hi
        rw [List.map_cons, ← ih (fun n hn => hl n (by simp [hn])) hi.2]
        have := hl n (by simp)
        congr 1
        omega
  have zeros : ∀ {l : List Int}, (∀ n ∈ l, n = 1) → inRange l (l.map fun _ => 0) = true ∧ position l (l.map fun _ => 0) = 0 ∧ l.prod = 1 := by
    intro l
    induction l with
    | nil => intro _; exact ⟨rfl, rfl, rfl⟩
    | cons n l ih =>
      intro hl
      obtain ⟨a, b, c⟩ := ih fun n hn => hl n (by simp [hn])
      have := hl n (by simp)
      refine ⟨by rw [List.map_cons, inRange, a, this]; rfl, by rw [List.map_cons, position, b]; simp, by simp [this, c]⟩
  by_cases hz : resTy.length = 0
  · rw [if_pos hz] at h
    split at h
    · rename_i hall
      injection h with h
      subst h
      have ht : resTy = [] := List.eq_nil_of_length_eq_zero hz
      subst ht
      have hall' : ∀ n ∈ x.type.map (·.getD unknown), n = 1 := by simpa using hall
      have ha := typed_agrees hx
      have hst := ha.static (by
        have : ∀ l : List Int, (∀ n ∈ l, n = 1) → nu l = 0 := by
          intro l h
          exact nu_of_pos fun n hn => by rw [h n hn]
        exact this _ hall')
      rw [hst] at hall' ⊢
      obtain ⟨a, b, c⟩ := zeros hall'
      refine ⟨reshape_of (fun _ => x.tensor.sizes.map fun _ => 0) (by rw [c]; rfl) (by simp) (fun i hi => ⟨a, ?_⟩) (fun i hi => rfl), rfl, by simp⟩
      rw [b]
      cases i <;> rfl
    · cases h
  · rw [if_neg hz] at h
    by_cases hxz : (x.type.map (·.getD unknown)).length = 0
    · rw [if_pos hxz] at h
      have hxs : x.tensor.sizes = [] := List.eq_nil_of_length_eq_zero (by rw [← hx.1]; simpa using hxz)
      split at h
      · rename_i hc
        injection h with h
        subst h
        have hall : ∀ n ∈ resTy.map (fun _ => (1 : Int)), n = 1 := by
          intro n hn
          obtain ⟨_, _, rfl⟩ := List.mem_map.mp hn
          rfl
        obtain ⟨a, b, c⟩ := zeros hall
        refine ⟨reshape_of (fun _ => []) (by rw [hxs]; exact c) (fun n hn => by rw [hall n hn]; decide) (fun i hi => ?_) (fun i hi => rfl), castOk_iff.mp hc⟩
        rw [hxs, ones hall hi]
        exact ⟨rfl, b.symm⟩
      · cases h
    · rw [if_neg hxz] at h
      split at h
      · cases h
      · split at h
        · cases h
        · split at h
          · cases h
          · split at h
            · cases h
            · split at h
              · cases h
              · obtain ⟨st, _, h⟩ := bind_ok h
                exact viewFinish_sound hn h

end Verif.Lin
