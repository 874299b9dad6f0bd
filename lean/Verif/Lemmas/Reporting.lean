import Verif.Spec.Reporting

/-! # The comparison of values agrees with the specification -/

namespace Verif.Report

theorem bare_eq_unwrap (v : Val) : bare v = unwrap v := by
  cases v with
  | tuple l => match l with
    | [] => rfl
    | [x] => rfl
    | x :: y :: r => simp [bare, unwrap]
  | _ => rfl

theorem number_eq_asInt (v : Val) : number v = asInt v := by
  cases v with
  | bool b => cases b <;> rfl
  | _ => rfl

theorem checkers_eq (l : List Val) : checkers l = l.map fun g v => check (unwrap g) (unwrap v) := by
  induction l with
  | nil => rfl
  | cons g gs ih =>
    rw [List.map_cons, ← ih]
    match g with
    | .tuple [] => rfl
    | .tuple [x] => rfl
    | .tuple (x :: y :: r) => rfl
    | .float _ | .int _ | .bool _ | .str _ | .list _ | .dict _ | .tensor _ | .other _ => rfl

theorem fieldCheckers_eq (d : List (String × Val)) :
    fieldCheckers d = d.map fun e => (e.1, fun v => check (unwrap e.2) (unwrap v)) := by
  induction d with
  | nil => rfl
  | cons e es ih =>
    rw [List.map_cons, ← ih]
    match e with
    | (k, .tuple []) => rfl
    | (k, .tuple [x]) => rfl
    | (k, .tuple (x :: y :: r)) => rfl
    | (k, .float _) | (k, .int _) | (k, .bool _) | (k, .str _) | (k, .list _) | (k, .dict _)
    | (k, .tensor _) | (k, .other _) => rfl

theorem dictGet_map {α β : Type} (f : α → β) (d : List (String × α)) (k : String) :
    dictGet (d.map fun e => (e.1, f e.2)) k = (dictGet d k).map f := by
  induction d with
  | nil => rfl
  | cons e d ih =>
    obtain ⟨a, b⟩ := e
    simp only [List.map_cons, dictGet]
    split
    · rfl
    · exact ih

theorem dictGet_of_mem_keys {α : Type} {d : List (String × α)} {k : String}
    (h : k ∈ d.map Prod.fst) : ∃ v, dictGet d k = some v := by
  induction d with
  | nil => simp at h
  | cons e d ih =>
    obtain ⟨a, b⟩ := e
    unfold dictGet
    by_cases e : a = k
    · exact ⟨b, by simp [e]⟩
    · simp only [e, if_false]
      apply ih
      simpa [Ne.symm e] using h

theorem mem_keys_of_dictGet {α : Type} {d : List (String × α)} {k : String} {v : α}
    (h : dictGet d k = some v) : k ∈ d.map Prod.fst :=
  List.mem_map.mpr ⟨(k, v), dictGet_mem h, rfl⟩

theorem sortedKeys_pairwise {ν : Type} (d : List (String × ν)) :
    (sortedKeys d).Pairwise (fun a b => a ≤ b) := by
  have := sortBy_pairwise (le := fun a b : String => decide (a ≤ b))
    (fun a b c h1 h2 => by
      simp only [decide_eq_true_eq] at h1 h2 ⊢
      exact String.le_trans h1 h2)
    (fun a b => by
      simp only [Bool.or_eq_true, decide_eq_true_eq]
      exact String.le_total a b) (d.map (·.1))
  exact this.imp (fun h => by simpa using h)

theorem sortedKeys_eq_iff {α β : Type} {d : List (String × α)} {e : List (String × β)}
    (hd : (d.map Prod.fst).Nodup) (he : (e.map Prod.fst).Nodup) :
    sortedKeys d = sortedKeys e ↔ ∀ k, k ∈ e.map Prod.fst ↔ k ∈ d.map Prod.fst := by
  have p1 : (sortedKeys d).Perm (d.map Prod.fst) := sortBy_perm _
  have p2 : (sortedKeys e).Perm (e.map Prod.fst) := sortBy_perm _
  constructor
  · intro h k
    rw [← p1.mem_iff, ← p2.mem_iff, h]
  · intro h
    apply List.Perm.eq_of_pairwise (le := fun a b => a ≤ b) (fun a b _ _ => String.le_antisymm)
      (sortedKeys_pairwise d) (sortedKeys_pairwise e)
    refine p1.trans (List.Perm.trans ?_ p2.symm)
    rw [List.perm_ext_iff_of_nodup hd he]
    intro k
    exact (h k).symm

theorem rat_div_le {x b t : Rat} (h : 0 < b) : ¬ (t < x / b) ↔ x ≤ t * b := by
  rw [Rat.lt_div_iff h, Rat.not_lt]

theorem abs_mul_pos (t g : Rat) (h : 0 ≤ t) : (t * g).abs = t * g.abs := by
  by_cases hg : 0 ≤ g
  · rw [Rat.abs_of_nonneg hg, Rat.abs_of_nonneg (Rat.mul_nonneg h hg)]
  · have hg' : g ≤ 0 := by grind
    have h2 : t * g ≤ 0 := by
      have := Rat.mul_nonneg h (show 0 ≤ -g by grind)
      grind
    rw [Rat.abs_of_nonpos hg', Rat.abs_of_nonpos h2]
    grind

theorem isClose_iff (v g : Fl) : isClose v g = true ↔ ElemClose v g := by
  unfold ElemClose
  cases v <;> cases g <;> simp only [isClose]
  all_goals try (simp; done)
  case fin.fin a b =>
    rw [decide_eq_true_eq, abs_mul_pos _ _ (by decide +kernel)]
    constructor
    · intro h; exact Or.inr ⟨a, b, rfl, rfl, h⟩
    · rintro (h | ⟨a', b', h1, h2, h3⟩)
      · cases h
        have e : (a - a).abs = 0 := by rw [show a - a = 0 by grind]; rfl
        rw [e]
        have := @Rat.abs_nonneg a
        grind
      · cases h1; cases h2; exact h3

theorem allClose_iff (t u : Tensor) :
    allClose t u = true ↔ ∀ i : Nat, i < u.shape.foldr (· * ·) 1 → ElemClose (t.elem i) (u.elem i) := by
  unfold allClose Tensor.numel
  simp only [List.all_eq_true, List.mem_range, isClose_iff]

theorem checkFloat_iff {g : Fl} (hg : Positive g) {v : Val} (hv : Floats (· ≠ .nan) v)
    (c : List Ctx) : checkFloat g v c = .ok [] ↔ Same v (.float g) := by
  obtain ⟨b, rfl, hb⟩ := hg
  have hb0 : b ≠ 0 := by grind
  have hnn : ¬ b < 0 := by grind
  cases v with
  | float x =>
    cases hv with
    | float hx =>
      have key : checkFloat (.fin b) (.float x) c = .ok [] ↔ FloatClose x (.fin b) := by
        unfold checkFloat floatFar FloatClose
        cases x with
        | nan => exact absurd rfl hx
        | inf n => cases n <;> simp [Fl.sub, Fl.abs, Fl.div, Fl.gt, hb0, hnn, bind, Except.bind]
        | fin a =>
          simp only [Fl.sub, Fl.abs, Fl.div, Fl.gt, hb0, if_false, bind, Except.bind]
          have e : b.abs = b := Rat.abs_of_nonneg (by grind)
          have k := @rat_div_le (a - b).abs b (1 / 10000) hb
          by_cases h : (1 / 10000 : Rat) < (a - b).abs / b
          · simp only [h, decide_true, if_true]
            constructor
            · intro h'; simp at h'
            · rintro (h' | ⟨a', b', h1, h2, h3⟩)
              · cases h'
                have e0 : (b - b).abs = 0 := by rw [show b - b = 0 by grind]; rfl
                rw [e0] at h
                have := (@rat_div_le 0 b (1 / 10000) hb).mpr (by grind)
                exact absurd h this
              · cases h1; cases h2
                rw [e] at h3
                exact absurd h (k.mpr h3)
          · simp only [h, decide_false]
            refine ⟨fun _ => Or.inr ⟨a, b, rfl, rfl, ?_⟩, fun _ => rfl⟩
            rw [e]; exact k.mp h
      rw [key]
      constructor
      · intro h; exact .float h
      · intro h
        cases h with
        | float h => exact h
        | int h1 h2 => cases h2
  | _ =>
    simp only [checkFloat]
    constructor
    · intro h; simp at h
    · intro h
      cases h with
      | int h1 h2 => cases h2

theorem checkInt_iff {g : Val} {n : Int} (hg : number g = some n) (v : Val) (c : List Ctx) :
    checkInt n v c = .ok [] ↔ Same v g := by
  unfold checkInt
  rw [← number_eq_asInt]
  have hgc : (∀ x, g ≠ .float x) ∧ (∀ x, g ≠ .str x) ∧ (∀ x, g ≠ .tuple x) ∧ (∀ x, g ≠ .list x) ∧
      (∀ x, g ≠ .dict x) ∧ (∀ x, g ≠ .tensor x) := by
    refine ⟨?_, ?_, ?_, ?_, ?_, ?_⟩ <;> (rintro x rfl; cases hg)
  have inv : Same v g → number v = some n := by
    intro h
    cases h with
    | int h1 h2 => rw [hg] at h2; cases h2; exact h1
    | float h => cases hg
    | str s => cases hg
    | tuple h1 h2 => cases hg
    | list h1 h2 => cases hg
    | dict h1 h2 => cases hg
    | tensor h1 h2 h3 => cases hg
  cases hv : number v with
  | none =>
    simp only
    constructor
    · intro h; simp at h
    · intro h; rw [inv h] at hv; cases hv
  | some m =>
    simp only
    by_cases e : m = n
    · subst e; simp only [if_true, true_iff]; exact .int hv hg
    · simp only [e, if_false]
      constructor
      · intro h; simp at h
      · intro h; rw [inv h] at hv; cases hv; exact absurd rfl e

theorem checkItems_iff (link : Nat → Ctx) (c : List Ctx) (i : Nat) (vs : List Val)
    (fs : List Checker) :
    checkItems link c i vs fs = .ok [] ↔
      ∀ (j : Nat) (v : Val) (f : Checker), vs[j]? = some v → fs[j]? = some f →
        f v (c ++ [link (i + j)]) = .ok [] := by
  induction vs generalizing i fs with
  | nil => simp [checkItems]
  | cons v vs ih =>
    cases fs with
    | nil => simp [checkItems]
    | cons f fs =>
      unfold checkItems
      rw [bind_ok]
      constructor
      · rintro ⟨r, hr, h⟩
        rw [bind_ok] at h
        obtain ⟨rs, hrs, h⟩ := h
        have := Except.ok.inj h
        rw [List.append_eq_nil_iff] at this
        obtain ⟨rfl, rfl⟩ := this
        intro j v' f' h1 h2
        cases j with
        | zero => cases h1; cases h2; exact hr
        | succ j =>
          have := (ih (i + 1) fs).mp hrs j v' f' (by simpa using h1) (by simpa using h2)
          rwa [show i + 1 + j = i + (j + 1) by omega] at this
      · intro h
        refine ⟨[], h 0 v f rfl rfl, ?_⟩
        rw [bind_ok]
        refine ⟨[], (ih (i + 1) fs).mpr ?_, rfl⟩
        intro j v' f' h1 h2
        have := h (j + 1) v' f' (by simpa using h1) (by simpa using h2)
        rwa [show i + (j + 1) = i + 1 + j by omega] at this

theorem flatten_eq_nil {α : Type} (l : List (List α)) : l.flatten = [] ↔ ∀ x ∈ l, x = [] := by
  simp

theorem pyMap_flatten_nil {α : Type} (f : α → Py (List Reason)) (l : List α) :
    (∃ rs, pyMap f l = .ok rs ∧ rs.flatten = []) ↔ ∀ x ∈ l, f x = .ok [] := by
  constructor
  · rintro ⟨rs, h, he⟩ x hx
    rw [flatten_eq_nil] at he
    obtain ⟨hl, h⟩ := pyMap_ok_iff.mp h
    obtain ⟨i, hi, rfl⟩ := List.getElem_of_mem hx
    have := h i hi (by omega)
    rw [this, he _ (List.getElem_mem _)]
  · intro h
    refine ⟨l.map fun _ => [], ?_, by simp⟩
    rw [pyMap_ok_iff]
    refine ⟨by simp, fun i h1 h2 => ?_⟩
    rw [h _ (List.getElem_mem _)]
    simp

theorem Floats.unwrap {p : Fl → Prop} {v : Val} (h : Floats p v) : Floats p (unwrap v) := by
  unfold Report.unwrap
  split
  · cases h with
    | tuple h => exact h _ (by simp)
  · exact h

theorem sizeOf_unwrap (v : Val) : sizeOf (unwrap v) ≤ sizeOf v := by
  unfold unwrap
  split
  · simp; omega
  · exact Nat.le_refl _

theorem check_iff_lt (n : Nat) : ∀ (g v : Val) (c : List Ctx), sizeOf g < n →
    Floats Positive g → Floats (· ≠ .nan) v → (check g v c = .ok [] ↔ Same v g) := by
  induction n with
  | zero => intro g v c h; omega
  | succ n ih =>
  intro g v c hn hg hv
  have items : ∀ (l : List Val) (link : Nat → Ctx) (vs : List Val), (∀ x ∈ l, sizeOf x < sizeOf g) →
      (∀ x ∈ l, Floats Positive x) → (∀ x ∈ vs, Floats (· ≠ .nan) x) →
      (checkItems link c 0 vs (checkers l) = .ok [] ↔
        ∀ (i : Nat) (v g : Val), vs[i]? = some v → l[i]? = some g → Same (bare v) (bare g)) := by
    intro l link vs hs h1 h2
    rw [checkItems_iff, checkers_eq]
    constructor
    · intro h i v' g' e1 e2
      have := h i v' _ e1 (by rw [List.getElem?_map, e2]; rfl)
      have m1 := List.mem_of_getElem? e1
      have m2 := List.mem_of_getElem? e2
      have : sizeOf (Report.unwrap g') < sizeOf g := Nat.lt_of_le_of_lt (sizeOf_unwrap _) (hs _ m2)
      rw [bare_eq_unwrap, bare_eq_unwrap]
      exact (ih (Report.unwrap g') _ _ (by omega) (h1 _ m2).unwrap (h2 _ m1).unwrap).mp (by assumption)
    · intro h i v' f' e1 e2
      rw [List.getElem?_map, Option.map_eq_some_iff] at e2
      obtain ⟨g', e2, rfl⟩ := e2
      have m1 := List.mem_of_getElem? e1
      have m2 := List.mem_of_getElem? e2
      have : sizeOf (Report.unwrap g') < sizeOf g := Nat.lt_of_le_of_lt (sizeOf_unwrap _) (hs _ m2)
      have hh := h i v' g' e1 e2
      rw [bare_eq_unwrap, bare_eq_unwrap] at hh
      exact (ih (Report.unwrap g') _ _ (by omega) (h1 _ m2).unwrap (h2 _ m1).unwrap).mpr hh
  match g, hg, hn with
  | .float x, hg, hn =>
    cases hg with
    | float hx => exact checkFloat_iff hx hv c
  | .int n, _, _ => exact checkInt_iff rfl v c
  | .bool b, _, _ => exact checkInt_iff (by cases b <;> rfl) v c
  | .str s, _, _ =>
    show checkStr s v c = .ok [] ↔ _
    cases v with
    | str t =>
      simp only [checkStr]
      by_cases e : t = s
      · subst e; simp only [if_true, true_iff]; exact .str t
      · simp only [e, if_false]
        constructor
        · intro h; simp at h
        · intro h
          cases h with
          | str => exact absurd rfl e
          | int h1 h2 => cases h2
    | _ =>
      simp only [checkStr]
      constructor
      · intro h; simp at h
      · intro h
        cases h with
        | int h1 h2 => cases h2
  | .tuple l, hg, hn =>
    show checkTuple (checkers l) v c = .ok [] ↔ _
    cases v with
    | tuple vs =>
      have hl : (checkers l).length = l.length := by rw [checkers_eq]; simp
      simp only [checkTuple, hl]
      have hgl : ∀ x ∈ l, Floats Positive x := by cases hg with | tuple h => exact h
      have hvl : ∀ x ∈ vs, Floats (· ≠ .nan) x := by cases hv with | tuple h => exact h
      by_cases e : vs.length = l.length
      · simp only [e, ne_eq, not_true, if_false]
        rw [items l .tupleElement vs (fun x hx => by
          have := List.sizeOf_lt_of_mem hx
          simp; omega) hgl hvl]
        constructor
        · intro h; exact .tuple e h
        · intro h
          cases h with
          | tuple h1 h2 => exact h2
          | int h1 h2 => cases h2
      · simp only [e, ne_eq, not_false_iff, if_true]
        constructor
        · intro h; simp at h
        · intro h
          cases h with
          | tuple h1 h2 => exact absurd h1 e
          | int h1 h2 => cases h2
    | _ =>
      simp only [checkTuple]
      constructor
      · intro h; simp at h
      · intro h
        cases h with
        | int h1 h2 => cases h2
  | .list l, hg, hn =>
    show checkList (checkers l) v c = .ok [] ↔ _
    cases v with
    | list vs =>
      have hl : (checkers l).length = l.length := by rw [checkers_eq]; simp
      simp only [checkList, hl]
      have hgl : ∀ x ∈ l, Floats Positive x := by cases hg with | list h => exact h
      have hvl : ∀ x ∈ vs, Floats (· ≠ .nan) x := by cases hv with | list h => exact h
      by_cases e : vs.length = l.length
      · simp only [e, ne_eq, not_true, if_false]
        rw [items l .listElement vs (fun x hx => by
          have := List.sizeOf_lt_of_mem hx
          simp; omega) hgl hvl]
        constructor
        · intro h; exact .list e h
        · intro h
          cases h with
          | list h1 h2 => exact h2
          | int h1 h2 => cases h2
      · simp only [e, ne_eq, not_false_iff, if_true]
        constructor
        · intro h; simp at h
        · intro h
          cases h with
          | list h1 h2 => exact absurd h1 e
          | int h1 h2 => cases h2
    | _ =>
      simp only [checkList]
      constructor
      · intro h; simp at h
      · intro h
        cases h with
        | int h1 h2 => cases h2
  | .dict d, hg, hn =>
    show checkDict (fieldCheckers d) v c = .ok [] ↔ _
    cases v with
    | dict vd =>
      cases hg with
      | dict hgn hgf =>
      cases hv with
      | dict hvn hvf =>
      have ek : (fieldCheckers d).map Prod.fst = d.map Prod.fst := by
        rw [fieldCheckers_eq, List.map_map]; rfl
      have hks := sortedKeys_eq_iff (d := fieldCheckers d) (e := vd) (by rw [ek]; exact hgn) hvn
      rw [ek] at hks
      simp only [checkDict]
      by_cases e : sortedKeys (fieldCheckers d) = sortedKeys vd
      · simp only [e, ne_eq, not_true, if_false]
        have hk := hks.mp e
        have hp : ∀ k, k ∈ sortedKeys vd ↔ k ∈ d.map Prod.fst := by
          intro k
          rw [← hk k]
          exact (sortBy_perm (le := fun a b : String => decide (a ≤ b)) (vd.map Prod.fst)).mem_iff
        have e1 : (do
            let rs ← pyMap (checkKey vd (fieldCheckers d) c) (sortedKeys vd)
            .ok rs.flatten : Py (List Reason)) = .ok [] ↔
            ∀ k ∈ sortedKeys vd, checkKey vd (fieldCheckers d) c k = .ok [] := by
          rw [bind_ok, ← pyMap_flatten_nil]
          constructor
          · rintro ⟨rs, h1, h2⟩; exact ⟨rs, h1, Except.ok.inj h2⟩
          · rintro ⟨rs, h1, h2⟩; exact ⟨rs, h1, by rw [h2]⟩
        rw [e1]
        have e2 : ∀ (k : String) (v' g' : Val), dictGet vd k = some v' → dictGet d k = some g' →
            (checkKey vd (fieldCheckers d) c k = .ok [] ↔ Same (bare v') (bare g')) := by
          intro k v' g' h1 h2
          have e3 : dictGet (fieldCheckers d) k =
              some (fun v => check (Report.unwrap g') (Report.unwrap v)) := by
            rw [fieldCheckers_eq,
              dictGet_map (fun (x : Val) (v : Val) => check (Report.unwrap x) (Report.unwrap v)), h2]
            rfl
          have m2 := dictGet_mem h2
          have m1 := dictGet_mem h1
          have : sizeOf (Report.unwrap g') < sizeOf (Val.dict d) := by
            have h3 := sizeOf_unwrap g'
            have h4 := List.sizeOf_lt_of_mem m2
            have h5 : sizeOf ((k, g') : String × Val) = 1 + sizeOf k + sizeOf g' := rfl
            simp; omega
          have := ih (Report.unwrap g') (Report.unwrap v') (c ++ [.dictElement k]) (by omega)
            (Floats.unwrap (hgf (k, g') m2)) (Floats.unwrap (hvf (k, v') m1))
          rw [bare_eq_unwrap, bare_eq_unwrap, ← this]
          unfold checkKey lookup
          rw [h1, e3]
          rfl
        constructor
        · intro h
          refine .dict hk ?_
          intro k v' g' h1 h2
          exact (e2 k v' g' h1 h2).mp (h k ((hp k).mpr (mem_keys_of_dictGet h2)))
        · intro h
          cases h with
          | int h1 h2 => cases h2
          | dict h1 h2 =>
            intro k hk'
            obtain ⟨g', hg'⟩ := dictGet_of_mem_keys ((hp k).mp hk')
            obtain ⟨v', hv'⟩ := dictGet_of_mem_keys ((hk k).mpr ((hp k).mp hk'))
            exact (e2 k v' g' hv' hg').mpr (h2 k v' g' hv' hg')
      · simp only [e, ne_eq, not_false_iff, if_true]
        constructor
        · intro h; simp at h
        · intro h
          cases h with
          | dict h1 h2 => exact absurd (hks.mpr h1) e
          | int h1 h2 => cases h2
    | _ =>
      simp only [checkDict]
      constructor
      · intro h; simp at h
      · intro h
        cases h with
        | int h1 h2 => cases h2
  | .tensor u, _, _ =>
    show checkTensor u v c = .ok [] ↔ _
    cases v with
    | tensor t =>
      simp only [checkTensor]
      have inv : Same (.tensor t) (.tensor u) ↔ t.shape = u.shape ∧ t.dtype = u.dtype ∧
          allClose t u = true := by
        rw [allClose_iff]
        constructor
        · intro h
          cases h with
          | tensor h1 h2 h3 => exact ⟨h1, h2, h3⟩
          | int h1 h2 => cases h2
        · rintro ⟨h1, h2, h3⟩; exact .tensor h1 h2 h3
      rw [inv]
      by_cases h1 : t.shape = u.shape
      · by_cases h2 : t.dtype = u.dtype
        · by_cases h3 : allClose t u = true
          · simp [h1, h2, h3]
          · simp [h1, h2, h3]
        · simp [h1, h2]
      · simp [h1]
    | _ =>
      simp only [checkTensor]
      constructor
      · intro h; simp at h
      · intro h
        cases h with
        | int h1 h2 => cases h2
  | .other k, _, _ =>
    show (.ok [⟨c, .unexpectedGolden⟩] : Py (List Reason)) = .ok [] ↔ _
    constructor
    · intro h; simp at h
    · intro h
      cases h with
      | int h1 h2 => cases h2

/-- For values whose floats can be compared, no failure reason means agreement, and conversely. -/
theorem check_iff (g v : Val) (c : List Ctx) (hg : Floats Positive g) (hv : Floats (· ≠ .nan) v) :
    check g v c = .ok [] ↔ Same v g :=
  check_iff_lt (sizeOf g + 1) g v c (by omega) hg hv

theorem valueReport_iff {v g : Val} (c : List Ctx) (hg : Floats Positive g)
    (hv : Floats (· ≠ .nan) v) : valueReport v g c = .ok [] ↔ Agree v g := by
  unfold valueReport Agree
  rw [bare_eq_unwrap, bare_eq_unwrap]
  exact check_iff _ _ _ hg.unwrap hv.unwrap

end Verif.Report
