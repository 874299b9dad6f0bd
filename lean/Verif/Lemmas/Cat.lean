import Verif.Model.ShapeCat
import Verif.Spec.Cat
import Verif.Lemmas.Dims

/-! # Lemmas about concatenation -/

namespace Verif.Shape

theorem shouldSkip_iff (t : List Int) : shouldSkip t = true ↔ t = [0] := by
  match t with
  | [] => simp [shouldSkip]
  | [x] => simp [shouldSkip, multiplyIntegers]
  | _ :: _ :: _ => simp [shouldSkip]

theorem legacyEmpty_iff (t : List Int) : legacyEmpty t = true ↔ t = [0] := by
  match t with
  | [] => simp [legacyEmpty]
  | [x] => simp [legacyEmpty]
  | _ :: _ :: _ => simp [legacyEmpty]

/-- The tensors that count. -/
def real (ts : List (List Int)) : List (List Int) := ts.filter (· ≠ [0])

theorem real_cons_skip {t : List Int} (ts : List (List Int)) (h : t = [0]) : real (t :: ts) = real ts := by
  unfold real; rw [List.filter_cons_of_neg (by simp [h])]

theorem real_cons {t : List Int} (ts : List (List Int)) (h : t ≠ [0]) : real (t :: ts) = t :: real ts := by
  unfold real; rw [List.filter_cons_of_pos (by simp [h])]

theorem catDim_some (dim w : Int) (ts : List (List Int)) :
    pyFold (catDimStep dim) (some w) ts = .ok (some w) := by
  induction ts with
  | nil => rfl
  | cons t ts ih =>
    simp only [pyFold, catDimStep]
    cases legacyEmpty t <;> simpa using ih

theorem catWrapDim_eq (dim : Int) (ts : List (List Int)) :
    catWrapDim dim ts = match real ts with
      | [] => .ok dim
      | t :: _ => maybeWrapDim dim t.length := by
  unfold catWrapDim
  induction ts with
  | nil => rfl
  | cons t ts ih =>
    by_cases h : t = [0]
    · rw [real_cons_skip ts h, ← ih]
      simp only [pyFold, catDimStep, (legacyEmpty_iff t).mpr h, if_true]
    · rw [real_cons ts h]
      have : legacyEmpty t = false := by
        rw [Bool.eq_false_iff]; exact fun h' => h ((legacyEmpty_iff t).mp h')
      simp only [pyFold, catDimStep, this, Bool.false_eq_true, if_false]
      cases maybeWrapDim dim t.length with
      | error e => rfl
      | ok w => simp only [catDim_some]

theorem notSkipped_eq (ts : List (List Int)) (acc : Option (List Int)) :
    ts.foldl notSkippedStep acc = (real ts).getLast?.or acc := by
  induction ts generalizing acc with
  | nil => rfl
  | cons t ts ih =>
    rw [List.foldl_cons, ih]
    unfold notSkippedStep
    by_cases h : t = [0]
    · rw [real_cons_skip ts h, if_pos ((shouldSkip_iff t).mpr h)]
    · rw [real_cons ts h, if_neg (fun h' => h ((shouldSkip_iff t).mp h')), List.getLast?_cons]
      cases (real ts).getLast? <;> simp

theorem sameExceptB_iff (d : Nat) (a b : List Int) (hl : a.length = b.length) :
    sameExceptB d a b = true ↔ ∀ i, i ≠ d → a[i]? = b[i]? := by
  unfold sameExceptB
  simp only [List.all_eq_true, List.mem_range, Bool.or_eq_true, decide_eq_true_eq, beq_iff_eq]
  constructor
  · intro h i hi
    by_cases hlt : i < a.length
    · rcases h i hlt with h | h
      · exact absurd (Int.ofNat.inj h) hi
      · exact h
    · rw [List.getElem?_eq_none (by omega), List.getElem?_eq_none (by omega)]
  · intro h i _
    by_cases hi : i = d
    · left; rw [hi]
    · right; exact h i hi

theorem catFold_iff (last : List Int) (d : Nat) (ts : List (List Int)) (acc s : Int) :
    pyFold (catStep last d) acc ts = .ok s ↔
      (∀ t ∈ real ts, SameExcept d last t ∧ d < t.length) ∧
      s = acc + ((real ts).map (fun t => t.getD d 0)).sum := by
  induction ts generalizing acc with
  | nil => simp [pyFold, real, eq_comm]
  | cons t ts ih =>
    by_cases h : t = [0]
    · simp only [pyFold, catStep, (shouldSkip_iff t).mpr h, if_true, real_cons_skip ts h, ih]
    · have hs : shouldSkip t = false := by
        rw [Bool.eq_false_iff]; exact fun h' => h ((shouldSkip_iff t).mp h')
      simp only [pyFold, catStep, hs, Bool.false_eq_true, if_false, real_cons ts h]
      by_cases hl : last.length = t.length
      · rw [if_neg (by simpa using hl)]
        by_cases hb : sameExceptB d last t = true
        · rw [if_pos hb]
          have hse := (sameExceptB_iff d last t hl).mp hb
          by_cases hd : d < t.length
          · have hg : pyGet t (d : Int) = .ok (t.getD d 0) := by
              rw [pyGet_nonneg t d hd]
              simp [hd]
            simp only [hg, ih]
            simp only [List.mem_cons, forall_eq_or_imp, List.map_cons, List.sum_cons]
            constructor
            · rintro ⟨h1, h2⟩
              exact ⟨⟨⟨⟨hl, hse⟩, hd⟩, h1⟩, by omega⟩
            · rintro ⟨⟨_, h1⟩, h2⟩
              exact ⟨h1, by omega⟩
          · have hg : pyGet t (d : Int) = .error .indexError := by
              unfold pyGet
              have : ¬ ((d : Int) < 0) := by omega
              simp [this, hd]
            simp only [hg]
            constructor
            · intro h; cases h
            · rintro ⟨h1, _⟩
              exact absurd (h1 t (by simp)).2 hd
        · rw [if_neg hb]
          constructor
          · intro h; cases h
          · rintro ⟨h1, _⟩
            exact absurd ((sameExceptB_iff d last t hl).mpr (h1 t (by simp)).1.2) hb
      · rw [if_pos hl]
        constructor
        · intro h; cases h
        · rintro ⟨h1, _⟩
          exact absurd (h1 t (by simp)).1.1 hl

theorem SameExcept.symm {d : Nat} {a b : List Int} (h : SameExcept d a b) : SameExcept d b a :=
  ⟨h.1.symm, fun i hi => (h.2 i hi).symm⟩

theorem SameExcept.trans {d : Nat} {a b c : List Int} (h : SameExcept d a b) (h' : SameExcept d b c) :
    SameExcept d a c := ⟨h.1.trans h'.1, fun i hi => (h.2 i hi).trans (h'.2 i hi)⟩

theorem SameExcept.set (d : Nat) (a : List Int) (x : Int) : SameExcept d a (a.set d x) :=
  ⟨by simp, fun i hi => by rw [List.getElem?_set_ne (Ne.symm hi)]⟩

theorem SameExcept.eq_set {d : Nat} {a c : List Int} (h : SameExcept d a c) {x : Int} (hx : c[d]? = some x) :
    c = a.set d x := by
  apply List.ext_getElem?
  intro i
  by_cases hi : i = d
  · subst hi
    have : i < c.length := (List.getElem?_eq_some_iff.mp hx).1
    rw [hx, List.getElem?_set_self (by rw [h.1]; exact this)]
  · rw [List.getElem?_set_ne (Ne.symm hi), h.2 i hi]

theorem IsDim.lt_of_pos {rank : Nat} {dim : Int} {d : Nat} (h : IsDim rank dim d) (hr : 0 < rank) : d < rank := by
  have := h.1
  omega

theorem pySet_nat {l : List Int} {d : Nat} (x : Int) (h : d < l.length) : pySet l (d : Int) x = .ok (l.set d x) := by
  unfold pySet
  have : ¬ ((d : Int) < 0) := by omega
  simp [this, h]

theorem cat_iff (ts : List (List Int)) (dim : Int) (c : List Int) :
    cat ts dim = .ok c ↔ IsCat ts dim c := by
  unfold cat IsCat
  change _ ↔ ts ≠ [] ∧ (∀ t ∈ ts, t ≠ []) ∧ if real ts = [] then c = [0]
    else ∃ d, IsDim c.length dim d ∧ (∀ t ∈ real ts, SameExcept d t c) ∧
      c[d]? = some ((real ts).map (fun t => t.getD d 0)).sum
  by_cases hz : ts.any (fun t => t.length == 0) = true
  · rw [if_pos hz]
    rw [List.any_eq_true] at hz
    obtain ⟨t, ht, h0⟩ := hz
    constructor
    · intro h; cases h
    · rintro ⟨_, h, _⟩
      exact absurd (List.length_eq_zero_iff.mp (by simpa using h0)) (h t ht)
  · rw [if_neg hz]
    have hnz : ∀ t ∈ ts, t ≠ [] := by
      intro t ht h0
      exact hz (List.any_eq_true.mpr ⟨t, ht, by simp [h0]⟩)
    rw [catWrapDim_eq, notSkipped_eq]
    by_cases hr : real ts = []
    · rw [hr]
      simp only [List.getLast?_nil, Option.or_none, if_true]
      by_cases hts : ts = []
      · subst hts; simp
      · rw [if_neg (fun h => hts (List.length_eq_zero_iff.mp h))]
        simp [hts, eq_comm]
        intro _
        exact hnz
    · have hts : ts ≠ [] := by rintro rfl; exact hr rfl
      have hlast : ∃ last, (real ts).getLast? = some last := by
        cases hl : (real ts).getLast? with
        | none => exact absurd (List.getLast?_eq_none_iff.mp hl) hr
        | some l => exact ⟨l, rfl⟩
      obtain ⟨last, hlast⟩ := hlast
      have hlm : last ∈ real ts := List.mem_of_getLast? hlast
      obtain ⟨first, rest, hf⟩ : ∃ f r, real ts = f :: r := by
        match real ts, hr with
        | f :: r, _ => exact ⟨f, r, rfl⟩
      have hfm : first ∈ real ts := by rw [hf]; simp
      have hfz : first ≠ [] := hnz first (List.mem_filter.mp hfm).1
      have hfpos : 0 < first.length := List.length_pos_iff.mpr hfz
      have e : (match real ts with
        | [] => (.ok dim : Py Int)
        | t :: _ => maybeWrapDim dim t.length) = maybeWrapDim dim first.length := by rw [hf]
      rw [e, hlast, if_neg hr]
      have hts0 : ¬ ts.length = 0 := fun h => hts (List.length_eq_zero_iff.mp h)
      simp only [Option.some_or, hts0, if_false]
      simp only [hts, ne_eq, not_false_eq_true, true_and]
      rw [and_iff_right hnz]
      constructor
      · intro h
        cases hw : maybeWrapDim dim first.length with
        | error e => rw [hw] at h; cases h
        | ok w =>
          obtain ⟨d, rfl, hd⟩ := maybeWrapDim_iff.mp hw
          rw [hw] at h
          simp only [] at h
          cases hs : pyFold (catStep last d) 0 ts with
          | error e => rw [hs] at h; cases h
          | ok s =>
            rw [hs] at h
            simp only [] at h
            obtain ⟨hall, hsum⟩ := (catFold_iff last d ts 0 s).mp hs
            have hld : d < last.length := (hall last hlm).2
            rw [pySet_nat s hld] at h
            have hc : c = last.set d s := (Except.ok.inj h).symm
            subst hc
            refine ⟨d, ?_, ?_, ?_⟩
            · rw [List.length_set, (hall first hfm).1.1]; exact hd
            · intro t ht
              exact (hall t ht).1.symm.trans (SameExcept.set d last s)
            · rw [List.getElem?_set_self hld, hsum]; simp
      · rintro ⟨d, hd, hall, hsum⟩
        have hfc := hall first hfm
        rw [maybeWrapDim_iff.mpr ⟨d, rfl, by rw [hfc.1]; exact hd⟩]
        simp only []
        have hcd : d < c.length := hd.lt_of_pos (by rw [← hfc.1]; exact hfpos)
        have hall' : ∀ t ∈ real ts, SameExcept d last t ∧ d < t.length := by
          intro t ht
          refine ⟨(hall last hlm).trans (hall t ht).symm, ?_⟩
          rw [(hall t ht).1]; exact hcd
        rw [(catFold_iff last d ts 0 _).mpr ⟨hall', rfl⟩]
        simp only [Int.zero_add]
        rw [pySet_nat _ (hall' last hlm).2, ← (hall last hlm).eq_set hsum]

theorem sum_perm {a b : List Int} (h : a.Perm b) : a.sum = b.sum := by
  induction h with
  | nil => rfl
  | cons x _ ih => simp only [List.sum_cons, ih]
  | swap x y l => simp only [List.sum_cons]; omega
  | trans _ _ h1 h2 => exact h1.trans h2

theorem SameExcept.eraseIdx {d : Nat} {a b : List Int} (h : SameExcept d a b) :
    a.eraseIdx d = b.eraseIdx d := by
  apply List.ext_getElem?
  intro i
  rw [List.getElem?_eraseIdx, List.getElem?_eraseIdx]
  split
  · exact h.2 i (by omega)
  · exact h.2 (i + 1) (by omega)

theorem sameExcept_of_erase {d : Nat} {a b : List Int} (ha : d < a.length) (hb : d < b.length)
    (h : a.eraseIdx d = b.eraseIdx d) : SameExcept d a b := by
  have hl := congrArg List.length h
  rw [List.length_eraseIdx, List.length_eraseIdx, if_pos ha, if_pos hb] at hl
  refine ⟨by omega, fun i hi => ?_⟩
  by_cases hlt : i < d
  · have := congrArg (·[i]?) h
    simp only [List.getElem?_eraseIdx, if_pos hlt] at this
    exact this
  · have := congrArg (·[i - 1]?) h
    simp only [List.getElem?_eraseIdx, if_neg (show ¬ (i - 1 < d) by omega)] at this
    rw [show i - 1 + 1 = i by omega] at this
    exact this

theorem unsqueeze_iff (t : List Int) (dim : Int) (u : List Int) :
    unsqueeze t dim = .ok u ↔
      ∃ d, IsDim (t.length + 1) dim d ∧ d < u.length ∧ u[d]? = some 1 ∧ u.eraseIdx d = t := by
  unfold unsqueeze
  have key : ∀ d, d < t.length + 1 → (u = t.take d ++ 1 :: t.drop d ↔
      d < u.length ∧ u[d]? = some 1 ∧ u.eraseIdx d = t) := by
    intro d hd
    have htl : (t.take d).length = d := by rw [List.length_take]; omega
    constructor
    · rintro rfl
      refine ⟨by simp [List.length_append]; omega, ?_, ?_⟩
      · rw [List.getElem?_append_right (by omega), htl]; simp
      · rw [List.eraseIdx_append_of_length_le (by omega), htl]; simp
    · rintro ⟨h1, h2, h3⟩
      have h4 : u = u.take d ++ u[d] :: u.drop (d + 1) := by
        rw [List.getElem_cons_drop, List.take_append_drop]
      have h5 : u[d] = 1 := by
        rw [List.getElem?_eq_getElem h1] at h2; exact Option.some.inj h2
      rw [← h3, List.eraseIdx_eq_take_drop_succ]
      have h6 : (u.take d).length = d := by rw [List.length_take]; omega
      rw [List.take_left' h6, List.drop_left' h6, ← h5]
      exact h4
  constructor
  · intro h
    cases hw : maybeWrapDim dim (t.length + 1) with
    | error e => rw [hw] at h; cases h
    | ok w =>
      obtain ⟨d, rfl, hd⟩ := maybeWrapDim_iff.mp hw
      rw [hw] at h
      have hu := (Except.ok.inj h).symm
      simp only [Int.toNat_natCast] at hu
      exact ⟨d, hd, (key d (hd.lt_of_pos (by omega))).mp hu⟩
  · rintro ⟨d, hd, h⟩
    rw [maybeWrapDim_iff.mpr ⟨d, rfl, hd⟩]
    simp only [Int.toNat_natCast]
    rw [← (key d (hd.lt_of_pos (by omega))).mpr h]

theorem stack_iff (ts : List (List Int)) (dim : Int) (c : List Int) :
    stack ts dim = .ok c ↔ IsStack ts dim c := by
  unfold stack
  constructor
  · intro h
    cases hm : pyMap (fun t => unsqueeze t dim) ts with
    | error e => rw [hm] at h; cases h
    | ok us =>
      rw [hm] at h
      obtain ⟨hlen, hpt⟩ := pyMap_ok_iff.mp hm
      obtain ⟨hne, hnz, hc⟩ := (cat_iff us dim c).mp h
      have hu : ∀ u ∈ us, ∃ t ∈ ts, unsqueeze t dim = .ok u := by
        intro u hu
        obtain ⟨i, hi, rfl⟩ := List.mem_iff_getElem.mp hu
        exact ⟨ts[i], List.getElem_mem _, hpt i (by omega) hi⟩
      have hreal : us.filter (· ≠ [0]) = us := by
        rw [List.filter_eq_self]
        intro u hu'
        obtain ⟨t, _, ht⟩ := hu u hu'
        obtain ⟨d, _, hd1, hd2, _⟩ := (unsqueeze_iff t dim u).mp ht
        simp only [ne_eq, decide_not, Bool.not_eq_eq_eq_not, Bool.not_true, decide_eq_false_iff_not]
        rintro rfl
        have : d = 0 := by simpa using hd1
        subst this
        simp at hd2
      rw [hreal, if_neg hne] at hc
      obtain ⟨d, hd, hse, hsum⟩ := hc
      obtain ⟨u0, hu0⟩ := List.exists_mem_of_ne_nil us hne
      have hcpos : 0 < c.length := by
        rw [← (hse u0 hu0).1]; exact List.length_pos_iff.mpr (hnz u0 hu0)
      have hdc : d < c.length := hd.lt_of_pos hcpos
      have hone : ∀ t u, u ∈ us → unsqueeze t dim = .ok u → u[d]? = some 1 ∧ u.eraseIdx d = t := by
        intro t u hu' ht
        obtain ⟨d', hd', h1, h2, h3⟩ := (unsqueeze_iff t dim u).mp ht
        have hl : u.length = t.length + 1 := by
          rw [← h3, List.length_eraseIdx, if_pos h1]; omega
        have : d' = d := by
          apply hd'.unique
          rw [← hl, (hse u hu').1]
          exact hd
        subst this
        exact ⟨h2, h3⟩
      refine ⟨?_, d, hdc, hd, ?_, ?_⟩
      · rintro rfl
        exact hne (List.length_eq_zero_iff.mp (by simpa using hlen))
      · rw [hsum]
        have : us.map (fun u => u.getD d 0) = List.replicate ts.length 1 := by
          rw [List.eq_replicate_iff]
          refine ⟨by rw [List.length_map, hlen], ?_⟩
          intro x hx
          obtain ⟨u, hu', rfl⟩ := List.mem_map.mp hx
          obtain ⟨t, _, ht⟩ := hu u hu'
          rw [List.getD_eq_getElem?_getD, (hone t u hu' ht).1]
          rfl
        rw [this]
        simp
      · intro t ht
        obtain ⟨i, hi, rfl⟩ := List.mem_iff_getElem.mp ht
        have hi' : i < us.length := by omega
        have hmem : us[i] ∈ us := List.getElem_mem hi'
        rw [← (hone ts[i] us[i] hmem (hpt i hi hi')).2]
        exact (hse _ hmem).eraseIdx
  · rintro ⟨hne, d, hdc, hd, hcd, hall⟩
    have hus : ∀ t ∈ ts, unsqueeze t dim = .ok (c.set d 1) := by
      intro t ht
      refine (unsqueeze_iff t dim _).mpr ⟨d, ?_, by simpa using hdc, ?_, ?_⟩
      · rw [hall t ht, List.length_eraseIdx, if_pos hdc, show c.length - 1 + 1 = c.length by omega]
        exact hd
      · rw [List.getElem?_set_self hdc]
      · rw [List.eraseIdx_set_eq, ← hall t ht]
    have hm : pyMap (fun t => unsqueeze t dim) ts = .ok (List.replicate ts.length (c.set d 1)) := by
      rw [pyMap_ok_iff]
      refine ⟨by simp, fun i h1 h2 => ?_⟩
      rw [List.getElem_replicate]
      exact hus _ (List.getElem_mem h1)
    rw [hm]
    simp only []
    rw [cat_iff]
    have hlpos : 0 < ts.length := List.length_pos_iff.mpr hne
    have hmem : ∀ u ∈ List.replicate ts.length (c.set d 1), u = c.set d 1 :=
      fun u hu => List.eq_of_mem_replicate hu
    have hnil : c.set d 1 ≠ [] := by
      intro h
      have := congrArg List.length h
      simp at this
      subst this
      simp at hdc
    have h0 : c.set d 1 ≠ [0] := by
      intro h
      have h1 := congrArg (·[d]?) h
      simp only [List.getElem?_set_self hdc] at h1
      have h2 := congrArg List.length h
      simp only [List.length_set, List.length_singleton] at h2
      have : d = 0 := by omega
      subst this
      simp at h1
    have hreal : (List.replicate ts.length (c.set d 1)).filter (· ≠ [0]) =
        List.replicate ts.length (c.set d 1) := by
      rw [List.filter_eq_self]
      intro u hu
      rw [hmem u hu]
      simpa using h0
    have hrne : List.replicate ts.length (c.set d 1) ≠ [] := by
      intro h
      have := congrArg List.length h
      simp at this
      exact hne this
    refine ⟨hrne, fun u hu => by rw [hmem u hu]; exact hnil, ?_⟩
    rw [hreal, if_neg hrne]
    refine ⟨d, hd, fun u hu => ?_, ?_⟩
    · rw [hmem u hu]; exact (SameExcept.set d c 1).symm
    · rw [hcd, List.map_replicate]
      simp [hdc]

end Verif.Shape
