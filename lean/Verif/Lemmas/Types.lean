import Verif.Spec.Types

/-! Helper lemmas for subtyping and the meet of tensor types. -/

namespace Verif.Types
open Verif.TypesSpec

mutual
theorem tyEq_eq {a b : Ty} (h : tyEq a b = true) : a = b := by
  cases a <;> cases b <;> simp only [tyEq, Bool.false_eq_true] at h <;> try rfl
  · simpa using h
  · rw [tyEq_eq h]
  · rw [tysEq_eq h]
  · rw [tysEq_eq h]
  · rw [tyEq_eq h]
  · simp only [Bool.and_eq_true] at h
    rw [tyEq_eq h.1, tyEq_eq h.2]
  · simpa using h

theorem tysEq_eq {a b : List Ty} (h : tysEq a b = true) : a = b := by
  cases a <;> cases b <;> simp only [tysEq, Bool.false_eq_true] at h
  · rfl
  · simp only [Bool.and_eq_true] at h
    rw [tyEq_eq h.1, tysEq_eq h.2]
end

mutual
theorem tyEq_refl (a : Ty) : tyEq a a = true := by
  cases a with
  | optional t => simp only [tyEq]; exact tyEq_refl t
  | union ts => simp only [tyEq]; exact tysEq_refl ts
  | tuple ts => simp only [tyEq]; exact tysEq_refl ts
  | list t => simp only [tyEq]; exact tyEq_refl t
  | dict k v => simp only [tyEq, Bool.and_eq_true]; exact ⟨tyEq_refl k, tyEq_refl v⟩
  | _ => simp [tyEq]

theorem tysEq_refl (a : List Ty) : tysEq a a = true := by
  cases a with
  | nil => rfl
  | cons t ts => simp only [tysEq, Bool.and_eq_true]; exact ⟨tyEq_refl t, tysEq_refl ts⟩
end

theorem tyEq_iff {a b : Ty} : tyEq a b = true ↔ a = b :=
  ⟨tyEq_eq, by rintro rfl; exact tyEq_refl a⟩

theorem sub_refl (a : Ty) : isValidSubtype a a = true := by
  rw [isValidSubtype.eq_def]; simp [tyEq_refl]

theorem allSub_iff {ss : List Ty} {t : Ty} : allSub ss t = true ↔ ∀ s ∈ ss, isValidSubtype s t = true := by
  induction ss with
  | nil => simp [allSub]
  | cons s ss ih => rw [allSub]; simp [ih]

theorem anySub_iff {s : Ty} {ts : List Ty} : anySub s ts = true ↔ ∃ t ∈ ts, isValidSubtype s t = true := by
  induction ts with
  | nil => simp [anySub]
  | cons t ts ih => rw [anySub]; simp [ih]

/-- Pointwise relation of two lists. -/
def Pointwise (R : Ty → Ty → Prop) : List Ty → List Ty → Prop
  | [], [] => True
  | a :: as, b :: bs => R a b ∧ Pointwise R as bs
  | _, _ => False

theorem zipSub_iff {ss ts : List Ty} :
    zipSub ss ts = true ↔ Pointwise (fun a b => isValidSubtype a b = true) ss ts := by
  induction ss generalizing ts with
  | nil => cases ts <;> simp [zipSub, Pointwise]
  | cons s ss ih => cases ts <;> rw [zipSub] <;> simp [Pointwise, ih]

def NotUnion (t : Ty) : Prop := ∀ ts, t ≠ .union ts

theorem sub_union_left {ss : List Ty} {t : Ty} :
    isValidSubtype (.union ss) t = true ↔ .union ss = t ∨ ∀ s ∈ ss, isValidSubtype s t = true := by
  rw [isValidSubtype.eq_def]
  by_cases h : tyEq (.union ss) t = true
  · have hh := tyEq_eq h; subst hh; simp [tyEq_refl]
  · have : ¬ (.union ss = t) := fun hh => h (tyEq_iff.mpr hh)
    simp only [h, this, false_or, allSub_iff, Bool.false_eq_true, if_false]

section
variable {s : Ty} (hs : NotUnion s)
include hs

theorem sub_any : isValidSubtype s .any = true := by
  rw [isValidSubtype.eq_def]
  split
  · rfl
  · cases s <;> first | rfl | exact absurd rfl (hs _)

theorem sub_number : isValidSubtype s .number = true ↔ s = .number ∨ s = .int ∨ s = .float := by
  rw [isValidSubtype.eq_def]
  by_cases h : tyEq s .number = true
  · have hh := tyEq_eq h; subst hh; simp [tyEq_refl]
  · have h' : s ≠ .number := fun hh => h (tyEq_iff.mpr hh)
    simp only [h]
    cases s <;> first | exact absurd rfl (hs _) | simp_all

theorem sub_optional {t : Ty} : isValidSubtype s (.optional t) = true ↔
    s = .optional t ∨ isValidSubtype s t = true ∨ s = .none := by
  rw [isValidSubtype.eq_def]
  by_cases h : tyEq s (.optional t) = true
  · have hh := tyEq_eq h; subst hh; simp [tyEq_refl]
  · have h' : s ≠ .optional t := fun hh => h (tyEq_iff.mpr hh)
    simp only [h]
    cases s <;> first | exact absurd rfl (hs _) | simp_all

theorem sub_union_right {ts : List Ty} : isValidSubtype s (.union ts) = true ↔
    ∃ t ∈ ts, isValidSubtype s t = true := by
  rw [isValidSubtype.eq_def]
  have h' : s ≠ .union ts := hs _
  have h : ¬ tyEq s (.union ts) = true := fun hh => h' (tyEq_eq hh)
  simp only [h]
  cases s <;> first | exact absurd rfl (hs _) | simp [anySub_iff]

theorem sub_tuple {ts : List Ty} : isValidSubtype s (.tuple ts) = true ↔
    s = .tuple ts ∨ ∃ ss, s = .tuple ss ∧ Pointwise (fun a b => isValidSubtype a b = true) ss ts := by
  rw [isValidSubtype.eq_def]
  by_cases h : tyEq s (.tuple ts) = true
  · have hh := tyEq_eq h; subst hh; simp [tyEq_refl]
  · have h' : s ≠ .tuple ts := fun hh => h (tyEq_iff.mpr hh)
    simp only [h]
    cases s <;> first | exact absurd rfl (hs _) | simp_all [zipSub_iff]

theorem sub_tensor {t : TensorTy} : isValidSubtype s (.tensor t) = true ↔
    s = .tensor t ∨ ∃ s', s = .tensor s' ∧ tensorSub s' t = true := by
  rw [isValidSubtype.eq_def]
  by_cases h : tyEq s (.tensor t) = true
  · have hh := tyEq_eq h; subst hh; simp [tyEq_refl]
  · have h' : s ≠ .tensor t := fun hh => h (tyEq_iff.mpr hh)
    simp only [h]
    cases s <;> first | exact absurd rfl (hs _) | simp_all

/-- The remaining types have only themselves as (non-union) subtypes. -/
def Rigid : Ty → Prop
  | .none | .int | .float | .other _ | .list _ | .dict _ _ => True
  | _ => False

theorem sub_rigid {t : Ty} (ht : Rigid t) : isValidSubtype s t = true ↔ s = t := by
  rw [isValidSubtype.eq_def]
  by_cases h : tyEq s t = true
  · have hh := tyEq_eq h; subst hh; simp [tyEq_refl]
  · have h' : s ≠ t := fun hh => h (tyEq_iff.mpr hh)
    simp only [h]
    cases t <;> simp [Rigid] at ht <;> cases s <;> first | exact absurd rfl (hs _) | simp_all
end

theorem isSubsizes_refl (ss : List Int) : isSubsizes ss ss = true := by
  induction ss with
  | nil => rfl
  | cons s ss ih => simp [isSubsizes, ih]

theorem isSubsizes_trans {a b c : List Int} (h1 : isSubsizes b a = true) (h2 : isSubsizes c b = true) :
    isSubsizes c a = true := by
  induction c generalizing a b with
  | nil =>
    cases b with
    | nil => exact h1
    | cons x xs => simp [isSubsizes] at h2
  | cons z zs ih =>
    cases b with
    | nil => simp [isSubsizes] at h2
    | cons y ys =>
      cases a with
      | nil => simp [isSubsizes] at h1
      | cons x xs =>
        simp only [isSubsizes, Bool.and_eq_true] at *
        refine ⟨?_, ih h1.2 h2.2⟩
        have a1 := h1.1
        have a2 := h2.1
        simp only [kUnknownSize, bne_iff_ne, Bool.not_eq_true', Bool.and_eq_false_iff, bne_eq_false_iff_eq] at *
        omega

theorem tensorSub_iff {s t : TensorTy} : tensorSub s t = true ↔
    s.value = t.value ∧ (∀ d, t.dtype = some d → s.dtype = some d) ∧
    (∀ ts, t.sizes = some ts → ∃ ss, s.sizes = some ss ∧ isSubsizes ts ss = true) := by
  obtain ⟨sv, ssz, sd, _⟩ := s
  obtain ⟨tv, tsz, td, _⟩ := t
  unfold tensorSub
  cases sv <;> cases tv <;> cases sd <;> cases td <;> cases ssz <;> cases tsz <;>
    simp
  all_goals grind

theorem tensorSub_trans {a b c : TensorTy} (h1 : tensorSub a b = true) (h2 : tensorSub b c = true) :
    tensorSub a c = true := by
  rw [tensorSub_iff] at *
  refine ⟨h1.1.trans h2.1, fun d hd => h1.2.1 d (h2.2.1 d hd), ?_⟩
  intro cs hcs
  obtain ⟨bs, hbs, hs⟩ := h2.2.2 cs hcs
  obtain ⟨as, has, hs'⟩ := h1.2.2 bs hbs
  exact ⟨as, has, isSubsizes_trans hs' hs⟩

theorem tensorSub_refl (a : TensorTy) : tensorSub a a = true := by
  rw [tensorSub_iff]
  exact ⟨rfl, fun _ h => h, fun ts h => ⟨ts, h, isSubsizes_refl ts⟩⟩

theorem sizeOf_mem_lt {t : Ty} {ts : List Ty} (h : t ∈ ts) : sizeOf t < sizeOf ts :=
  List.sizeOf_lt_of_mem h

theorem pointwise_trans {as bs cs : List Ty}
    (ih : ∀ a ∈ as, ∀ b ∈ bs, ∀ c ∈ cs, isValidSubtype a b = true → isValidSubtype b c = true →
      isValidSubtype a c = true)
    (h1 : Pointwise (fun a b => isValidSubtype a b = true) as bs)
    (h2 : Pointwise (fun a b => isValidSubtype a b = true) bs cs) :
    Pointwise (fun a b => isValidSubtype a b = true) as cs := by
  induction as generalizing bs cs with
  | nil =>
    cases bs with
    | nil => exact h2
    | cons _ _ => exact h1.elim
  | cons a as iha =>
    cases bs with
    | nil => exact h1.elim
    | cons b bs =>
      cases cs with
      | nil => exact h2.elim
      | cons c cs =>
        refine ⟨ih a (by simp) b (by simp) c (by simp) h1.1 h2.1, ?_⟩
        exact iha (fun x hx y hy z hz => ih x (by simp [hx]) y (by simp [hy]) z (by simp [hz])) h1.2 h2.2

theorem notUnion_or (t : Ty) : (∃ ts, t = .union ts) ∨ NotUnion t := by
  cases t with
  | union ts => exact Or.inl ⟨ts, rfl⟩
  | _ => right; intro ts h; cases h

theorem sub_trans_aux (n : Nat) : ∀ a b c : Ty, sizeOf a + sizeOf b + sizeOf c ≤ n →
    isValidSubtype a b = true → isValidSubtype b c = true → isValidSubtype a c = true := by
  induction n with
  | zero =>
    intro a b c h
    cases a <;> simp at h
  | succ n ih =>
    intro a b c hn hab hbc
    by_cases h1 : a = b
    · rw [h1]; exact hbc
    by_cases h2 : b = c
    · rw [← h2]; exact hab
    rcases notUnion_or a with ⟨as, rfl⟩ | ha
    · rw [sub_union_left] at hab ⊢
      rcases hab with h | hab
      · exact absurd h h1
      · right
        intro s hs
        have := sizeOf_mem_lt hs
        exact ih s b c (by simp at hn; omega) (hab s hs) hbc
    rcases notUnion_or b with ⟨bs, rfl⟩ | hb
    · rw [sub_union_right ha] at hab
      obtain ⟨t, ht, hat⟩ := hab
      rw [sub_union_left] at hbc
      rcases hbc with h | hbc
      · exact absurd h h2
      · have := sizeOf_mem_lt ht
        exact ih a t c (by simp at hn; omega) hat (hbc t ht)
    have rigid : ∀ {t : Ty}, Rigid t → isValidSubtype b t = true → isValidSubtype a t = true := by
      intro t ht hbt
      have := (sub_rigid hb ht).mp hbt
      subst this
      exact hab
    cases c with
    | any => exact sub_any ha
    | number =>
      rcases (sub_number hb).mp hbc with rfl | rfl | rfl
      · exact hab
      · have := (sub_rigid ha (t := .int) trivial).mp hab
        subst this
        exact hbc
      · have := (sub_rigid ha (t := .float) trivial).mp hab
        subst this
        exact hbc
    | optional t =>
      rw [sub_optional ha]
      rcases (sub_optional hb).mp hbc with h | h | h
      · exact absurd h h2
      · right; left
        exact ih a b t (by simp at hn; omega) hab h
      · subst h
        right; right
        exact (sub_rigid ha (t := .none) trivial).mp hab
    | union cs =>
      rw [sub_union_right ha]
      obtain ⟨t, ht, hbt⟩ := (sub_union_right hb).mp hbc
      have := sizeOf_mem_lt ht
      exact ⟨t, ht, ih a b t (by simp at hn; omega) hab hbt⟩
    | tuple cs =>
      rcases (sub_tuple hb).mp hbc with h | ⟨bs, rfl, hpw⟩
      · exact absurd h h2
      · rcases (sub_tuple ha).mp hab with h | ⟨as, rfl, hpw'⟩
        · exact absurd h h1
        · rw [sub_tuple ha]
          right
          refine ⟨as, rfl, pointwise_trans ?_ hpw' hpw⟩
          intro x hx y hy z hz
          have := sizeOf_mem_lt hx
          have := sizeOf_mem_lt hy
          have := sizeOf_mem_lt hz
          exact ih x y z (by simp at hn; omega)
    | tensor t =>
      rcases (sub_tensor hb).mp hbc with h | ⟨b', rfl, hbt⟩
      · exact absurd h h2
      · rcases (sub_tensor ha).mp hab with h | ⟨a', rfl, hat⟩
        · exact absurd h h1
        · rw [sub_tensor ha]
          exact Or.inr ⟨a', rfl, tensorSub_trans hat hbt⟩
    | none => exact rigid trivial hbc
    | int => exact rigid trivial hbc
    | float => exact rigid trivial hbc
    | other _ => exact rigid trivial hbc
    | list _ => exact rigid trivial hbc
    | dict _ _ => exact rigid trivial hbc

/-! ### Soundness -/

theorem sizesMatch_sub {ts ss : List Int} {ns : List Nat} (h : isSubsizes ts ss = true)
    (hm : SizesMatch ss ns) : SizesMatch ts ns := by
  induction ts generalizing ss ns with
  | nil =>
    cases ss with
    | nil => exact hm
    | cons _ _ => simp [isSubsizes] at h
  | cons t ts ih =>
    cases ss with
    | nil => simp [isSubsizes] at h
    | cons s ss =>
      cases ns with
      | nil => exact hm.elim
      | cons n ns =>
        simp only [isSubsizes, Bool.and_eq_true] at h
        refine ⟨?_, ih h.2 hm.2⟩
        have a1 := h.1
        have a2 := hm.1
        simp only [kUnknownSize, bne_iff_ne, Bool.not_eq_true', Bool.and_eq_false_iff, bne_eq_false_iff_eq] at *
        omega

theorem tensorSub_sound {s t : TensorTy} (h : tensorSub s t = true) {x : Tensor}
    (hx : TensorDescribes s x) : TensorDescribes t x := by
  rw [tensorSub_iff] at h
  obtain ⟨h1, h2, h3⟩ := h
  obtain ⟨x1, x2, x3⟩ := hx
  refine ⟨x1.trans h1, ?_, ?_⟩
  · cases hts : t.sizes with
    | none => trivial
    | some ts =>
      obtain ⟨ss, hss, hsub⟩ := h3 ts hts
      rw [hss] at x2
      exact sizesMatch_sub hsub x2
  · cases htd : t.dtype with
    | none => trivial
    | some d =>
      have := h2 d htd
      rw [this] at x3
      exact x3

theorem memAny_iff {D : TensorTy → Tensor → Prop} {ts : List Ty} {v : Val} :
    MemAny D ts v ↔ ∃ t ∈ ts, Mem D t v := by
  induction ts with
  | nil => simp [MemAny]
  | cons t ts ih => simp [MemAny, ih]

theorem memAll_pointwise {D : TensorTy → Tensor → Prop} {ss ts : List Ty} {vs : List Val}
    (ih : ∀ s ∈ ss, ∀ t ∈ ts, isValidSubtype s t = true → ∀ v, Mem D s v → Mem D t v)
    (h : Pointwise (fun a b => isValidSubtype a b = true) ss ts) (hm : MemAll D ss vs) :
    MemAll D ts vs := by
  induction ss generalizing ts vs with
  | nil =>
    cases ts with
    | nil => exact hm
    | cons _ _ => exact h.elim
  | cons s ss ihs =>
    cases ts with
    | nil => exact h.elim
    | cons t ts =>
      cases vs with
      | nil => simp [MemAll] at hm
      | cons v vs =>
        simp only [MemAll] at hm ⊢
        exact ⟨ih s (by simp) t (by simp) h.1 v hm.1,
          ihs (fun a ha b hb => ih a (by simp [ha]) b (by simp [hb])) h.2 hm.2⟩

theorem sub_sound_aux (D : TensorTy → Tensor → Prop)
    (hD : ∀ s t, tensorSub s t = true → ∀ x, D s x → D t x) (n : Nat) :
    ∀ s t : Ty, sizeOf s + sizeOf t ≤ n → isValidSubtype s t = true → ∀ v, Mem D s v → Mem D t v := by
  induction n with
  | zero => intro s t h; cases s <;> simp at h
  | succ n ih =>
    intro s t hn hst v hv
    by_cases h1 : s = t
    · rw [← h1]; exact hv
    rcases notUnion_or s with ⟨ss, rfl⟩ | hs
    · rw [sub_union_left] at hst
      rcases hst with h | hst
      · exact absurd h h1
      · rw [Mem, memAny_iff] at hv
        obtain ⟨u, hu, huv⟩ := hv
        have := sizeOf_mem_lt hu
        exact ih u t (by simp at hn; omega) (hst u hu) v huv
    cases t with
    | any => simp [Mem]
    | number =>
      rcases (sub_number hs).mp hst with rfl | rfl | rfl
      · exact hv
      · simp only [Mem] at hv ⊢; exact Or.inl hv
      · simp only [Mem] at hv ⊢; exact Or.inr hv
    | optional t =>
      simp only [Mem]
      rcases (sub_optional hs).mp hst with h | h | h
      · exact absurd h h1
      · right; exact ih s t (by simp at hn; omega) h v hv
      · subst h
        left
        simpa [Mem] using hv
    | union ts =>
      rw [Mem, memAny_iff]
      obtain ⟨t, ht, h⟩ := (sub_union_right hs).mp hst
      have := sizeOf_mem_lt ht
      exact ⟨t, ht, ih s t (by simp at hn; omega) h v hv⟩
    | tuple ts =>
      rcases (sub_tuple hs).mp hst with h | ⟨ss, rfl, hpw⟩
      · exact absurd h h1
      · simp only [Mem] at hv ⊢
        obtain ⟨vs, rfl, hvs⟩ := hv
        refine ⟨vs, rfl, memAll_pointwise ?_ hpw hvs⟩
        intro a ha b hb
        have := sizeOf_mem_lt ha
        have := sizeOf_mem_lt hb
        exact ih a b (by simp at hn; omega)
    | tensor t =>
      rcases (sub_tensor hs).mp hst with h | ⟨s', rfl, hb⟩
      · exact absurd h h1
      · simp only [Mem] at hv ⊢
        obtain ⟨x, rfl, hx⟩ := hv
        exact ⟨x, rfl, hD s' t hb x hx⟩
    | none => exact absurd ((sub_rigid hs (t := .none) trivial).mp hst) h1
    | int => exact absurd ((sub_rigid hs (t := .int) trivial).mp hst) h1
    | float => exact absurd ((sub_rigid hs (t := .float) trivial).mp hst) h1
    | other m => exact absurd ((sub_rigid hs (t := .other m) trivial).mp hst) h1
    | list u => exact absurd ((sub_rigid hs (t := .list u) trivial).mp hst) h1
    | dict k w => exact absurd ((sub_rigid hs (t := .dict k w) trivial).mp hst) h1

/-! ### The meet -/

theorem meetSize_match {l r m : Int} (h : meetSize l r = some m) (n : Nat) :
    (m = -1 ∨ m = (n : Int)) ↔ (l = -1 ∨ l = (n : Int)) ∧ (r = -1 ∨ r = (n : Int)) := by
  unfold meetSize kUnknownSize at h
  split at h
  · cases h; subst_vars; simp
  · split at h
    · cases h; subst_vars; simp
    · split at h
      · cases h; subst_vars; simp
      · cases h

theorem meetSizes_match {l r m : List Int} (hlen : l.length = r.length) (h : meetSizes l r = some m)
    (ns : List Nat) : SizesMatch m ns ↔ SizesMatch l ns ∧ SizesMatch r ns := by
  induction l generalizing r m ns with
  | nil =>
    cases r with
    | nil => simp [meetSizes] at h; subst h; simp
    | cons _ _ => simp at hlen
  | cons x xs ih =>
    cases r with
    | nil => simp at hlen
    | cons y ys =>
      simp only [meetSizes] at h
      split at h
      · rename_i z zs hz hzs
        cases h
        cases ns with
        | nil => simp [SizesMatch]
        | cons n ns =>
          simp only [SizesMatch, ih (by simpa using hlen) hzs ns, meetSize_match hz n]
          constructor <;> intro h <;> simp_all
      · cases h

theorem meetSizes_none {l r : List Int} (hlen : l.length = r.length) (h : meetSizes l r = none) :
    ∀ ns, ¬ (SizesMatch l ns ∧ SizesMatch r ns) := by
  induction l generalizing r with
  | nil => simp [meetSizes] at h
  | cons x xs ih =>
    cases r with
    | nil => simp at hlen
    | cons y ys =>
      intro ns hns
      cases ns with
      | nil => exact hns.1
      | cons n ns =>
        simp only [SizesMatch] at hns
        simp only [meetSizes] at h
        split at h
        · cases h
        · rename_i hno
          cases hz : meetSize x y with
          | none =>
            unfold meetSize kUnknownSize at hz
            split at hz
            · cases hz
            · split at hz
              · cases hz
              · split at hz
                · cases hz
                · omega
          | some z =>
            cases hzs : meetSizes xs ys with
            | none => exact ih (by simpa using hlen) hzs ns ⟨hns.1.2, hns.2.2⟩
            | some zs => exact hno z zs hz hzs

theorem meetSizes_self (l : List Int) : meetSizes l l = some l := by
  induction l with
  | nil => rfl
  | cons x xs ih => simp [meetSizes, meetSize, ih]

theorem sizesMatch_length {l : List Int} {ns : List Nat} (h : SizesMatch l ns) : l.length = ns.length := by
  induction l generalizing ns with
  | nil => cases ns <;> simp_all [SizesMatch]
  | cons x xs ih =>
    cases ns with
    | nil => exact h.elim
    | cons n ns => simp [ih h.2]

theorem meet_describes {l r m : TensorTy} (hr : Regular l r) (h : meetTensorTypes l r = some m)
    (x : Tensor) : TensorDescribes m x ↔ TensorDescribes l x ∧ TensorDescribes r x := by
  obtain ⟨lv, ls, ld, lsp⟩ := l
  obtain ⟨rv, rs, rd, rsp⟩ := r
  obtain ⟨hv, hr⟩ := hr
  simp only at hv
  subst hv
  unfold meetTensorTypes at h
  simp only at h hr
  split at h
  · cases h
  rename_i hd
  have hdt : DtypeOk (if ld.isSome then ld else rd) x.dtype ↔
      DtypeOk ld x.dtype ∧ DtypeOk rd x.dtype := by
    cases ld <;> cases rd <;> simp at hd ⊢ <;> simp [DtypeOk]
    subst hd
    simp
  cases ls with
  | none =>
    cases rs with
    | none =>
      simp at hr
      subst hr
      cases h
      simp only [TensorDescribes, hdt, SizesOk]
      constructor <;> intro h <;> simp_all
    | some rs =>
      simp only [meetSizes_self] at h
      cases h
      simp only [TensorDescribes, hdt, SizesOk]
      constructor <;> intro h <;> simp_all
  | some ls =>
    cases rs with
    | none =>
      simp only [meetSizes_self] at h
      cases h
      simp only [TensorDescribes, hdt, SizesOk]
      constructor <;> intro h <;> simp_all
    | some rs =>
      simp only at h
      split at h
      · cases h
      rename_i hlen
      split at h
      · rename_i ns hns
        cases h
        have := meetSizes_match (by simpa using hlen) hns x.sizes
        simp only [TensorDescribes, hdt, SizesOk, this]
        constructor <;> intro h <;> simp_all
      · cases h

theorem meet_none {l r : TensorTy} (h : meetTensorTypes l r = none) :
    ∀ x, ¬ (TensorDescribes l x ∧ TensorDescribes r x) := by
  obtain ⟨lv, ls, ld, lsp⟩ := l
  obtain ⟨rv, rs, rd, rsp⟩ := r
  intro x hx
  simp only [TensorDescribes] at hx
  unfold meetTensorTypes at h
  simp only at h
  split at h
  · rename_i hd
    cases ld <;> cases rd <;> simp [DtypeOk] at hd hx
    exact hd (hx.1.2.2.symm.trans hx.2.2.2)
  · cases ls <;> cases rs <;> simp only [meetSizes_self] at h
    · cases h
    · cases h
    · cases h
    · split at h
      · rename_i hlen
        apply hlen
        rw [sizesMatch_length hx.1.2.1, sizesMatch_length hx.2.2.1]
      · rename_i hlen
        split at h
        · cases h
        · rename_i hns
          exact meetSizes_none (by simpa using hlen) hns x.sizes ⟨hx.1.2.1, hx.2.2.1⟩

/-- Well-formed sizes are matched by some tensor sizes. -/
theorem sizesMatch_exists {l : List Int} (h : ∀ s ∈ l, -1 ≤ s) : ∃ ns, SizesMatch l ns := by
  induction l with
  | nil => exact ⟨[], trivial⟩
  | cons x xs ih =>
    obtain ⟨ns, hns⟩ := ih (fun s hs => h s (by simp [hs]))
    refine ⟨x.toNat :: ns, ?_, hns⟩
    have := h x (by simp)
    omega

theorem describes_exists {t : TensorTy} (h : WellFormed t) : ∃ x, TensorDescribes t x := by
  obtain ⟨v, s, d, sp⟩ := t
  cases s with
  | none => exact ⟨⟨v, [], d.getD 0, none⟩, rfl, trivial, by cases d <;> simp [DtypeOk]⟩
  | some ss =>
    obtain ⟨ns, hns⟩ := sizesMatch_exists (h ss rfl)
    exact ⟨⟨v, ns, d.getD 0, none⟩, rfl, hns, by cases d <;> simp [DtypeOk]⟩

theorem meetSizes_wf {l r m : List Int} (hl : ∀ s ∈ l, -1 ≤ s) (hr : ∀ s ∈ r, -1 ≤ s)
    (h : meetSizes l r = some m) : ∀ s ∈ m, -1 ≤ s := by
  induction l generalizing r m with
  | nil => simp [meetSizes] at h; subst h; simp
  | cons x xs ih =>
    cases r with
    | nil => simp [meetSizes] at h
    | cons y ys =>
      simp only [meetSizes] at h
      split at h
      · rename_i z zs hz hzs
        cases h
        intro s hs
        simp only [List.mem_cons] at hs
        rcases hs with rfl | hs
        · have h1 := hl x (by simp)
          have h2 := hr y (by simp)
          unfold meetSize at hz
          split at hz
          · cases hz; exact h1
          · split at hz
            · cases hz; exact h2
            · split at hz
              · cases hz; exact h1
              · cases hz
        · exact ih (fun s hs => hl s (by simp [hs])) (fun s hs => hr s (by simp [hs])) hzs s hs
      · cases h

theorem meet_wf {l r m : TensorTy} (hl : WellFormed l) (hr : WellFormed r)
    (h : meetTensorTypes l r = some m) : WellFormed m := by
  obtain ⟨lv, ls, ld, lsp⟩ := l
  obtain ⟨rv, rs, rd, rsp⟩ := r
  unfold meetTensorTypes at h
  simp only at h
  split at h
  · cases h
  · cases ls <;> cases rs <;> simp only [meetSizes_self] at h
    · cases h; intro ss hss; cases hss
    · cases h; intro ss hss; cases hss; exact hr _ rfl
    · cases h; intro ss hss; cases hss; exact hl _ rfl
    · split at h
      · cases h
      · split at h
        · rename_i hns
          cases h; intro ss hss; cases hss
          exact meetSizes_wf (hl _ rfl) (hr _ rfl) hns
        · cases h

/-! ### Completeness for tensors: semantic inclusion implies the check accepts -/

theorem sizesMatch_complete {ts ss : List Int} (hwf : ∀ s ∈ ss, -1 ≤ s)
    (h : ∀ ns, SizesMatch ss ns → SizesMatch ts ns) : isSubsizes ts ss = true := by
  induction ss generalizing ts with
  | nil =>
    cases ts with
    | nil => rfl
    | cons t ts => exact (h [] trivial).elim
  | cons s ss ih =>
    obtain ⟨ns, hns⟩ := sizesMatch_exists (fun x hx => hwf x (List.mem_cons_of_mem _ hx) : ∀ x ∈ ss, -1 ≤ x)
    have hs := hwf s (by simp)
    cases ts with
    | nil =>
      exact (h (s.toNat :: ns) ⟨by omega, hns⟩).elim
    | cons t ts =>
      simp only [isSubsizes, Bool.and_eq_true]
      constructor
      · simp only [kUnknownSize, Bool.not_eq_true', Bool.and_eq_false_iff, bne_eq_false_iff_eq]
        by_cases hs1 : s = -1
        · have h0 := (h (0 :: ns) ⟨Or.inl hs1, hns⟩).1
          have h1 := (h (1 :: ns) ⟨Or.inl hs1, hns⟩).1
          omega
        · have h0 := (h (s.toNat :: ns) ⟨by omega, hns⟩).1
          omega
      · apply ih (fun x hx => hwf x (List.mem_cons_of_mem _ hx))
        intro ns' hns'
        exact (h (s.toNat :: ns') ⟨by omega, hns'⟩).2

theorem tensorSub_complete {s t : TensorTy} (hs : WellFormed s)
    (h : ∀ x, TensorDescribes s x → TensorDescribes t x) : tensorSub s t = true := by
  obtain ⟨sv, ssz, sd, ssp⟩ := s
  obtain ⟨tv, tsz, td, tsp⟩ := t
  obtain ⟨ns, hns⟩ : ∃ ns, SizesOk ssz ns := by
    cases ssz with
    | none => exact ⟨[], trivial⟩
    | some ss => exact sizesMatch_exists (hs ss rfl)
  have mk : ∀ (ns : List Nat) (d : Nat),
      SizesOk ssz ns →
      DtypeOk sd d → TensorDescribes ⟨tv, tsz, td, tsp⟩ ⟨sv, ns, d, none⟩ :=
    fun ns d h1 h2 => h _ ⟨rfl, h1, h2⟩
  have hd : ∃ d, DtypeOk sd d := by
    cases sd with
    | none => exact ⟨0, trivial⟩
    | some e => exact ⟨e, rfl⟩
  obtain ⟨d, hd⟩ := hd
  rw [tensorSub_iff]
  refine ⟨(mk ns d hns hd).1, ?_, ?_⟩
  · intro e he
    simp only at he ⊢
    subst he
    cases sd with
    | none =>
      have h0 := (mk ns 0 hns trivial).2.2
      have h1 := (mk ns 1 hns trivial).2.2
      simp only [DtypeOk] at h0 h1
      omega
    | some f =>
      have := (mk ns f hns rfl).2.2
      simp only [DtypeOk] at this
      rw [this]
  · intro ts hts
    simp only at hts ⊢
    subst hts
    cases ssz with
    | none =>
      have h0 := (mk [] d trivial hd).2.1
      have h1 := (mk [0] d trivial hd).2.1
      have := sizesMatch_length h0
      have := sizesMatch_length h1
      simp_all
    | some ss =>
      exact ⟨ss, rfl, sizesMatch_complete (hs ss rfl) (fun ns' h' => (mk ns' d h' hd).2.1)⟩

theorem isValidSubtype_tensor {s t : TensorTy} :
    isValidSubtype (.tensor s) (.tensor t) = true ↔ tensorSub s t = true := by
  rw [sub_tensor (by intro ts h; cases h)]
  constructor
  · rintro (h | ⟨s', h, h'⟩)
    · cases h; exact tensorSub_refl s
    · cases h; exact h'
  · intro h; exact Or.inr ⟨s, rfl, h⟩

/-! ### Algebra of the meet -/

theorem isSubsizes_antisymm {a b : List Int} (h1 : isSubsizes a b = true) (h2 : isSubsizes b a = true) :
    a = b := by
  induction a generalizing b with
  | nil => cases b <;> simp_all [isSubsizes]
  | cons x xs ih =>
    cases b with
    | nil => simp [isSubsizes] at h1
    | cons y ys =>
      simp only [isSubsizes, Bool.and_eq_true, Bool.not_eq_true', Bool.and_eq_false_iff,
        bne_eq_false_iff_eq, kUnknownSize] at h1 h2
      rw [ih h1.2 h2.2]
      congr 1
      omega

theorem eq_of_describes {a b : TensorTy} (ha : WellFormed a) (hb : WellFormed b)
    (hs : a.sparsity = b.sparsity) (h : ∀ x, TensorDescribes a x ↔ TensorDescribes b x) : a = b := by
  have h1 := tensorSub_iff.mp (tensorSub_complete ha (fun x => (h x).mp))
  have h2 := tensorSub_iff.mp (tensorSub_complete hb (fun x => (h x).mpr))
  obtain ⟨av, as, ad, asp⟩ := a
  obtain ⟨bv, bs, bd, bsp⟩ := b
  simp only at h1 h2 hs
  have e1 : ad = bd := by
    cases ad with
    | none =>
      cases bd with
      | none => rfl
      | some d => exact h1.2.1 d rfl
    | some d => exact (h2.2.1 d rfl).symm
  have e2 : as = bs := by
    cases as with
    | none =>
      cases bs with
      | none => rfl
      | some d => obtain ⟨_, h, _⟩ := h1.2.2 d rfl; cases h
    | some s =>
      obtain ⟨s', h, h'⟩ := h2.2.2 s rfl
      subst h
      obtain ⟨s'', h3, h4⟩ := h1.2.2 s' rfl
      cases h3
      rw [isSubsizes_antisymm h' h4]
  rw [e1, e2, hs, h1.1]

theorem meet_sparsity {l r m : TensorTy} (h : meetTensorTypes l r = some m) : m.sparsity = none := by
  unfold meetTensorTypes at h
  simp only at h
  split at h
  · cases h
  · split at h
    · cases h; rfl
    · repeat' split at h
      all_goals first | (cases h; rfl) | cases h

theorem meet_value {l r m : TensorTy} (hr : Regular l r) (h : meetTensorTypes l r = some m) :
    m.value = l.value ∧ (l.sizes.isSome ∨ r.sizes.isSome → m.sizes.isSome) := by
  obtain ⟨lv, ls, ld, lsp⟩ := l
  obtain ⟨rv, rs, rd, rsp⟩ := r
  obtain ⟨hv, hr⟩ := hr
  unfold meetTensorTypes at h
  simp only at h hr hv ⊢
  split at h
  · cases h
  · cases ls <;> cases rs <;> simp only [meetSizes_self] at h
    · cases h; simp at hr; simp [hr]
    · cases h; simp
    · cases h; simp
    · split at h
      · cases h
      · split at h
        · cases h; simp
        · cases h

theorem regular_symm {l r : TensorTy} (h : Regular l r) : Regular r l := by
  obtain ⟨h1, h2⟩ := h
  refine ⟨h1.symm, ?_⟩
  rw [← h1]
  rcases h2 with h | h | h <;> simp [h]

theorem meet_some_of_describes {l r : TensorTy} {x : Tensor} (hl : TensorDescribes l x)
    (hr : TensorDescribes r x) : ∃ m, meetTensorTypes l r = some m := by
  cases h : meetTensorTypes l r with
  | none => exact absurd ⟨hl, hr⟩ (meet_none h x)
  | some m => exact ⟨m, rfl⟩

theorem meet_comm {l r : TensorTy} (h : Regular l r) (hl : WellFormed l) (hr : WellFormed r) :
    meetTensorTypes l r = meetTensorTypes r l := by
  cases h1 : meetTensorTypes l r with
  | none =>
    cases h2 : meetTensorTypes r l with
    | none => rfl
    | some m =>
      obtain ⟨x, hx⟩ := describes_exists (meet_wf hr hl h2)
      rw [meet_describes (regular_symm h) h2] at hx
      exact absurd ⟨hx.2, hx.1⟩ (meet_none h1 x)
  | some m =>
    have hwf := meet_wf hl hr h1
    obtain ⟨x, hx⟩ := describes_exists hwf
    rw [meet_describes h h1] at hx
    obtain ⟨m', hm'⟩ := meet_some_of_describes hx.2 hx.1
    rw [hm']
    congr 1
    apply eq_of_describes hwf (meet_wf hr hl hm')
    · rw [meet_sparsity h1, meet_sparsity hm']
    · intro y
      rw [meet_describes h h1, meet_describes (regular_symm h) hm', and_comm]

theorem regular_meet_left {l r m t : TensorTy} (h : Regular l r) (h' : Regular r t)
    (hm : meetTensorTypes l r = some m) : Regular m t := by
  have := meet_value h hm
  refine ⟨by rw [this.1, h.1, h'.1], ?_⟩
  rw [this.1]
  rcases h.2 with hv | hs | hs
  · exact Or.inl hv
  · exact Or.inr (Or.inl (this.2 (Or.inl hs)))
  · exact Or.inr (Or.inl (this.2 (Or.inr hs)))

theorem meet_assoc {l r t : TensorTy} (h : Regular l r) (h' : Regular r t) (hl : WellFormed l)
    (hr : WellFormed r) (ht : WellFormed t) :
    ((meetTensorTypes l r).bind fun m => meetTensorTypes m t) =
      ((meetTensorTypes r t).bind fun m => meetTensorTypes l m) := by
  cases h1 : meetTensorTypes l r with
  | none =>
    cases h2 : meetTensorTypes r t with
    | none => rfl
    | some m =>
      simp only [Option.bind_none, Option.bind_some]
      cases h3 : meetTensorTypes l m with
      | none => rfl
      | some m' =>
        have hreg : Regular l m := regular_symm (regular_meet_left (regular_symm h') (regular_symm h) (by rw [← h2, meet_comm h' hr ht]))
        obtain ⟨x, hx⟩ := describes_exists (meet_wf hl (meet_wf hr ht h2) h3)
        rw [meet_describes hreg h3, meet_describes h' h2] at hx
        exact absurd ⟨hx.1, hx.2.1⟩ (meet_none h1 x)
  | some m =>
    have hm := meet_wf hl hr h1
    have hreg := regular_meet_left h h' h1
    simp only [Option.bind_some]
    cases h2 : meetTensorTypes r t with
    | none =>
      simp only [Option.bind_none]
      cases h3 : meetTensorTypes m t with
      | none => rfl
      | some m' =>
        obtain ⟨x, hx⟩ := describes_exists (meet_wf hm ht h3)
        rw [meet_describes hreg h3, meet_describes h h1] at hx
        exact absurd ⟨hx.1.2, hx.2⟩ (meet_none h2 x)
    | some k =>
      have hk := meet_wf hr ht h2
      have hreg' : Regular l k := regular_symm (regular_meet_left (regular_symm h') (regular_symm h) (by rw [← h2, meet_comm h' hr ht]))
      simp only [Option.bind_some]
      have key : ∀ x, (TensorDescribes m x ∧ TensorDescribes t x) ↔
          (TensorDescribes l x ∧ TensorDescribes k x) := by
        intro x
        rw [meet_describes h h1, meet_describes h' h2, and_assoc]
      cases h3 : meetTensorTypes m t with
      | none =>
        cases h4 : meetTensorTypes l k with
        | none => rfl
        | some m' =>
          obtain ⟨x, hx⟩ := describes_exists (meet_wf hl hk h4)
          rw [meet_describes hreg' h4, ← key] at hx
          exact absurd hx (meet_none h3 x)
      | some m1 =>
        have hm1 := meet_wf hm ht h3
        obtain ⟨x, hx⟩ := describes_exists hm1
        rw [meet_describes hreg h3, key] at hx
        obtain ⟨m', hm'⟩ := meet_some_of_describes hx.1 hx.2
        rw [hm']
        congr 1
        apply eq_of_describes hm1 (meet_wf hl hk hm')
        · rw [meet_sparsity h3, meet_sparsity hm']
        · intro y
          rw [meet_describes hreg h3, meet_describes hreg' hm', key]

theorem meet_idem (t : TensorTy) (h : Regular t t) :
    meetTensorTypes t t = some { t with sparsity := none } := by
  obtain ⟨v, s, d, sp⟩ := t
  obtain ⟨_, h⟩ := h
  unfold meetTensorTypes
  cases s with
  | none => cases d <;> simp at h ⊢ <;> exact h
  | some s => cases d <;> simp [meetSizes_self]

/-! ### Subtypings that must be accepted -/

theorem sub_widen (n : Nat) : ∀ a : Ty, sizeOf a ≤ n → ∀ b, isValidSubtype a b = true →
    isValidSubtype a (.optional b) = true ∧ ∀ ts, b ∈ ts → isValidSubtype a (.union ts) = true := by
  induction n with
  | zero => intro a h; cases a <;> simp at h
  | succ n ih =>
    intro a hn b hab
    rcases notUnion_or a with ⟨ss, rfl⟩ | ha
    · have key : ∀ s ∈ ss, isValidSubtype s b = true := by
        intro s hs
        rcases sub_union_left.mp hab with h | h
        · have := sizeOf_mem_lt hs
          rw [← h]
          exact (ih s (by simp at hn; omega) s (sub_refl s)).2 ss hs
        · exact h s hs
      constructor
      · rw [sub_union_left]
        right
        intro s hs
        have := sizeOf_mem_lt hs
        exact (ih s (by simp at hn; omega) b (key s hs)).1
      · intro ts hb
        rw [sub_union_left]
        right
        intro s hs
        have := sizeOf_mem_lt hs
        exact (ih s (by simp at hn; omega) b (key s hs)).2 ts hb
    · exact ⟨(sub_optional ha).mpr (Or.inr (Or.inl hab)),
        fun ts hb => (sub_union_right ha).mpr ⟨b, hb, hab⟩⟩

theorem sub_any_all (n : Nat) : ∀ a : Ty, sizeOf a ≤ n → isValidSubtype a .any = true := by
  induction n with
  | zero => intro a h; cases a <;> simp at h
  | succ n ih =>
    intro a hn
    rcases notUnion_or a with ⟨ss, rfl⟩ | ha
    · rw [sub_union_left]
      right
      intro s hs
      have := sizeOf_mem_lt hs
      exact ih s (by simp at hn; omega)
    · exact sub_any ha

end Verif.Types
