import Verif.Lemmas.Types

/-! # C46, C47: subtyping and the meet of tensor types -/

namespace Verif

open Verif.Types Verif.TypesSpec

/-- **C46.** The subtype check accepts every type against itself. -/
theorem C46_reflexive (t : Ty) : isValidSubtype t t = true := sub_refl t

/-- **C46.** The subtype check is transitive. -/
theorem C46_transitive (a b c : Ty) (h1 : isValidSubtype a b = true) (h2 : isValidSubtype b c = true) :
    isValidSubtype a c = true :=
  sub_trans_aux _ a b c (Nat.le_refl _) h1 h2

/-- **C46 (disagreement).** The check ignores sparsity: the type of a sparse tensor is a subtype of
the dense tensor type of the same sizes and dtype, although its values are stored differently. -/
theorem C46_violated : ∃ s t : Ty, isValidSubtype s t = true ∧
    ∃ v, Mem TensorDescribesLayout s v ∧ ¬ Mem TensorDescribesLayout t v := by
  refine ⟨.tensor ⟨true, some [2], some 6, some 1⟩, .tensor ⟨true, some [2], some 6, none⟩,
    isValidSubtype_tensor.mpr (by decide), .tensor ⟨true, [2], 6, some 1⟩, ?_, ?_⟩
  · exact ⟨_, rfl, ⟨rfl, ⟨Or.inr rfl, trivial⟩, rfl⟩, rfl⟩
  · rintro ⟨x, hx, h⟩
    cases hx
    exact absurd h.2 (by simp)

/-- **C46 (partial).** Whenever the check accepts, every value of the first type is a value of the
second — for all types, nested unions, optionals and tuples included.
Missing: the storage layout of tensors (false, see `C46_violated`). -/
theorem C46_sound_partial (s t : Ty) (h : isValidSubtype s t = true) (v : Val)
    (hv : Mem TensorDescribes s v) : Mem TensorDescribes t v :=
  sub_sound_aux TensorDescribes (fun _ _ h _ hx => tensorSub_sound h hx) _ s t (Nat.le_refl _) h v hv

/-- C46: on tensor types the check accepts *exactly* the inclusions of the described tensors. -/
theorem C46_tensor_exact_partial (s t : TensorTy) (hs : WellFormed s) :
    isValidSubtype (.tensor s) (.tensor t) = true ↔ ∀ x, TensorDescribes s x → TensorDescribes t x := by
  rw [isValidSubtype_tensor]
  exact ⟨fun h x hx => tensorSub_sound h hx, tensorSub_complete hs⟩

/-- C46: widenings the compiler relies on are accepted. -/
theorem C46_widening (a b : Ty) (h : isValidSubtype a b = true) :
    isValidSubtype a .any = true ∧ isValidSubtype a (.optional b) = true ∧
    isValidSubtype .none (.optional b) = true ∧ (∀ ts, b ∈ ts → isValidSubtype a (.union ts) = true) ∧
    isValidSubtype .int .number = true ∧ isValidSubtype .float .number = true := by
  have hw := sub_widen _ a (Nat.le_refl _) b h
  refine ⟨sub_any_all _ a (Nat.le_refl _), hw.1, ?_, hw.2, ?_, ?_⟩
  · exact (sub_optional (by intro ts h; cases h)).mpr (Or.inr (Or.inr rfl))
  · exact (sub_number (by intro ts h; cases h)).mpr (Or.inr (Or.inl rfl))
  · exact (sub_number (by intro ts h; cases h)).mpr (Or.inr (Or.inr rfl))

/-- Accepted: `union<int, tuple<vtensor<[2,?],f32>, none>>` against
`optional<union<number, tuple<vtensor<*,f32>, optional<int>>>>`. -/
example : isValidSubtype
    (.union [.int, .tuple [.tensor ⟨true, some [2, -1], some 6, none⟩, .none]])
    (.optional (.union [.number, .tuple [.tensor ⟨true, none, some 6, none⟩, .optional .int]])) = true := by
  simp [isValidSubtype, allSub, anySub, zipSub, tyEq, tysEq, tensorSub]

/-- Rejected: `vtensor<[?],f32>` against `vtensor<[2],f32>`. -/
example : isValidSubtype (.tensor ⟨true, some [-1], some 6, none⟩) (.tensor ⟨true, some [2], some 6, none⟩)
    = false := by
  simp [isValidSubtype, tyEq, tensorSub, isSubsizes, kUnknownSize]

/-- **C47 (disagreement).** Combining two mutable tensor types without sizes gives an immutable one;
and combining a sparse tensor type with itself loses the sparsity. -/
theorem C47_violated :
    meetTensorTypes ⟨false, none, some 6, none⟩ ⟨false, none, some 6, none⟩
      = some ⟨true, none, some 6, none⟩ ∧
    meetTensorTypes ⟨true, some [2], some 6, some 1⟩ ⟨true, some [2], some 6, some 1⟩
      = some ⟨true, some [2], some 6, none⟩ := by decide +kernel

/-- **C47 (partial).** The combined type describes exactly the tensors described by both types.
Missing here and below: two non-value tensor types both without sizes, and sparsity encodings
(false, see `C47_violated`). -/
theorem C47_meet_is_intersection_partial (l r m : TensorTy) (hreg : Regular l r)
    (h : meetTensorTypes l r = some m) (x : Tensor) :
    TensorDescribes m x ↔ TensorDescribes l x ∧ TensorDescribes r x :=
  meet_describes hreg h x

/-- **C47 (partial).** In terms of the subtype check: the combination is a lower bound, and the
greatest one. -/
theorem C47_greatest_lower_bound_partial (l r m : TensorTy) (hl : WellFormed l) (hr : WellFormed r)
    (hreg : Regular l r) (h : meetTensorTypes l r = some m) :
    isValidSubtype (.tensor m) (.tensor l) = true ∧ isValidSubtype (.tensor m) (.tensor r) = true ∧
    ∀ c, WellFormed c → isValidSubtype (.tensor c) (.tensor l) = true →
      isValidSubtype (.tensor c) (.tensor r) = true → isValidSubtype (.tensor c) (.tensor m) = true := by
  have hm := meet_wf hl hr h
  simp only [isValidSubtype_tensor]
  refine ⟨tensorSub_complete hm fun x hx => ((meet_describes hreg h x).mp hx).1,
    tensorSub_complete hm fun x hx => ((meet_describes hreg h x).mp hx).2, ?_⟩
  intro c hc h1 h2
  exact tensorSub_complete hc fun x hx =>
    (meet_describes hreg h x).mpr ⟨tensorSub_sound h1 hx, tensorSub_sound h2 hx⟩

/-- **C47.** Combining fails exactly if no tensor is described by both types. -/
theorem C47_fails_iff_disjoint_partial (l r : TensorTy) (hl : WellFormed l) (hr : WellFormed r)
    (hreg : Regular l r) :
    meetTensorTypes l r = none ↔ ¬ ∃ x, TensorDescribes l x ∧ TensorDescribes r x := by
  constructor
  · rintro h ⟨x, hx⟩
    exact meet_none h x hx
  · intro h
    cases hm : meetTensorTypes l r with
    | none => rfl
    | some m =>
      obtain ⟨x, hx⟩ := describes_exists (meet_wf hl hr hm)
      exact absurd ⟨x, (meet_describes hreg hm x).mp hx⟩ h

/-- **C47 (partial).** Commutative. -/
theorem C47_commutative_partial (l r : TensorTy) (hl : WellFormed l) (hr : WellFormed r)
    (hreg : Regular l r) : meetTensorTypes l r = meetTensorTypes r l :=
  meet_comm hreg hl hr

/-- **C47 (partial).** Associative (failure included). -/
theorem C47_associative_partial (l r t : TensorTy) (hl : WellFormed l) (hr : WellFormed r)
    (ht : WellFormed t) (h : Regular l r) (h' : Regular r t) :
    ((meetTensorTypes l r).bind fun m => meetTensorTypes m t) =
      ((meetTensorTypes r t).bind fun m => meetTensorTypes l m) :=
  meet_assoc h h' hl hr ht

/-- **C47 (partial).** Idempotent, up to the dropped sparsity. -/
theorem C47_idempotent_partial (t : TensorTy) (h : Regular t t) :
    meetTensorTypes t t = some { t with sparsity := none } := meet_idem t h

/-- **C47 (partial).** The value/non-value distinction is kept. -/
theorem C47_keeps_valueness_partial (l r m : TensorTy) (hreg : Regular l r)
    (h : meetTensorTypes l r = some m) : m.value = l.value ∧ m.value = r.value :=
  ⟨(meet_value hreg h).1, (meet_value hreg h).1.trans hreg.1⟩

/-- A case that combines information from both sides, and one that fails. -/
example : Regular ⟨true, some [2, -1], none, none⟩ ⟨true, some [-1, 3], some 6, none⟩ ∧
    meetTensorTypes ⟨true, some [2, -1], none, none⟩ ⟨true, some [-1, 3], some 6, none⟩
      = some ⟨true, some [2, 3], some 6, none⟩ ∧
    meetTensorTypes ⟨true, some [2, -1], none, none⟩ ⟨true, some [4, 3], some 6, none⟩ = none := by
  refine ⟨⟨rfl, Or.inl rfl⟩, ?_, ?_⟩ <;> decide +kernel

end Verif
