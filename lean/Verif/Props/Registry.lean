import Verif.Spec.Registry

/-!
# C51, C65, C66: names and traits generated from the operator registry
-/

namespace Verif.Reg

theorem partitionColons_append (a b : Text) (ha : ':' ∉ a) :
    partitionColons (a ++ ':' :: ':' :: b) = (a, b) := by
  induction a with
  | nil => simp [partitionColons]
  | cons c a ih =>
    have hc : c ≠ ':' := fun e => ha (by simp [e])
    have ih := ih fun h => ha (by simp [h])
    cases a with
    | nil =>
      show partitionColons (c :: ':' :: ':' :: b) = _
      rw [partitionColons, if_neg (fun h => hc h.1)]
      have : partitionColons (':' :: ':' :: b) = ([], b) := ih
      rw [this]
    | cons d a =>
      show partitionColons (c :: d :: (a ++ ':' :: ':' :: b)) = _
      rw [partitionColons, if_neg (fun h => hc h.1)]
      have : partitionColons (d :: (a ++ ':' :: ':' :: b)) = (d :: a, b) := ih
      rw [this]

theorem append_sep_inj {c : Char} {a a' r r' : Text} (h1 : c ∉ a) (h2 : c ∉ a')
    (h : a ++ c :: r = a' ++ c :: r') : a = a' ∧ r = r' := by
  induction a generalizing a' with
  | nil =>
    cases a' with
    | nil => simp at h; exact ⟨rfl, h⟩
    | cons x a' =>
      simp only [List.nil_append, List.cons_append, List.cons.injEq] at h
      exact absurd (by simp [h.1]) h2
  | cons x a ih =>
    cases a' with
    | nil =>
      simp only [List.nil_append, List.cons_append, List.cons.injEq] at h
      exact absurd (by simp [h.1]) h1
    | cons y a' =>
      simp only [List.cons_append, List.cons.injEq] at h
      have := ih (fun h' => h1 (by simp [h'])) (fun h' => h2 (by simp [h'])) h.2
      exact ⟨by rw [h.1, this.1], this.2⟩

theorem opName_eq (o : Op) :
    o.opName = o.ns ++ '.' :: (o.name ++ (if o.overload = [] then [] else '.' :: o.overload)) := by
  unfold Op.opName Op.atoms
  split <;> simp [pyJoin]

/-- With a tail that is empty or starts at the separator. -/
theorem tail_inj {c : Char} {a a' o o' : Text} (h1 : c ∉ a) (h2 : c ∉ a')
    (h : a ++ (if o = [] then [] else c :: o) = a' ++ (if o' = [] then [] else c :: o')) :
    a = a' ∧ o = o' := by
  by_cases ho : o = []
  · by_cases ho' : o' = []
    · simp only [ho, ho', if_true, List.append_nil] at h
      exact ⟨h, by rw [ho, ho']⟩
    · simp only [ho, ho', if_true, if_false, List.append_nil] at h
      exact absurd (by rw [h]; simp) h1
  · by_cases ho' : o' = []
    · simp only [ho, ho', if_true, if_false, List.append_nil] at h
      exact absurd (by rw [← h]; simp) h2
    · simp only [ho, ho', if_false] at h
      exact append_sep_inj h1 h2 h

end Verif.Reg

namespace Verif

open Reg

/-- C51: operators whose namespace and name have no dots and whose op names are equal have the same
namespace, name and overload. -/
theorem C51_op_name_partial (o o' : Op) (h1 : '.' ∉ o.ns ∧ '.' ∉ o.name)
    (h2 : '.' ∉ o'.ns ∧ '.' ∉ o'.name) (h : o.opName = o'.opName) : o.triple = o'.triple := by
  rw [opName_eq, opName_eq] at h
  obtain ⟨e1, e2⟩ := append_sep_inj h1.1 h2.1 h
  obtain ⟨e3, e4⟩ := tail_inj h1.2 h2.2 e2
  simp [Op.triple, e1, e3, e4]

/-- C51: operators registered under different qualified names, or different overload names, get different op
names. -/
theorem C51_qualified_partial (q q' ov ov' : Text) (va vr va' vr' : Bool)
    (args rets args' rets' : List Param) (hq : Qualified q) (hq' : Qualified q')
    (h : (q, ov) ≠ (q', ov')) :
    (Op.ofInfo q ov va vr args rets).opName ≠ (Op.ofInfo q' ov' va' vr' args' rets').opName := by
  obtain ⟨a, b, rfl, ⟨ha, hac⟩, hb⟩ := hq
  obtain ⟨a', b', rfl, ⟨ha', hac'⟩, hb'⟩ := hq'
  intro e
  have p1 := partitionColons_append a b hac
  have p2 := partitionColons_append a' b' hac'
  have := C51_op_name_partial _ _
    (by unfold Op.ofInfo; rw [p1]; exact ⟨ha, hb⟩) (by unfold Op.ofInfo; rw [p2]; exact ⟨ha', hb'⟩) e
  simp only [Op.triple, Op.ofInfo, p1, p2, Prod.mk.injEq] at this
  obtain ⟨rfl, rfl, rfl⟩ := this
  exact h rfl

/-- C51: the op name determines namespace, name and overload by splitting at the dots. -/
theorem C51_op_name_atoms (o : Op) (h : '.' ∉ o.ns ∧ '.' ∉ o.name ∧ '.' ∉ o.overload) :
    pySplit '.' o.opName = [o.ns, o.name] ++ (if o.overload = [] then [] else [o.overload]) := by
  unfold Op.opName
  apply pySplit_pyJoin
  · simp [Op.atoms]
  · intro t ht
    unfold Op.atoms at ht
    rcases List.mem_append.mp ht with ht | ht
    · simp only [List.mem_cons, List.not_mem_nil, or_false] at ht
      rcases ht with rfl | rfl
      · exact h.1
      · exact h.2.1
    · split at ht
      · simp at ht
      · rw [List.mem_singleton.mp ht]; exact h.2.2

/-- C51 fails for names with dots: `a::b.c` and overload `c` of `a::b` get the same op name. -/
theorem C51_violated : ∃ q q' ov ov', (q, ov) ≠ (q', ov') ∧
    (Op.ofInfo q ov false false [] []).opName = (Op.ofInfo q' ov' false false [] []).opName :=
  ⟨"a::b.c".toList, "a::b".toList, [], "c".toList, by decide, by decide⟩

theorem Reg.identChar_toUpper {c : Char} (h : identChar c = true) : identChar c.toUpper = true := by
  unfold identChar at h ⊢
  by_cases hl : c.isLower = true
  · have : c.toUpper.isUpper = true := by
      have h97 : 97 ≤ c.toNat ∧ c.toNat ≤ 122 := by
        simp only [Char.isLower, Bool.and_eq_true, decide_eq_true_eq] at hl
        exact hl
      have : ∀ n : Fin 26, (Char.ofNat (97 + n)).toUpper.isUpper = true := by decide
      have := this ⟨c.toNat - 97, by omega⟩
      rwa [show 97 + (⟨c.toNat - 97, by omega⟩ : Fin 26).val = c.toNat by simp; omega,
        Char.ofNat_toNat] at this
    simp [Char.isAlphanum, Char.isAlpha, this]
  · have : c.toUpper = c := by
      unfold Char.toUpper
      simp only [Char.isLower, Bool.and_eq_true, decide_eq_true_eq] at hl
      split
      · rename_i h'; exact absurd h' hl
      · rfl
    rw [this]; exact h

/-- C51: from names made of identifier characters comes a C++ class name that is an identifier, does not start
with an underscore, and ends with `Op`. -/
theorem C51_class_name (o : Op) (h : ∀ c ∈ o.ns ++ o.name ++ o.overload, identChar c = true) :
    GoodClassName o.className := by
  have hatoms : ∀ a ∈ o.atoms, ∀ c ∈ a, identChar c = true := by
    intro a ha c hc
    apply h c
    unfold Op.atoms at ha
    rcases List.mem_append.mp ha with ha | ha
    · simp only [List.mem_cons, List.not_mem_nil, or_false] at ha
      rcases ha with rfl | rfl
      · simp [hc]
      · simp [hc]
    · split at ha
      · simp at ha
      · rw [List.mem_singleton.mp ha] at hc; simp [hc]
  have hclass : ∀ s ∈ o.classAtoms, ∀ c ∈ s, identChar c = true := by
    intro s hs c hc
    unfold Op.classAtoms at hs
    obtain ⟨t, ht, rfl⟩ := List.mem_map.mp hs
    obtain ⟨l, hl, ht⟩ := List.mem_flatten.mp ht
    obtain ⟨a, ha, rfl⟩ := List.mem_map.mp hl
    unfold orUnder at hc
    split at hc
    · rw [List.mem_singleton.mp hc]; decide
    · exact hatoms a ha c (mem_of_mem_pySplit ht hc)
  have hup : ∀ c ∈ (o.classAtoms.map upperFirst).flatten ++ ['O', 'p'], identChar c = true := by
    intro c hc
    rcases List.mem_append.mp hc with hc | hc
    · obtain ⟨l, hl, hc⟩ := List.mem_flatten.mp hc
      obtain ⟨s, hs, rfl⟩ := List.mem_map.mp hl
      cases s with
      | nil => simp [upperFirst] at hc
      | cons x s =>
        rcases List.mem_cons.mp hc with rfl | hc
        · exact identChar_toUpper (hclass _ hs x (by simp))
        · exact hclass _ hs c (by simp [hc])
    · simp only [List.mem_cons, List.not_mem_nil, or_false] at hc
      rcases hc with rfl | rfl <;> decide
  refine ⟨fun c hc => hup c ((List.dropWhile_sublist _).mem hc), ?_, ?_⟩
  · unfold Op.className
    intro e
    have := List.head?_dropWhile_not (fun c : Char => decide (c = '_'))
      ((o.classAtoms.map upperFirst).flatten ++ ['O', 'p'])
    rw [e] at this
    simp at this
  · unfold Op.className
    generalize (o.classAtoms.map upperFirst).flatten = l
    induction l with
    | nil => exact ⟨[], by decide⟩
    | cons c l ih =>
      rw [List.cons_append, List.dropWhile_cons]
      split
      · exact ih
      · exact ⟨c :: l, rfl⟩

/-- C51: C++ class names, unlike op names, can coincide: `index_Tensor` and overload `Tensor` of `index`. -/
theorem C51_class_name_collision : ∃ o o' : Op, o.triple ≠ o'.triple ∧ o.opName ≠ o'.opName ∧
    o.className = o'.className :=
  ⟨⟨"aten".toList, "index_Tensor".toList, [], false, false, [], []⟩,
    ⟨"aten".toList, "index".toList, "Tensor".toList, false, false, [], []⟩, by decide, by decide,
    by decide⟩

/-- C51: operators with the same unique key have the same namespace, name and overload. -/
theorem C51_unique_key_partial (o o' : Op)
    (h1 : PlainName o.ns ∧ PlainName o.name ∧ ' ' ∉ o.overload)
    (h2 : PlainName o'.ns ∧ PlainName o'.name ∧ ' ' ∉ o'.overload)
    (h : o.uniqueKey = o'.uniqueKey) : o.triple = o'.triple := by
  have key : ∀ p : Op, p.uniqueKey = (p.ns ++ ':' :: ':' :: (p.name ++
      (if p.overload = [] then [] else '.' :: p.overload))) ++ ' ' :: (": (".toList ++
      (typeList p.isVararg p.args ++ (") -> (".toList ++ (typeList p.isVarret p.rets ++ [')'])))) := by
    intro p
    unfold Op.uniqueKey
    have e : " : (".toList = ' ' :: ": (".toList := by decide
    rw [e]
    simp [List.append_assoc]
  have nosp : ∀ p : Op, PlainName p.ns ∧ PlainName p.name ∧ ' ' ∉ p.overload →
      ' ' ∉ p.ns ++ ':' :: ':' :: (p.name ++ (if p.overload = [] then [] else '.' :: p.overload)) := by
    rintro p ⟨⟨-, -, a⟩, ⟨-, -, b⟩, c⟩
    by_cases ho : p.overload = []
    · simp [ho, a, b]
    · simp [ho, a, b, c]
  rw [key o, key o'] at h
  obtain ⟨e1, -⟩ := append_sep_inj (nosp o h1) (nosp o' h2) h
  obtain ⟨e2, e3⟩ := append_sep_inj h1.1.2.1 h2.1.2.1 e1
  simp only [List.cons.injEq, true_and] at e3
  obtain ⟨e4, e5⟩ := tail_inj h1.2.1.1 h2.2.1.1 e3
  simp [Op.triple, e2, e4, e5]

example : (Op.ofInfo "aten::add_".toList "Tensor".toList false false [] []).opName =
    "aten.add_.Tensor".toList ∧
    (Op.ofInfo "aten::add_".toList "Tensor".toList false false [] []).className =
    "AtenAdd_TensorOp".toList := by decide

example : (Op.ofInfo "aten::_log_softmax".toList [] false false [] []).className =
    "Aten_LogSoftmaxOp".toList := by decide

example : (Op.ofInfo "aten::add".toList "Tensor".toList false false
    [⟨"Tensor".toList, none⟩, ⟨"Scalar".toList, none⟩] [⟨"Tensor".toList, none⟩]).uniqueKey =
    "aten::add.Tensor : (Tensor, Scalar) -> (Tensor)".toList := by decide +kernel

/-! ## C65: library functions and their operators -/

namespace Reg

theorem byTriple_fold (ops : List Op) (r : Registry) (t : Text × Text × Text) :
    dictGet (ops.foldl Registry.add r).byTriple t =
      match (ops.filter fun o => o.triple = t).getLast? with
      | some o => some o
      | none => dictGet r.byTriple t := by
  induction ops generalizing r with
  | nil => simp
  | cons o ops ih =>
    rw [List.foldl_cons, ih]
    by_cases h : o.triple = t
    · simp only [List.filter_cons, h, decide_true, if_true]
      cases hf : ops.filter (fun o => o.triple = t) with
      | nil => simp [Registry.add, h]
      | cons x xs =>
        rw [List.getLast?_cons_cons]
        cases hh : (x :: xs).getLast? with
        | none => simp at hh
        | some y => rfl
    · simp only [List.filter_cons, h, decide_false, Bool.false_eq_true, if_false]
      cases hf : (ops.filter (fun o => o.triple = t)).getLast? with
      | some y => rfl
      | none => simp [Registry.add, dictGet_set, h]

theorem defName_split (o : Op) (kind : Text) (h : PlainAtom o.ns ∧ PlainAtom o.name ∧ PlainAtom o.overload)
    (hk : '〡' ∉ kind) :
    ∃ f, pySplit '〡' (o.defName kind) = [f, kind] ∧ tripleOf (pySplit '〇' f) = some o.triple := by
  obtain ⟨h1, h2, h3⟩ := h
  have hs := C51_op_name_atoms o ⟨h1.1, h2.1, h3.1⟩
  have hall : ∀ t ∈ pySplit '.' o.opName, '〇' ∉ t ∧ '〡' ∉ t := by
    rw [hs]
    intro t ht
    rcases List.mem_append.mp ht with ht | ht
    · simp only [List.mem_cons, List.not_mem_nil, or_false] at ht
      rcases ht with rfl | rfl
      · exact h1.2
      · exact h2.2
    · split at ht
      · simp at ht
      · rw [List.mem_singleton.mp ht]; exact h3.2
  have hbar : '〡' ∉ pyJoin ['〇'] (pySplit '.' o.opName) := by
    generalize pySplit '.' o.opName = l at hall
    induction l with
    | nil => simp [pyJoin]
    | cons t ts ih =>
      have ih := ih fun x hx => hall x (by simp [hx])
      have ht := (hall t (by simp)).2
      cases ts with
      | nil => exact ht
      | cons u us =>
        show '〡' ∉ t ++ ['〇'] ++ pyJoin ['〇'] (u :: us)
        simp only [List.mem_append, List.mem_singleton, not_or]
        exact ⟨⟨ht, by decide⟩, ih⟩
  refine ⟨pyJoin ['〇'] (pySplit '.' o.opName), ?_, ?_⟩
  · unfold Op.defName
    rw [pySplit_append hbar, pySplit_plain hk]
  · rw [pySplit_pyJoin _ (pySplit_ne_nil _ _) (fun t ht => (hall t ht).1), hs]
    by_cases ho : o.overload = []
    · simp [ho, tripleOf, Op.triple]
    · simp [ho, tripleOf, Op.triple]

end Reg

/-- C65: the generated name of a library function leads back to its operator: in a registry where the
operators have different triples, the check that reads the name finds the very operator, with the kind. -/
theorem C65_round_trip_partial (ops : List Op) (o : Op) (kind : Text) (ho : o ∈ ops)
    (hd : ∀ p ∈ ops, p.triple = o.triple → p = o)
    (h : PlainAtom o.ns ∧ PlainAtom o.name ∧ PlainAtom o.overload) (hk : '〡' ∉ kind) :
    operatorOf (Registry.ofOps ops) (o.defName kind) = .ok (o, kind) := by
  obtain ⟨f, h1, h2⟩ := defName_split o kind h hk
  unfold operatorOf
  rw [h1]
  simp only [h2, Option.bind_some]
  unfold Registry.ofOps
  rw [byTriple_fold]
  have hmem : o ∈ ops.filter fun p => p.triple = o.triple := by simp [ho]
  cases hl : (ops.filter fun p => p.triple = o.triple).getLast? with
  | none =>
    rw [List.getLast?_eq_none_iff] at hl
    rw [hl] at hmem
    simp at hmem
  | some p =>
    have hp := List.mem_of_getLast? hl
    simp only [List.mem_filter, decide_eq_true_eq] at hp
    rw [hd p hp.1 hp.2]

/-- C65: functions named for different operators, or of different kinds, have different names. -/
theorem C65_names_differ_partial (o o' : Op) (kind kind' : Text)
    (h : PlainAtom o.ns ∧ PlainAtom o.name ∧ PlainAtom o.overload)
    (h' : PlainAtom o'.ns ∧ PlainAtom o'.name ∧ PlainAtom o'.overload)
    (hk : '〡' ∉ kind) (hk' : '〡' ∉ kind') (e : o.defName kind = o'.defName kind') :
    o.triple = o'.triple ∧ kind = kind' := by
  obtain ⟨f, h1, h2⟩ := defName_split o kind h hk
  obtain ⟨f', h1', h2'⟩ := defName_split o' kind' h' hk'
  rw [e, h1'] at h1
  simp only [List.cons.injEq, and_true] at h1
  obtain ⟨rfl, rfl⟩ := h1
  rw [h2] at h2'
  exact ⟨Option.some.inj h2', rfl⟩

/-- C65: a name for no operator of the registry is rejected. -/
theorem C65_unknown_rejected (ops : List Op) (fname : Text)
    (h : ∀ f kind t, pySplit '〡' fname = [f, kind] → tripleOf (pySplit '〇' f) = some t →
      ∀ o ∈ ops, o.triple ≠ t) :
    operatorOf (Registry.ofOps ops) fname = .error .valueError := by
  unfold operatorOf
  split
  · rename_i f kind hs
    cases ht : tripleOf (pySplit '〇' f) with
    | none => rfl
    | some t =>
      simp only [Option.bind_some]
      unfold Registry.ofOps
      rw [byTriple_fold]
      have : (ops.filter fun o => o.triple = t) = [] := by
        rw [List.filter_eq_nil_iff]
        intro o ho
        simpa using h f kind t hs ht o ho
      rw [this]
      rfl
  · rfl

/-- C65 fails for names with dots: the name leads to another operator. -/
theorem C65_violated : ∃ (o p : Op) (kind : Text), o ≠ p ∧
    operatorOf (Registry.ofOps [o, p]) (o.defName kind) = .ok (p, kind) :=
  ⟨⟨"a".toList, "b.c".toList, [], false, false, [], []⟩,
    ⟨"a".toList, "b".toList, "c".toList, false, false, [], []⟩, "shape".toList, by decide, by decide⟩

example : (Op.ofInfo "aten::add".toList "Tensor".toList false false [] []).defName "shape".toList =
    "aten〇add〇Tensor〡shape".toList := by decide

/-! ## C66: value semantics -/

/-- C66: an operator is given the trait `HasValueSemantics` (when not asked for it explicitly) exactly if it has
neither variadic arguments nor results, nothing in its signature carries alias information, and it is not
one of three operators whose annotations are known to be wrong. -/
theorem C66_value_semantics (o : Op) (given : List String) (hg : "HasValueSemantics" ∉ given) :
    "HasValueSemantics" ∈ emitTraits o given ↔
      NoAlias o ∧ o.isVararg = false ∧ o.isVarret = false ∧ o.uniqueKey ∉ excludedKeys := by
  have h1 : "HasValueSemantics" ∈ emitTraits o given ↔ o.hasValueSemantics = true := by
    unfold emitTraits
    cases o.hasValueSemantics <;> cases o.isReadonly <;> simp [hg]
  rw [h1]
  unfold Op.hasValueSemantics NoAlias
  constructor
  · intro h
    split at h
    · cases h
    · split at h
      · cases h
      · rename_i hv
        split at h
        · cases h
        · rename_i ha
          split at h
          · cases h
          · rename_i hk
            simp only [Bool.or_eq_true, not_or, Bool.not_eq_true] at hv
            refine ⟨?_, hv.1, hv.2, by simpa using hk⟩
            intro p hp
            simp only [List.any_eq_true, not_exists, not_and, Bool.not_eq_true, Option.isSome_eq_false_iff,
              Option.isNone_iff_eq_none] at ha
            exact ha p hp
  · rintro ⟨ha, hv, hr, hk⟩
    have e1 : o.isReadonly = true := by
      unfold Op.isReadonly
      rw [List.all_eq_true]
      intro p hp
      rw [ha p hp]
      rfl
    have e2 : ((o.args ++ o.rets).any fun p => p.alias.isSome) = false := by
      rw [List.any_eq_false]
      intro p hp
      simp [ha p hp]
    have e3 : excludedKeys.contains o.uniqueKey = false := by simpa using hk
    rw [e1, hv, hr, e2, e3]
    rfl

/-- C66: `ReadOnly` is given exactly if nothing in the signature is written to. -/
theorem C66_read_only (o : Op) (given : List String) (hg : "ReadOnly" ∉ given) :
    "ReadOnly" ∈ emitTraits o given ↔ NoWrite o := by
  have h1 : "ReadOnly" ∈ emitTraits o given ↔ o.isReadonly = true := by
    unfold emitTraits
    cases o.hasValueSemantics <;> cases o.isReadonly <;> simp [hg]
  rw [h1]
  unfold Op.isReadonly NoWrite
  rw [List.all_eq_true]
  simp

/-- C66: derived value semantics always comes with `ReadOnly`. -/
theorem C66_implies_read_only (o : Op) (given : List String) (hg : "HasValueSemantics" ∉ given)
    (h : "HasValueSemantics" ∈ emitTraits o given) : "ReadOnly" ∈ emitTraits o given := by
  obtain ⟨ha, -⟩ := (C66_value_semantics o given hg).mp h
  by_cases hr : "ReadOnly" ∈ given
  · simp [emitTraits, hr]
  · exact (C66_read_only o given hr).mpr fun p hp => by simp [ha p hp]

/-- An in-place operator, a view and a plain one. -/
example : emitTraits ⟨"aten".toList, "add_".toList, [], false, false, [⟨"Tensor".toList, some true⟩],
      [⟨"Tensor".toList, some true⟩]⟩ [] = ["AllowsTypeRefinement"] ∧
    emitTraits ⟨"aten".toList, "view".toList, [], false, false, [⟨"Tensor".toList, some false⟩],
      [⟨"Tensor".toList, some false⟩]⟩ [] = ["AllowsTypeRefinement", "ReadOnly"] ∧
    emitTraits ⟨"aten".toList, "add".toList, [], false, false, [⟨"Tensor".toList, none⟩],
      [⟨"Tensor".toList, none⟩]⟩ [] = ["AllowsTypeRefinement", "HasValueSemantics", "ReadOnly"] := by
  refine ⟨?_, ?_, ?_⟩ <;> decide +kernel

end Verif
