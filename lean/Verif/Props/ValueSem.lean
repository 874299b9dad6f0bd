import Verif.Lemmas.ValueSemViews

/-!
# Properties C69, C70: introducing value semantics

`interpretPattern` and `viewPattern` are the two patterns of `MaximizeValueSemantics`; `run` says what a block with mutable
tensors computes (see `Verif/Spec/ValueSem.lean`).
-/

namespace Verif

open VS

variable {T W : Type}

/-! ## C69: the pattern that interprets a block -/

/-- **C69.**  Where the pattern applies to a copy whose memory is its own, the rewritten block returns tensors with the
same contents, leaves the same memory behind and has the same other effects, in every initial state, whatever views show
and whatever the unknown operations do. -/
theorem C69_meaning (M : Machine T W) {i : Info} {params : List Name} {base c x : Name} {pre post : List Op}
    (hwf : WellFormed i params base (pre ++ ⟨.toTensor, [x], [c]⟩ :: post)) (hreg : i.region c = some c)
    (hM : M.ReadsBack (pre ++ ⟨.toTensor, [x], [c]⟩ :: post)) (recast : Nat → Bool) {post' : List Op}
    (h : interpretPattern i.nv recast base c x post = some post') {nv' : Name → Bool}
    (hnv : TypesAfter i (Handle i.nv post c) base post' nv') (s : State T W) :
    run M (i.after base nv') (pre ++ post') s = run M i (pre ++ ⟨.toTensor, [x], [c]⟩ :: post) s := by
  obtain ⟨_, _, _, _, hspost⟩ := hwf.ssa.append
  have hcE : c ∈ (⟨.toTensor, [x], [c]⟩ : Op).results ++ (defs pre ++ params) := by simp
  obtain ⟨hview, ⟨B, hB⟩, rfl⟩ := interpretPattern_some h
  have hnv' : ∀ n, n < base → nv' n = (i.nv n && !(aliases i.nv c post).contains n) := by
    intro n hn
    rw [nvAfter_of_typesAfter hnv hspost hcE, nvAfter, if_pos hn]
  exact sound_of_go hwf hreg hM hnv' hview hB _ (fun t => run_rewriteSlice recast hwf _ t) s

/-- **C69 (the memory is its own).**  The pattern only applies where no unknown operation gets hold of the copied tensor:
its handles can be given a region of their own, in a block that was well formed without it. -/
theorem C69_owned {i : Info} {params : List Name} {base c x : Name} {pre post : List Op}
    (hwf : WellFormed i params base (pre ++ ⟨.toTensor, [x], [c]⟩ :: post)) (recast : Nat → Bool) {post' : List Op}
    (h : interpretPattern i.nv recast base c x post = some post') :
    ∃ j : Info, j.nv = i.nv ∧ j.region c = some c ∧ (∀ n, Handle i.nv post c n → j.region n = some c)
      ∧ (∀ n, ¬ Handle i.nv post c n → j.region n = i.region n)
      ∧ WellFormed j params base (pre ++ ⟨.toTensor, [x], [c]⟩ :: post) := by
  obtain ⟨_, _, _, _, hspost⟩ := hwf.ssa.append
  have hcE : c ∈ (⟨.toTensor, [x], [c]⟩ : Op).results ++ (defs pre ++ params) := by simp
  obtain ⟨_, ⟨B, hB⟩, _⟩ := interpretPattern_some h
  have hh := fun n => mem_aliases_iff_handle (nv := i.nv) hspost hcE n
  refine ⟨⟨i.nv, fun n => if n ∈ aliases i.nv c post then some c else i.region n⟩, rfl, ?_, ?_, ?_, owned hwf ?_⟩
  · simp only; rw [if_pos ((hh c).2 .self)]
  · intro n hn; simp only; rw [if_pos ((hh n).2 hn)]
  · intro n hn; simp only; rw [if_neg (fun h' => hn ((hh n).1 h'))]
  · intro o ho hu
    exact interpret_kinds hB o (List.mem_filter.2 ⟨ho, by simpa using hu⟩)

/-- **C69 (types).**  The rewritten block is well formed, and what it returns has the kinds it had before. -/
theorem C69_well_formed {i : Info} {params : List Name} {base c x : Name} {pre post : List Op}
    (hwf : WellFormed i params base (pre ++ ⟨.toTensor, [x], [c]⟩ :: post)) (hreg : i.region c = some c)
    (recast : Nat → Bool) {post' : List Op} (h : interpretPattern i.nv recast base c x post = some post')
    {nv' : Name → Bool} (hnv : TypesAfter i (Handle i.nv post c) base post' nv') :
    WellFormed (i.after base nv') params (base + 3 * ((returns post).getD []).length) (pre ++ post')
      ∧ (returns post').map (·.map nv') = (returns post).map (·.map i.nv) := by
  obtain ⟨_, _, _, _, hspost⟩ := hwf.ssa.append
  have hcE : c ∈ (⟨.toTensor, [x], [c]⟩ : Op).results ++ (defs pre ++ params) := by simp
  obtain ⟨hview, _, hp⟩ := interpretPattern_some h
  have := rewriteSlice_wf hwf hreg hview recast post' hp
  rw [nvAfter_of_typesAfter hnv hspost hcE]
  exact this

/-- **C69 (it applies).**  If the handles of a copy are only viewed (as first operands), read and returned, and not only
returned, the pattern applies. -/
theorem C69_applies {i : Info} {params : List Name} {base c x : Name} {pre post : List Op}
    (hwf : WellFormed i params base (pre ++ ⟨.toTensor, [x], [c]⟩ :: post)) (recast : Nat → Bool)
    (huse : ∀ o ∈ post, ∀ n ∈ o.args, Handle i.nv post c n → o.kind = .toVTensor ∨ o.kind = .ret
      ∨ (o.Shows ∧ ∀ y ys, o.args = y :: ys → Handle i.nv post c y))
    (hread : ∃ o ∈ post, o.kind ≠ .ret ∧ ∃ n ∈ o.args, Handle i.nv post c n) :
    ∃ post', interpretPattern i.nv recast base c x post = some post' := by
  obtain ⟨_, _, _, _, hspost⟩ := hwf.ssa.append
  have hcE : c ∈ (⟨.toTensor, [x], [c]⟩ : Op).results ++ (defs pre ++ params) := by simp
  have hty : ∀ o ∈ post, i.Typed o := fun o ho => hwf.typed o (by simp [ho])
  have hh := fun n => mem_aliases_iff_handle (nv := i.nv) hspost hcE n
  have hus : ∀ o ∈ users (aliases i.nv c post) post, o ∈ post ∧ ∃ n ∈ o.args, Handle i.nv post c n := by
    intro o ho
    obtain ⟨h1, h2⟩ := List.mem_filter.1 ho
    simp only [ne_eq, decide_eq_true_eq] at h2
    obtain ⟨a, l, e⟩ := List.exists_cons_of_ne_nil h2
    have := mem_usesOf.1 (e ▸ List.mem_cons_self : a ∈ usesOf (aliases i.nv c post) o)
    exact ⟨h1, a, this.1, (hh a).1 this.2⟩
  obtain ⟨B, hB⟩ := interpret_of_reads hspost hty hcE rfl post.reverse (by
    intro o ho hu
    obtain ⟨_, n, hn, hnh⟩ := hus o (List.mem_filter.2 ⟨ho, by simpa using hu⟩)
    rcases huse o ho n hn hnh with h | h | h
    · exact .inr (.inl h)
    · exact .inr (.inr h)
    · exact .inl h.1) [] post rfl [c] (by
    intro n hn hd
    rcases mem_foldl_addAlias_defs hn with h | h
    · exact h
    · exact absurd (by simpa [defs] using hd) (hspost.notMem_defs n h))
  unfold interpretPattern
  simp only
  rw [if_neg, if_neg, hB]
  · exact ⟨_, rfl⟩
  · obtain ⟨o, ho, hk, n, hn, hnh⟩ := hread
    have hmem : o ∈ users (aliases i.nv c post) post := by
      refine List.mem_filter.2 ⟨ho, ?_⟩
      simp only [ne_eq, decide_eq_true_eq]
      intro h0
      have : n ∈ usesOf (aliases i.nv c post) o := mem_usesOf.2 ⟨hn, (hh n).2 hnh⟩
      rw [h0] at this; cases this
    unfold onlyReturn
    split
    · next p hp =>
      rw [hp, List.mem_singleton] at hmem
      subst hmem
      simpa using hk
    · simp
  · simp only [Bool.not_eq_true', Bool.not_eq_false, List.all_eq_true]
    intro o ho
    obtain ⟨hp, n, hn, hnh⟩ := hus o ho
    unfold viewOk
    by_cases hv : o.isViewLike = true
    · obtain ⟨y, ys, r, hx, hr, _⟩ := typed_viewLike (hty o hp) hv
      rcases huse o hp n hn hnh with h | h | h
      · rw [Op.isViewLike, h] at hv; cases hv
      · rw [Op.isViewLike, h] at hv; cases hv
      · have := (hh y).2 (h.2 y ys hx)
        rw [hr, hx]
        simp [this]
    · simp [hv]

/-- An overwritten copy: `c = copy x; r = cast c; overwrite r with v; u = copy c; return u, c`. -/
def valueBlock : List Op :=
  [⟨.cast, [2], [3]⟩, ⟨.overwrite, [1, 3], []⟩, ⟨.toVTensor, [2], [4]⟩, ⟨.ret, [4, 2], []⟩]

def valueInfo : Info := ⟨fun n => n == 2 || n == 3, fun _ => some 2⟩

/-- Both returned tensors have the contents of `v`: the cast of `x` stays behind, the overwrite is gone. -/
example : interpretPattern valueInfo.nv (fun _ => false) 5 2 0 valueBlock
    = some [⟨.cast, [0], [3]⟩, ⟨.toTensor, [1], [10]⟩, ⟨.ret, [1, 10], []⟩] := by decide +kernel

/-- The hypotheses hold for it. -/
example : WellFormed valueInfo [0, 1] 5 ([] ++ ⟨.toTensor, [0], [2]⟩ :: valueBlock) ∧ valueInfo.region 2 = some 2 := by
  refine ⟨⟨by simp [Ssa, valueBlock], ?_, ?_, ?_, ?_, ?_⟩, rfl⟩
  · intro o ho
    simp only [valueBlock, List.nil_append, List.mem_cons, List.not_mem_nil, or_false] at ho
    rcases ho with rfl | rfl | rfl | rfl | rfl
    case inr.inr.inl => exact ⟨1, 3, rfl, rfl, rfl, rfl⟩
    all_goals simp [Info.Typed, valueInfo]
  · intro p hp hn
    simp only [List.mem_cons, List.not_mem_nil, or_false] at hp
    rcases hp with rfl | rfl <;> simp [valueInfo] at hn
  · intro p hp
    simp only [List.mem_cons, List.not_mem_nil, or_false] at hp
    rcases hp with rfl | rfl <;> decide
  · intro o ho n hn
    simp only [valueBlock, List.nil_append, List.mem_cons, List.not_mem_nil, or_false] at ho
    rcases ho with rfl | rfl | rfl | rfl | rfl <;> simp at hn <;> rcases hn with rfl | rfl | rfl <;> decide
  · intro n hn
    simp only [valueInfo, Bool.or_eq_true, beq_iff_eq] at hn
    rcases hn with rfl | rfl <;> refine ⟨by decide, fun r hr => ?_⟩ <;> cases hr <;> decide

/-- Reading through the copy after overwriting an unrelated view of it: the pattern does not apply. -/
example : interpretPattern (fun n => n == 2 || n == 3) (fun _ => false) 5 2 0
    [⟨.view 0, [2], [3]⟩, ⟨.overwrite, [1, 3], []⟩, ⟨.toVTensor, [2], [4]⟩, ⟨.ret, [4], []⟩] = none := by decide +kernel

/-! ## C70: the pattern for views without mutation -/

/-- **C70 (partial).**  Where the second pattern applies within a block, and all views of tensors derived from the copy
are views of such tensors (they are not only given as a further operand), the rewritten block computes the same. -/
theorem C70_meaning_partial (M : Machine T W) {i : Info} {params : List Name} {base c x : Name} {pre post : List Op}
    (hwf : WellFormed i params base (pre ++ ⟨.toTensor, [x], [c]⟩ :: post)) (hreg : i.region c = some c)
    (hM : M.ReadsBack (pre ++ ⟨.toTensor, [x], [c]⟩ :: post)) (hf : FirstDerived i.nv post c) (recast : Nat → Bool)
    {post' : List Op} (h : viewPattern i.nv recast base c x post = some post') {nv' : Name → Bool}
    (hnv : TypesAfter i (Derived post c) base post' nv') (s : State T W) :
    run M (i.after base nv') (pre ++ post') s = run M i (pre ++ ⟨.toTensor, [x], [c]⟩ :: post) s := by
  obtain ⟨_, _, _, _, hspost⟩ := hwf.ssa.append
  have hcE : c ∈ (⟨.toTensor, [x], [c]⟩ : Op).results ++ (defs pre ++ params) := by simp
  have hty : ∀ o ∈ post, i.Typed o := fun o ho => hwf.typed o (by simp [ho])
  refine viewPattern_sound hwf hreg hM ?_ hf recast h s
  intro n hn
  rw [Bool.eq_iff_iff, hnv.1 n hn]
  simp only [Bool.and_eq_true, Bool.not_eq_true', List.contains_eq_mem, decide_eq_false_iff_not]
  constructor
  · rintro ⟨h1, h2⟩
    exact ⟨h1, fun h' => h2 ((mem_aliases_iff_handle hspost hcE n).1 h').derived⟩
  · rintro ⟨h1, h2⟩
    exact ⟨h1, fun h' => h2 (handle_of_derived hspost hty hcE hf h' h1)⟩

/-- The shape of the copy is given to a view of another tensor, which is overwritten before the view is read:
`c = copy x; r = other.expand_as(c); overwrite other with v; u = copy r; return u`. -/
def expandAsBlock : List Op :=
  [⟨.view 0, [1, 3], [4]⟩, ⟨.overwrite, [2, 1], []⟩, ⟨.toVTensor, [4], [5]⟩, ⟨.ret, [5], []⟩]

def expandAsInfo : Info := ⟨fun n => n == 1 || n == 3 || n == 4, fun n => if n == 3 then some 3 else none⟩

/-- Views show the whole tensor, overwriting a tensor changes everything in its region. -/
def wholeMachine : Machine Nat Unit := ⟨fun _ xs => xs.headD 0, fun _ v _ _ => v, fun _ _ _ _ => ([], fun _ => 0, ())⟩

theorem expandAs_wf : WellFormed expandAsInfo [0, 1, 2] 6 ([] ++ ⟨.toTensor, [0], [3]⟩ :: expandAsBlock) := by
  refine ⟨by simp [Ssa, expandAsBlock], ?_, ?_, ?_, ?_, ?_⟩
  · intro o ho
    simp only [expandAsBlock, List.nil_append, List.mem_cons, List.not_mem_nil, or_false] at ho
    rcases ho with rfl | rfl | rfl | rfl | rfl
    case inr.inr.inl => exact ⟨2, 1, rfl, rfl, rfl, rfl⟩
    all_goals simp [Info.Typed, expandAsInfo]
  · intro p hp hn
    simp only [List.mem_cons, List.not_mem_nil, or_false] at hp
    rcases hp with rfl | rfl | rfl <;> rfl
  · intro p hp
    simp only [List.mem_cons, List.not_mem_nil, or_false] at hp
    rcases hp with rfl | rfl | rfl <;> decide
  · intro o ho n hn
    simp only [expandAsBlock, List.nil_append, List.mem_cons, List.not_mem_nil, or_false] at ho
    rcases ho with rfl | rfl | rfl | rfl | rfl <;> simp at hn <;> rcases hn with rfl | rfl | rfl <;> decide
  · intro n hn
    simp only [expandAsInfo, Bool.or_eq_true, beq_iff_eq] at hn
    rcases hn with (rfl | rfl) | rfl <;> refine ⟨by decide, fun r hr => ?_⟩ <;> cases hr
    decide

theorem expandAs_derived (n : Nat) : Derived expandAsBlock 3 n ↔ n = 3 ∨ n = 4 := by
  constructor
  · intro h
    induction h with
    | self => exact .inl rfl
    | step ho hsh ha hr _ ih =>
      simp only [expandAsBlock, List.mem_cons, List.not_mem_nil, or_false] at ho
      rcases ho with rfl | rfl | rfl | rfl <;> simp_all [Op.Shows]
  · rintro (rfl | rfl)
    · exact .self
    · exact .step (o := ⟨.view 0, [1, 3], [4]⟩) (a := 3) (by simp [expandAsBlock]) (.inr ⟨0, rfl⟩) (by simp) (by simp)
        .self

/-- **C70 does not hold.**  The first pattern does not apply, the second one does, and the tensor returned has other
contents than before: the overwrite of `other` is missed. -/
theorem C70_violated : ∃ (i : Info) (params : List Name) (base c x : Name) (post post' : List Op) (nv' : Name → Bool)
    (M : Machine Nat Unit) (s : State Nat Unit),
    WellFormed i params base (⟨.toTensor, [x], [c]⟩ :: post) ∧ i.region c = some c
      ∧ M.ReadsBack (⟨.toTensor, [x], [c]⟩ :: post)
      ∧ interpretPattern i.nv (fun _ => false) base c x post = none
      ∧ viewPattern i.nv (fun _ => false) base c x post = some post'
      ∧ TypesAfter i (Derived post c) base post' nv'
      ∧ (run M i (⟨.toTensor, [x], [c]⟩ :: post) s).map (·.returned) = some [7]
      ∧ (run M (i.after base nv') post' s).map (·.returned) = some [5] := by
  refine ⟨expandAsInfo, [0, 1, 2], 6, 3, 0, expandAsBlock,
    [⟨.view 0, [1, 0], [4]⟩, ⟨.overwrite, [2, 1], []⟩, ⟨.ret, [4], []⟩], fun n => n == 1, wholeMachine,
    ⟨fun n => if n = 1 then 5 else if n = 2 then 7 else 0, ()⟩, expandAs_wf, rfl, fun _ _ _ _ _ => rfl, ?_, ?_,
    ⟨?_, ?_⟩, ?_, ?_⟩
  · decide +kernel
  · decide +kernel
  · intro n hn
    rw [expandAs_derived]
    have six : ∀ m : Nat, m < 6 → m = 0 ∨ m = 1 ∨ m = 2 ∨ m = 3 ∨ m = 4 ∨ m = 5 := by omega
    have : n = 0 ∨ n = 1 ∨ n = 2 ∨ n = 3 ∨ n = 4 ∨ n = 5 := six n hn
    rcases this with rfl | rfl | rfl | rfl | rfl | rfl <;> simp [expandAsInfo]
  · intro n hn
    simp
    intro e; subst e; simp at hn
  · with_unfolding_all rfl
  · with_unfolding_all rfl

/-- A copy, a view of it and what was read through the view are returned. -/
def returnBlock : List Op := [⟨.view 0, [1], [2]⟩, ⟨.toVTensor, [2], [3]⟩, ⟨.ret, [1, 2, 3], []⟩]

def returnInfo : Info := ⟨fun n => n == 1 || n == 2, fun _ => some 1⟩

theorem return_derived (n : Nat) : Derived returnBlock 1 n ↔ n = 1 ∨ n = 2 := by
  constructor
  · intro h
    induction h with
    | self => exact .inl rfl
    | step ho hsh ha hr _ ih =>
      simp only [returnBlock, List.mem_cons, List.not_mem_nil, or_false] at ho
      rcases ho with rfl | rfl | rfl <;> simp_all [Op.Shows]
  · rintro (rfl | rfl)
    · exact .self
    · exact .step (o := ⟨.view 0, [1], [2]⟩) (a := 1) (by simp [returnBlock]) (.inr ⟨0, rfl⟩) (by simp) (by simp) .self

theorem return_wf : WellFormed returnInfo [0] 4 (⟨.toTensor, [0], [1]⟩ :: returnBlock) := by
  refine ⟨by simp [Ssa, returnBlock], ?_, ?_, ?_, ?_, ?_⟩
  · intro o ho
    simp only [returnBlock, List.mem_cons, List.not_mem_nil, or_false] at ho
    rcases ho with rfl | rfl | rfl | rfl <;> simp [Info.Typed, returnInfo]
  · intro p hp hn
    simp only [List.mem_cons, List.not_mem_nil, or_false] at hp
    subst hp; cases hn
  · intro p hp
    simp only [List.mem_cons, List.not_mem_nil, or_false] at hp
    subst hp; decide
  · intro o ho n hn
    simp only [returnBlock, List.mem_cons, List.not_mem_nil, or_false] at ho
    rcases ho with rfl | rfl | rfl | rfl <;> simp at hn <;> rcases hn with rfl | rfl | rfl <;> decide
  · intro n hn
    simp only [returnInfo, Bool.or_eq_true, beq_iff_eq] at hn
    rcases hn with rfl | rfl <;> refine ⟨by decide, fun r hr => ?_⟩ <;> cases hr <;> decide

/-- **C70 does not hold (types).**  Where the copy itself is returned, the rewritten block returns a value tensor in its
place; where a read of a view is returned beside the view, it returns a non-value tensor. -/
theorem C70_violated_types : ∃ (i : Info) (params : List Name) (base c x : Name) (post post' : List Op)
    (nv' : Name → Bool),
    WellFormed i params base (⟨.toTensor, [x], [c]⟩ :: post) ∧ FirstDerived i.nv post c
      ∧ viewPattern i.nv (fun _ => false) base c x post = some post'
      ∧ TypesAfter i (Derived post c) base post' nv'
      ∧ (returns post).map (·.map i.nv) = some [true, true, false]
      ∧ (returns post').map (·.map nv') = some [false, true, true] := by
  refine ⟨returnInfo, [0], 4, 1, 0, returnBlock,
    [⟨.view 0, [0], [2]⟩, ⟨.toTensor, [2], [9]⟩, ⟨.toTensor, [2], [12]⟩, ⟨.ret, [0, 9, 12], []⟩],
    fun n => n == 9 || n == 12, return_wf, ?_, by decide +kernel, ⟨?_, ?_⟩, by decide +kernel, by decide +kernel⟩
  · intro o ho hsh a _ _ _ x xs hx
    simp only [returnBlock, List.mem_cons, List.not_mem_nil, or_false] at ho
    rcases ho with rfl | rfl | rfl
    · simp only [List.cons.injEq] at hx
      rw [← hx.1]; exact .self
    · simp [Op.Shows] at hsh
    · simp [Op.Shows] at hsh
  · intro n hn
    rw [return_derived]
    have four : ∀ m : Nat, m < 4 → m = 0 ∨ m = 1 ∨ m = 2 ∨ m = 3 := by omega
    rcases four n hn with rfl | rfl | rfl | rfl <;> simp [returnInfo]
  · intro n _
    simp

end Verif
