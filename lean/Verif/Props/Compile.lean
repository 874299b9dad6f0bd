import Verif.Spec.Compile

/-!
# C53, C54, C68: example arguments, standard error, output types
-/

namespace Verif

open Compile

/-! ## C53 -/

theorem Compile.like_get {D : Type} (shape : List Nat) (d : D) (axes : List Int) (i : Nat) (n : Nat)
    (h : shape[i]? = some n) : (like shape d axes).1[i]? = some (if (i : Int) ∈ axes then -1 else (n : Int)) := by
  have hi := (List.getElem?_eq_some_iff.mp h).1
  simp only [like, List.getElem?_map]
  have : ((List.range shape.length).zip shape)[i]? = some (i, n) := by
    rw [List.getElem?_zip_eq_some]
    exact ⟨by simp [hi], h⟩
  rw [this]
  rfl

/-- C53: a placeholder has -1 in exactly the given axes, the tensor's sizes elsewhere, and its rank and dtype,
if no axis counts from the end. -/
theorem C53_like_partial {D : Type} (shape : List Nat) (d : D) (axes : List Int)
    (hax : ∀ a ∈ axes, 0 ≤ a) :
    (like shape d axes).1.length = shape.length ∧ (like shape d axes).2 = d ∧
    ∀ (i n : Nat), shape[i]? = some n →
      (IsAxis shape.length axes i → (like shape d axes).1[i]? = some (-1)) ∧
      (¬ IsAxis shape.length axes i → (like shape d axes).1[i]? = some (n : Int)) := by
  refine ⟨by simp [like], rfl, fun i n h => ?_⟩
  have hi := (List.getElem?_eq_some_iff.mp h).1
  have hiff : IsAxis shape.length axes i ↔ (i : Int) ∈ axes := by
    unfold IsAxis
    constructor
    · rintro (h | h)
      · exact h
      · have := hax _ h; omega
    · exact Or.inl
  rw [hiff, like_get shape d axes i n h]
  exact ⟨fun h => by rw [if_pos h], fun h => by rw [if_neg h]⟩

/-- C53: the annotation of a method has `None` for self and then, in order, what each argument says: a
placeholder's own shape, or the static shape of a tensor, with its dtype. -/
theorem C53_annotation {D : Type} (e : Example D) (name : String) (args : List (ExArg D))
    (h : (name, args) ∈ e) :
    ∃ l, (name, l) ∈ forAnnotation e ∧ l.length = args.length ∧
      (annotation l).length = args.length + 1 ∧ (annotation l)[0]? = some none ∧
      ∀ (i : Nat) (a : ExArg D), args[i]? = some a → (annotation l)[i + 1]? = some (some (match a with
        | .placeholder s d => (s, d, true)
        | .tensor s d => (s.map Int.ofNat, d, true))) := by
  refine ⟨args.map annotationOf, List.mem_map.mpr ⟨(name, args), h, rfl⟩, by simp, by simp [annotation],
    rfl, fun i a ha => ?_⟩
  simp only [annotation, List.getElem?_cons_succ, List.getElem?_map, ha, Option.map_some]
  cases a with
  | placeholder s d => rfl
  | tensor s d =>
    simp only [annotationOf]
    have : (like s d []).1 = s.map Int.ofNat := by
      apply List.ext_getElem?
      intro j
      cases hj : s[j]? with
      | none =>
        have := List.getElem?_eq_none_iff.mp hj
        rw [List.getElem?_eq_none (by simp [like]; omega), List.getElem?_eq_none (by simp; omega)]
      | some n =>
        rw [like_get s d [] j n hj]
        simp [hj]
    rw [this]
    rfl

/-- C53: methods keep their order and each is added once. -/
theorem C53_methods {D : Type} (e e' : Example D) (name : String) (g : Given D)
    (h : addMethod e name g = .ok e') :
    name ∉ e.map Prod.fst ∧ ∃ args, e' = e ++ [(name, args)] ∧
      (∀ a, g = .one a → args = [a]) ∧ (∀ l, g = .many l → args = l) := by
  unfold addMethod at h
  obtain ⟨_, h1, h⟩ := bind_ok.mp h
  obtain ⟨args, h2, h⟩ := bind_ok.mp h
  rw [pyAssert_ok] at h1
  cases h
  refine ⟨by simpa using h1, args, rfl, ?_, ?_⟩
  · rintro a rfl; exact (Except.ok.inj h2).symm
  · rintro a rfl; exact (Except.ok.inj h2).symm

/-- C53: a tensor is traced as it is; for a placeholder of rank at least 1 the traced tensor has its rank and
dtype, its sizes where they are static, and some size where they are dynamic. -/
theorem C53_tracing_partial {D : Type} (int64 : D) (a : ExArg D) (s : List Int) (d : D)
    (h : traceOf int64 true a = .ok (s, d)) :
    (∀ s' d', a = .tensor s' d' → s = s'.map Int.ofNat ∧ d = d') ∧
    (∀ s' d', a = .placeholder s' d' → s'.length ≠ 0 → s.length = s'.length ∧ d = d' ∧
      ∀ (i : Nat) (x : Int), s'[i]? = some x → ∃ y, s[i]? = some y ∧ 0 ≤ y ∧ (x ≠ -1 → y = x)) := by
  cases a with
  | tensor s0 d0 =>
    cases h
    refine ⟨fun s' d' e => by cases e; exact ⟨rfl, rfl⟩, fun s' d' e => by cases e⟩
  | placeholder s0 d0 =>
    refine ⟨fun s' d' e => (by cases e), fun s' d' e hne => ?_⟩
    cases e
    simp only [traceOf, Bool.not_true, Bool.false_eq_true, if_false, hne] at h
    split at h
    · cases h
    · rename_i hneg
      cases h
      refine ⟨by simp, rfl, fun i x hx => ⟨if x ≠ -1 then x else 7, by simp [hx], ?_, fun h => by simp [h]⟩⟩
      apply Classical.byContradiction
      intro hc
      apply hneg
      rw [List.any_eq_true]
      refine ⟨if x ≠ -1 then x else 7, List.mem_map.mpr ⟨x, List.mem_of_getElem? hx, rfl⟩, ?_⟩
      simpa using hc

/-- C53: without `ignore_traced_shapes`, placeholders are refused. -/
theorem C53_refused {D : Type} (int64 : D) (s : List Int) (d : D) :
    traceOf int64 false (.placeholder s d) = .error .runtimeError := rfl

/-- C53 fails for axes counted from the end: they are ignored. -/
theorem C53_violated_negative : ∃ (shape : List Nat) (axes : List Int) (i : Nat), i < shape.length ∧
    IsAxis shape.length axes i ∧ (like shape () axes).1[i]? ≠ some (-1) :=
  ⟨[3, 4], [-1], 1, by decide, Or.inr (by decide), by decide⟩

/-- C53 fails for rank 0: the traced tensor is `int64` whatever the placeholder's dtype. -/
theorem C53_violated_rank0 {D : Type} (int64 d : D) (h : d ≠ int64) :
    ∃ d', traceOf int64 true (.placeholder [] d) = .ok ([], d') ∧ d' ≠ d :=
  ⟨int64, rfl, fun e => h e.symm⟩

example : like [3, 4, 5] "f32" [1] = ([3, -1, 5], "f32") := by decide
example : traceOf "si64" true (.placeholder [3, -1] "f32") = .ok ([3, 7], "f32") := by decide
example : (do
    let e ← addMethod [] "forward" (.one (.tensor [2] "f32"))
    let e ← addMethod e "other" (.many [.placeholder [-1] "f16", .tensor [] "si64"])
    .ok (forAnnotation e) : Py _) = .ok [("forward", [([2], "f32")]), ("other", [([-1], "f16"), ([], "si64")])] := by
  decide

/-! ## C54 -/

theorem Compile.seq_stderr {σ : Type} {a b : M σ} (ha : Keeps a) (hb : Keeps b) : Keeps (seq a b) := by
  intro w
  unfold seq
  have := ha w
  cases h : a w with
  | mk r w' =>
    rw [h] at this
    cases r with
    | ok u => simp only; rw [hb w']; exact this
    | error e => exact this

theorem Compile.restoring_keeps {σ : Type} (body : M σ) : Keeps (restoring body) := fun _ => rfl

/-- C54: whatever the steps do, and whether they raise, after a run of a pipeline standard error is what it was
before (reading the module's name must leave it alone: that happens before it is saved). -/
theorem C54_restored {σ : Type} (s : Steps σ) (printing : Bool) (h : Keeps s.moduleName) :
    Keeps (s.runPipeline printing) :=
  seq_stderr h (restoring_keeps _)

/-- C54: so it is after importing a TorchScript module, on every path, with no assumption. -/
theorem C54_import_restored {σ : Type} (importModule : M σ) : Keeps (importWithReport importModule) :=
  restoring_keeps _

/-- C54: and after all of `compile`. -/
theorem C54_compile_restored {σ : Type} (importModule : M σ) (first : Steps σ) (printing : Bool)
    (print : M σ) (backend : Option (Steps σ)) (hp : Keeps print) (hf : Keeps first.moduleName)
    (hb : ∀ b, backend = some b → Keeps b.moduleName) :
    Keeps (compileTail importModule first printing print backend) := by
  unfold compileTail
  refine seq_stderr (C54_import_restored _) (seq_stderr hp (seq_stderr (C54_restored _ _ hf)
    (seq_stderr hp ?_)))
  cases backend with
  | none => exact fun _ => rfl
  | some b => exact seq_stderr (C54_restored _ _ (hb b rfl)) hp

/-- C54: no error is reported if no step raises, and the pipeline was run. -/
theorem C54_success {σ : Type} (s : Steps σ) (printing : Bool) (w : World σ)
    (h1 : Succeeds s.moduleName) (h2 : Succeeds s.getAsm) (h3 : ∀ w, ((s.inContext printing) w).1 = .ok ()) :
    (s.runPipeline printing w).1 = .ok () := by
  unfold Steps.runPipeline seq
  cases hm : s.moduleName w with
  | mk r w1 =>
    have := h1 w
    rw [hm] at this
    simp only at this
    subst this
    simp only [restoring, Steps.body, seq, redirect]
    cases ha : s.getAsm { w1 with stderr := .stringIO w1.fresh, fresh := w1.fresh + 1 } with
    | mk r w2 =>
      have := h2 { w1 with stderr := .stringIO w1.fresh, fresh := w1.fresh + 1 }
      rw [ha] at this
      simp only at this
      subst this
      simp only [tryExcept]
      cases hc : s.inContext printing w2 with
      | mk r w3 =>
        have := h3 w2
        rw [hc] at this
        simp only at this
        subst this
        rfl

/-- C54: if printing the module works, and the files can be written, then a `TorchMlirCompilerError` is raised
exactly if a step of the pipeline raises an exception that `except Exception` catches; other exceptions
pass through; otherwise nothing is raised.  The steps must leave standard error redirected. -/
theorem C54_reported_partial {σ : Type} (s : Steps σ) (printing : Bool) (w : World σ)
    (h1 : Succeeds s.moduleName) (h2 : Succeeds s.getAsm) (h4 : Succeeds s.openFile)
    (h5 : Succeeds s.writeFile)
    (hk : Keeps s.getAsm ∧ Keeps (s.inContext printing) ∧ Keeps s.openFile ∧ Keeps s.writeFile) :
    (s.runPipeline printing w).1 =
      match (s.inContext printing (seq s.moduleName (seq redirect s.getAsm) w).2).1 with
      | .ok u => .ok u
      | .error (.base n) => .error (.base n)
      | .error _ => .error .compilerError := by
  obtain ⟨k1, k2, k3, k4⟩ := hk
  unfold Steps.runPipeline seq
  cases hm : s.moduleName w with
  | mk r w1 =>
    have := h1 w
    rw [hm] at this
    simp only at this
    subst this
    simp only [restoring, Steps.body, seq, redirect]
    have ka := k1 { w1 with stderr := .stringIO w1.fresh, fresh := w1.fresh + 1 }
    cases ha : s.getAsm { w1 with stderr := .stringIO w1.fresh, fresh := w1.fresh + 1 } with
    | mk r w2 =>
      have := h2 { w1 with stderr := .stringIO w1.fresh, fresh := w1.fresh + 1 }
      rw [ha] at this ka
      simp only at this ka
      subst this
      simp only [tryExcept]
      have kc := k2 w2
      cases hc : s.inContext printing w2 with
      | mk r w3 =>
        rw [hc] at kc
        simp only at kc
        cases r with
        | ok u => rfl
        | error e =>
          by_cases hcaught : e.caught = true
          · have : ∀ n, e ≠ .base n := fun n h => by rw [h] at hcaught; cases hcaught
            rw [show (match (Except.error e : Except Exc Unit) with
              | .ok u => .ok u
              | .error (.base n) => .error (.base n)
              | .error _ => .error .compilerError) = (.error .compilerError : Except Exc Unit) from by
                cases e <;> first | rfl | exact absurd rfl (this _)]
            simp only [hcaught, if_true, Steps.report, seq]
            have ko := k3 w3
            have ho := h4 w3
            cases hO : s.openFile w3 with
            | mk r w4 =>
              rw [hO] at ko ho
              simp only at ko ho
              subst ho
              have kw := k4 w4
              have hw := h5 w4
              cases hW : s.writeFile w4 with
              | mk r w5 =>
                rw [hW] at kw hw
                simp only at kw hw
                subst hw
                simp only [getvalue, hW]
                rw [kw, ko, kc, ka]
                simp [Stream.isStringIO, raise]
          · cases e <;> first | rfl | exact absurd rfl hcaught

/-- C54: a failing import is reported as such exactly if it raises something `except Exception` catches. -/
theorem C54_import_reported {σ : Type} (importModule : M σ) (w : World σ) (hk : Keeps importModule) :
    (importWithReport importModule w).1 = match (importModule (redirect w).2).1 with
      | .ok u => .ok u
      | .error (.base n) => .error (.base n)
      | .error _ => .error .importFailed := by
  simp only [importWithReport, restoring, tryExcept, seq, redirect]
  have hk := hk { w with stderr := .stringIO w.fresh, fresh := w.fresh + 1 }
  cases hi : importModule { w with stderr := .stringIO w.fresh, fresh := w.fresh + 1 } with
  | mk r w1 =>
    rw [hi] at hk
    simp only at hk
    cases r with
    | ok u => rfl
    | error e =>
      cases e <;> simp [getvalue, hk, Exc.caught, Stream.isStringIO, raise]

/-- Steps that all succeed. -/
def Compile.quiet {σ : Type} : Steps σ :=
  let m : M σ := fun w => (.ok (), w)
  ⟨m, m, m, m, m, m, m, m, m⟩

/-- C54 fails if the module cannot be printed: `UnboundLocalError` hides the error. -/
theorem C54_violated_unbound : ∃ (s : Steps Unit) (w : World Unit) (e : Exc),
    (∀ w, (s.getAsm w).1 = .error e) ∧ (∀ n, e ≠ .base n) ∧
    (s.runPipeline false w).1 = .error .unboundLocal :=
  ⟨{ quiet with getAsm := fun w => (.error (.exception "x"), w) }, ⟨.file 2, 0, ()⟩, .exception "x",
    fun _ => rfl, ⟨fun _ h => (by cases h), rfl⟩⟩

/-- C54 fails if a step puts another stream in place: the report itself raises. -/
theorem C54_violated_stream : ∃ (s : Steps Unit) (w : World Unit) (e : Exc),
    (∀ w, (s.run w).1 = .error e) ∧ (∀ n, e ≠ .base n) ∧
    (s.runPipeline false w).1 = .error .attributeError :=
  ⟨{ quiet with run := fun w => (.error (.exception "x"), { w with stderr := .file 7 }) },
    ⟨.file 2, 0, ()⟩, .exception "x", fun _ => rfl, ⟨fun _ h => (by cases h), rfl⟩⟩

/-- A failing pass: reported, and standard error is back. -/
example : let s : Steps Unit := { quiet with run := fun w => (.error (.exception "pass"), w) }
    s.runPipeline true ⟨.file 2, 0, ()⟩ = (.error .compilerError, ⟨.file 2, 1, ()⟩) := rfl

/-! ## C68 -/

theorem Compile.toUpper_dash {a : Char} (h : a.toUpper = '-') : a = '-' := by
  unfold Char.toUpper at h
  split at h
  · rename_i hl
    have h97 : 97 ≤ a.toNat ∧ a.toNat ≤ 122 := hl
    have : ∀ n : Fin 26, (Char.ofNat (97 + n)).toUpper ≠ '-' := by decide
    have := this ⟨a.toNat - 97, by omega⟩
    rw [show 97 + (⟨a.toNat - 97, by omega⟩ : Fin 26).val = a.toNat by simp; omega,
      Char.ofNat_toNat] at this
    exact absurd (by unfold Char.toUpper; rw [dif_pos hl]; exact h) this
  · exact h

theorem Compile.canonChar_same (a b : Char) (hb : b ≠ '-') : canonChar a = b ↔ SameChar a b := by
  unfold canonChar SameChar
  by_cases h : a.toUpper = '-'
  · have := toUpper_dash h
    subst this
    simp only [h, if_true, true_and]
    constructor
    · exact fun e => Or.inr e.symm
    · rintro (e | e)
      · exact absurd e.symm hb
      · exact e.symm
  · simp only [h, if_false]
    constructor
    · exact Or.inl
    · rintro (e | ⟨e, -⟩)
      · exact e
      · subst e; exact absurd rfl h

theorem Compile.sameName_iff (s name : List Char) (hn : '-' ∉ name) :
    SameName s name ↔ s.map canonChar = name := by
  unfold SameName
  constructor
  · rintro ⟨hl, h⟩
    apply List.ext_getElem?
    intro i
    rw [List.getElem?_map]
    cases hs : s[i]? with
    | none =>
      have := List.getElem?_eq_none_iff.mp hs
      rw [List.getElem?_eq_none (by omega)]
      rfl
    | some a =>
      have hi := (List.getElem?_eq_some_iff.mp hs).1
      have hb : name[i]? = some (name[i]'(by omega)) := List.getElem?_eq_getElem _
      rw [hb, Option.map_some, (canonChar_same a _ ?_).mpr (h i a _ hs hb)]
      exact fun e => hn (e ▸ List.getElem_mem _)
  · rintro rfl
    refine ⟨by simp, fun i a b ha hb => ?_⟩
    rw [List.getElem?_map, ha, Option.map_some, Option.some.injEq] at hb
    exact (canonChar_same a b (fun e => hn (by rw [← e, ← hb]; exact List.mem_map_of_mem (List.mem_of_getElem? ha)))).mp hb

/-- C68: a text is accepted as an output type exactly if it is that type's name in any case, with `-` or `_`. -/
theorem C68_names (s : List Char) (t : OutputType) :
    getType s = .ok t ↔ SameName s (typeName t).toList := by
  rw [sameName_iff _ _ (by cases t <;> decide)]
  unfold getType
  constructor
  · intro h
    split at h
    · rename_i t' ht
      have := dictGet_mem ht
      cases Except.ok.inj h
      simp only [members, List.mem_cons, List.not_mem_nil, or_false, Prod.mk.injEq] at this
      rcases this with ⟨h1, rfl⟩ | ⟨h1, rfl⟩ | ⟨h1, rfl⟩ | ⟨h1, rfl⟩ | ⟨h1, rfl⟩ <;>
        (rw [h1]; rfl)
    · cases h
  · intro h
    rw [h]
    cases t <;> decide

/-- C68: anything else raises `ValueError`. -/
theorem C68_rejected (s : List Char) (h : ∀ t, ¬ SameName s (typeName t).toList) :
    getType s = .error .valueError := by
  cases hg : getType s with
  | ok t => exact absurd ((C68_names s t).mp hg) (h t)
  | error e =>
    unfold getType at hg
    split at hg
    · cases hg
    · exact hg.symm ▸ rfl

/-- C68: the documented value of each output type is accepted and means that type. -/
theorem C68_values (t : OutputType) : getType (typeValue t).toList = .ok t := by
  cases t <;> decide +kernel

example : getType "Linalg_On-Tensors".toList = .ok .linalgOnTensors := by decide +kernel
example : getType "linalg".toList = .error .valueError := by decide +kernel

end Verif
