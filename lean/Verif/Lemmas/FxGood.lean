import Verif.Lemmas.FxStep

/-!
# Every importer function moves along `Step`s and produces what the spec says
-/

namespace Verif.Fx
open Spec

/-- `m` started in `s` only takes allowed steps and ends with `Ok`. -/
def Good (env : Env) (sc : Scope) {α : Type} (s : St) (m : M α) (Ok : α → St → Prop) : Prop :=
  ∀ a s', m s = .ok (a, s') → Reach env sc s s' ∧ Ok a s'

variable {env : Env} {sc : Scope} {nA : Nat} {s : St} {α β : Type}

theorem M.bind_apply (m : M α) (f : α → M β) (s : St) :
    (m >>= f) s = (match m s with | .ok (a, s') => f a s' | .error e => .error e) := by
  show StateT.bind m f s = _
  unfold StateT.bind
  show Except.bind (m s) _ = _
  cases m s <;> rfl

theorem M.pure_apply (a : α) (s : St) : (pure a : M α) s = .ok (a, s) := rfl

theorem M.bind_ok {m : M α} {f : α → M β} {s : St} {b : β} {s' : St} :
    (m >>= f) s = .ok (b, s') ↔ ∃ a t, m s = .ok (a, t) ∧ f a t = .ok (b, s') := by
  rw [M.bind_apply]
  cases h : m s with
  | error e => simp
  | ok p => obtain ⟨a, t⟩ := p; simp

theorem Good.bind {m : M α} {f : α → M β} {P : α → St → Prop} {Q : β → St → Prop} (hw : WF nA s)
    (hm : Good env sc s m P)
    (hf : ∀ a t, WF nA t → Reach env sc s t → P a t → Good env sc t (f a) Q) :
    Good env sc s (m >>= f) Q := by
  intro b s' h
  obtain ⟨a, t, h1, h2⟩ := M.bind_ok.mp h
  obtain ⟨r1, p1⟩ := hm a t h1
  obtain ⟨r2, q2⟩ := hf a t (r1.wf hw) r1 p1 b s' h2
  exact ⟨r1.trans r2, q2⟩

theorem Good.weaken {m : M α} {P Q : α → St → Prop} (hm : Good env sc s m P) (h : ∀ a t, Reach env sc s t → P a t → Q a t) :
    Good env sc s m Q := by
  intro a s' hr
  obtain ⟨r, p⟩ := hm a s' hr
  exact ⟨r, h a s' r p⟩

theorem Good.pure {a : α} {Q : α → St → Prop} (h : Q a s) : Good env sc s (pure a) Q := by
  intro a' s' hr
  rw [M.pure_apply] at hr
  cases hr
  exact ⟨.refl, h⟩

theorem Good.raise {e : PyErr} {Q : α → St → Prop} : Good env sc s (raise e) Q := by
  intro a' s' hr
  cases hr

theorem Good.guard {b : Bool} {e : PyErr} : Good env sc s (guardM b e) (fun _ t => t = s ∧ b = true) := by
  intro a s' hr
  unfold guardM at hr
  split at hr
  · cases hr; rename_i h; exact ⟨.refl, rfl, h⟩
  · cases hr

theorem Good.get : Good env sc s (get : M St) (fun a t => a = s ∧ t = s) := by
  intro a s' hr
  cases hr
  exact ⟨.refl, rfl, rfl⟩

theorem Good.lift {x : Py α} : Good env sc s (liftPy x) (fun a t => t = s ∧ x = .ok a) := by
  intro a s' hr
  unfold liftPy at hr
  cases x with
  | ok b => cases hr; exact ⟨.refl, rfl, rfl⟩
  | error e => cases hr

theorem Good.of_step {m : M α} {a : α} {t : St} {Q : α → St → Prop} (hm : m s = .ok (a, t))
    (hs : Reach env sc s t) (hq : Q a t) : Good env sc s m Q := by
  intro a' s' hr
  rw [hm] at hr
  cases hr
  exact ⟨hs, hq⟩

/-- Bind after a computation that does not change the state. -/
theorem Good.bind_guard {b : Bool} {e : PyErr} {f : Unit → M β} {Q : β → St → Prop} (hw : WF nA s)
    (hf : b = true → Good env sc s (f ()) Q) : Good env sc s (guardM b e >>= f) Q :=
  Good.bind hw Good.guard (fun _ t _ _ h => by obtain ⟨rfl, hb⟩ := h; exact hf hb)

theorem Good.bind_get {f : St → M β} {Q : β → St → Prop} (hw : WF nA s)
    (hf : Good env sc s (f s) Q) : Good env sc s ((MonadState.get : M St) >>= f) Q :=
  Good.bind hw Good.get (fun _ t _ _ h => by obtain ⟨rfl, rfl⟩ := h; exact hf)

theorem Good.bind_lift {x : Py α} {f : α → M β} {Q : β → St → Prop} (hw : WF nA s)
    (hf : ∀ a, x = .ok a → Good env sc s (f a) Q) : Good env sc s (liftPy x >>= f) Q :=
  Good.bind hw Good.lift (fun a t _ _ h => by obtain ⟨rfl, hb⟩ := h; exact hf a hb)

theorem Good.bind_pure {a : α} {f : α → M β} {Q : β → St → Prop} 
    (hf : Good env sc s (f a) Q) : Good env sc s (Pure.pure a >>= f) Q := by
  intro b s' h
  obtain ⟨a', t, h1, h2⟩ := M.bind_ok.mp h
  rw [M.pure_apply] at h1
  cases h1
  exact hf b s' h2

theorem Good.emit {k : OpKind} {operands : List Nat} {tys : List VTy} (hk : k.plain = true)
    (ho : ∀ x ∈ operands, x < s.tys.length) :
    Good env sc s (emit k operands tys) (fun ys t => ys.length = tys.length ∧
      (∀ y ∈ ys, y < t.tys.length) ∧ (⟨k, operands, ys⟩ : Op) ∈ t.ops ∧ t.v = s.v ∧ t.multi = s.multi ∧
      List.Forall₂ (fun y ty => t.tys[y]? = some ty) ys tys) := by
  refine Good.of_step rfl (.single (.emit k operands tys hk ho)) ⟨by simp, ?_, by simp, rfl, rfl, ?_⟩
  · intro y hy
    rw [List.mem_range'_1] at hy
    simpa using hy.2
  · rw [List.forall₂_iff_get]
    refine ⟨by simp, fun i h1 h2 => ?_⟩
    simp only [List.get_eq_getElem, List.getElem_range', Nat.one_mul]
    rw [List.getElem?_append_right (by omega), Nat.add_sub_cancel_left, List.getElem?_eq_getElem h2]

theorem Good.emit1 {k : OpKind} {operands : List Nat} {ty : VTy} (hk : k.plain = true)
    (ho : ∀ x ∈ operands, x < s.tys.length) :
    Good env sc s (emit1 k operands ty) (fun y t => y < t.tys.length ∧ Defines t.ops y k operands ∧
      t.tys[y]? = some ty) := by
  refine Good.of_step rfl (.single (.emit k operands [ty] hk ho)) ⟨by simp, by simp [Defines], by simp⟩

/-! ## Monotonicity of the specification -/

theorem Defines.mono {t t' : St} (h : Ext t t') {x k operands} (hd : Defines t.ops x k operands) :
    Defines t'.ops x k operands := h.mem hd

theorem NodeIs.mono {t t' : St} (h : Ext t t') {r x} (hd : NodeIs t r x) : NodeIs t' r x := h.v _ _ hd

theorem ScalarIs.mono {t t' : St} (h : Ext t t') {l x} (hd : ScalarIs t.ops l x) : ScalarIs t'.ops l x := by
  unfold ScalarIs at hd ⊢
  split at hd <;> first | exact Defines.mono h hd | exact hd

theorem LitIs.mono {t t' : St} (h : Ext t t') {l x} (hd : LitIs t.ops l x) : LitIs t'.ops l x := by
  unfold LitIs at hd ⊢
  split at hd
  · obtain ⟨y, c, h1, h2, h3⟩ := hd
    exact ⟨y, c, Defines.mono h h1, Defines.mono h h2, Defines.mono h h3⟩
  · exact ScalarIs.mono h hd

theorem ElemIs.mono {t t' : St} (h : Ext t t') {e x} (hd : ElemIs t e x) : ElemIs t' e x := by
  unfold ElemIs at hd ⊢
  split at hd
  · exact NodeIs.mono h hd
  · exact ScalarIs.mono h hd
  · exact hd

theorem RawIs.mono {t t' : St} (h : Ext t t') {a ty x} (hd : RawIs t a ty x) : RawIs t' a ty x := by
  unfold RawIs at hd ⊢
  split at hd
  · exact NodeIs.mono h hd
  · obtain ⟨ys, h1, h2⟩ := hd
    exact ⟨ys, Defines.mono h h1, h2.imp fun _ _ => ElemIs.mono h⟩
  · exact hd
  · split at hd
    · rename_i hc
      rw [if_pos hc]
      obtain ⟨y, h1, h2⟩ := hd
      exact ⟨y, ScalarIs.mono h h1, Defines.mono h h2⟩
    · rename_i hc
      rw [if_neg hc]
      exact LitIs.mono h hd

theorem AdaptIs.mono {t t' : St} (h : Ext t t') {y ty x} (hy : y < t.tys.length) (hd : AdaptIs t y ty x) :
    AdaptIs t' y ty x := by
  unfold AdaptIs at hd ⊢
  rw [h.ty hy]
  split at hd <;> first | exact Defines.mono h hd | exact hd

/-- `ArgIs` together with the bounds that make it stable. -/
def ArgIs' (t : St) (a : Arg) (ty : Option JitTy) (x : Nat) : Prop :=
  x < t.tys.length ∧ ∃ y, y < t.tys.length ∧ RawIs t a ty y ∧ AdaptIs t y ty x

theorem ArgIs'.mono {t t' : St} (h : Ext t t') {a ty x} (hd : ArgIs' t a ty x) : ArgIs' t' a ty x := by
  obtain ⟨hx, y, hy, h1, h2⟩ := hd
  have := h.len
  exact ⟨by omega, y, by omega, RawIs.mono h h1, AdaptIs.mono h hy h2⟩

theorem ArgIs'.argIs {t : St} {a ty x} (h : ArgIs' t a ty x) : ArgIs t a ty x := by
  obtain ⟨_, y, _, h1, h2⟩ := h
  exact ⟨y, h1, h2⟩

/-! ## Literals -/

theorem Good.convertLit {l : Lit} : Good env sc s (convertLit l none) (fun x t => x < t.tys.length ∧ ScalarIs t.ops l x) := by
  unfold Fx.convertLit
  split
  · exact Good.raise
  · exact Good.raise
  · exact (Good.emit1 rfl (by simp)).weaken fun x t _ h => ⟨h.1, h.2.1⟩
  · rename_i h1 h2 h3
    refine (Good.emit1 rfl (by simp)).weaken fun x t _ h => ⟨h.1, ?_⟩
    unfold ScalarIs
    split
    · rename_i c; exact absurd rfl (h3 c)
    · exact absurd rfl h2
    · exact absurd rfl h1
    · exact h.2.1

theorem Good.importLiteral {l : Lit} (hw : WF nA s) :
    Good env sc s (importLiteral l none) (fun x t => x < t.tys.length ∧ LitIs t.ops l x) := by
  unfold Fx.importLiteral
  split
  · rename_i obj
    refine Good.bind hw (Good.emit1 rfl (by simp)) fun x t wt rt ht => ?_
    refine Good.bind wt (Good.emit1 rfl (by simp)) fun c t' wt' rt' ht' => ?_
    have hx : x < t'.tys.length := by have := rt'.ext.len; omega
    refine (Good.emit1 rfl ?_).weaken fun y t'' r h => ⟨h.1, x, c, ?_, ?_, h.2.1⟩
    · intro z hz; simp at hz; rcases hz with rfl | rfl
      · exact hx
      · exact ht'.1
    · exact Defines.mono r.ext (Defines.mono rt'.ext ht.2.1)
    · exact Defines.mono r.ext ht'.2.1
  · rename_i h
    refine Good.convertLit.weaken fun x t _ ht => ⟨ht.1, ?_⟩
    unfold LitIs
    split
    · rename_i obj; exact absurd rfl (h obj)
    · exact ht.2

/-! ## Bindings -/

theorem Good.bindNodeValue {name : String} {r : Ref} {i : Int} {b : Binding} (hw : WF nA s)
    (hname : NameIs env r name) (hown : sc.own r i ∨ (IsAttr env r ∧ i = 0)) (hb : BindingOk s r i b) :
    Good env sc s (bindNodeValue env name r b i) (fun _ t => dictGet t.v (.ref r i) = some b ∧
      dictGet s.v (.ref r i) = none ∧ t.multi = s.multi ∧
      (∀ k, k ≠ .ref r i → dictGet t.v k = dictGet s.v k) ∧ t.tys = s.tys ∧
      (dictGet s.hooks name = none → t.ops = s.ops)) := by
  intro a s' h
  unfold Fx.bindNodeValue at h
  obtain ⟨_, _, h1, h⟩ := M.bind_ok.mp h
  cases h1
  obtain ⟨_, _, h1, h⟩ := M.bind_ok.mp h
  unfold guardM at h1
  split at h1
  · rename_i hfresh
    cases h1
    have hf : dictGet s.v (.ref r i) = none := by
      unfold dictMem at hfresh
      cases hd : dictGet s.v (.ref r i) with
      | none => rfl
      | some w => rw [hd] at hfresh; simp at hfresh
    obtain ⟨_, _, h1, h⟩ := M.bind_ok.mp h
    cases h1
    cases hh : dictGet s.hooks name with
    | none =>
      rw [hh] at h
      cases h
      exact ⟨.single (.bind r i name b hname hown hf hh hb), by simp, hf, rfl,
        fun k hk => dictGet_set_ne _ _ (Ne.symm hk), rfl, fun _ => rfl⟩
    | some hk =>
      rw [hh] at h
      unfold runHook at h
      cases b with
      | val x =>
        simp only at h
        cases hk with
        | overwrite m =>
          simp only at h
          obtain ⟨ys, t1, h1, h⟩ := M.bind_ok.mp h
          cases h1
          cases h
          refine ⟨.single ?_, by simp, hf, rfl, fun k hk => dictGet_set_ne _ _ (Ne.symm hk), by simp, fun hn => by simp at hn⟩
          have := Step.bindHook (env := env) (sc := sc) r i name x _ hname hown hf hh hb
          simpa [hookOp] using this
        | store n =>
          simp only at h
          obtain ⟨_, _, h1, h⟩ := M.bind_ok.mp h
          unfold guardM at h1
          split at h1
          · cases h1
            obtain ⟨ys, t1, h1, h⟩ := M.bind_ok.mp h
            cases h1
            cases h
            refine ⟨.single ?_, by simp, hf, rfl, fun k hk => dictGet_set_ne _ _ (Ne.symm hk), by simp, fun hn => by simp at hn⟩
            have := Step.bindHook (env := env) (sc := sc) r i name x _ hname hown hf hh hb
            simpa [hookOp] using this
          · cases h1
      | lazy n l => cases h
      | none => cases h
  · cases h1

theorem Good.resolve {r : Ref} {i : Int} (hw : WF nA s) (hu : sc.uses r) :
    Good env sc s (resolveNodeValue env r i) (fun x t => x < t.tys.length ∧
      dictGet t.v (.ref r i) = some (.val x)) := by
  unfold resolveNodeValue
  refine Good.bind_get hw ?_
  split
  · exact Good.raise
  · rename_i x hx
    exact Good.pure ⟨hw.vals _ _ hx, hx⟩
  · exact Good.raise
  · rename_i n l hl
    -- materialisation of a lifted input
    have key : ∀ tys ops x, Forced env n l s.tys.length tys ops x →
        importInput env n l s = .ok (x, { s with tys := s.tys ++ tys, ops := s.ops ++ ops }) →
        Good env sc s (importInput env n l >>= fun x =>
          (modify fun s => { s with v := dictSet s.v (.ref r i) (.val x) }) >>= fun _ => Pure.pure x) (fun x t => x < t.tys.length ∧ dictGet t.v (.ref r i) = some (.val x)) := by
      intro tys ops x hf he
      refine Good.of_step (a := x) (t := { s with tys := s.tys ++ tys, ops := s.ops ++ ops, v := dictSet s.v (.ref r i) (.val x) }) ?_ (.single (.force r i n l tys ops x hu hl hf)) ⟨(Forced.wf hw hf).2, by simp⟩
      rw [M.bind_apply, he]
      rfl
    cases hli : env.loadsInput n with
    | true => exact key _ _ _ (.load hli) (by unfold importInput; rw [if_pos hli]; rfl)
    | false =>
      have hne : ¬ (env.loadsInput n = true) := by simp [hli]
      cases l with
      | tensor obj isBool =>
        cases isBool with
        | true => exact key _ _ _ (.boolTensor hli rfl) (by
            unfold importInput; rw [if_neg hne]
            simp [Fx.importLiteral, M.bind_apply, Fx.emit1, List.append_assoc])
        | false => exact key _ _ _ (.lit hli) (by unfold importInput; rw [if_neg hne]; rfl)
      | enum c =>
        cases c with
        | none =>
          intro b s' h
          rw [M.bind_apply] at h
          unfold importInput at h; rw [if_neg hne] at h
          cases h
        | some c => exact key _ _ _ (.lit hli) (by unfold importInput; rw [if_neg hne]; rfl)
      | unsupported =>
        intro b s' h
        rw [M.bind_apply] at h
        unfold importInput at h; rw [if_neg hne] at h
        cases h
      | _ => exact key _ _ _ (.lit hli) (by unfold importInput; rw [if_neg hne]; rfl)

theorem Good.bindAttr {r : Ref} {name target : String} (hw : WF nA s)
    (hname : NameIs env r name) (ha : IsAttr env r) :
    Good env sc s (bindAttr env r name target) (fun _ _ => True) := by
  unfold Fx.bindAttr
  split
  · exact Good.raise
  · refine Good.bind hw (Good.importLiteral hw) fun x t wt rt ht => ?_
    exact (Good.bindNodeValue (b := .val x) wt hname (Or.inr ⟨ha, rfl⟩) ht.1).weaken fun _ _ _ _ => trivial

theorem nameIs_nodeOf {r : Ref} {n : Node} (h : nodeOf env r = some n) : NameIs env r n.name := by
  cases r with
  | graph i => exact ⟨n, h, rfl⟩
  | temp i => cases h

theorem Good.importNodeArg {r : Ref} (hw : WF nA s) (hu : sc.uses r) :
    Good env sc s (importNodeArg env r) (fun x t => x < t.tys.length ∧ NodeIs t r x) := by
  unfold Fx.importNodeArg
  refine Good.bind_get hw (Good.bind_guard hw fun _ => ?_)
  have hres : ∀ t, WF nA t → Good env sc t (resolveNodeValue env r 0) (fun x t => x < t.tys.length ∧ NodeIs t r x) :=
    fun t wt => Good.resolve wt hu
  split
  · rename_i node hn
    split
    · rename_i target ht
      split
      · exact hres s hw
      · exact Good.bind hw (Good.bindAttr hw (nameIs_nodeOf hn) ⟨node, target, hn, ht⟩) fun _ t wt _ _ => hres t wt
    · exact hres s hw
  · exact hres s hw

theorem Good.importNodeElem {r : Ref} (hw : WF nA s) (hu : sc.uses r) :
    Good env sc s (importNodeElem env r) (fun x t => x < t.tys.length ∧ NodeIs t r x) := by
  unfold Fx.importNodeElem
  refine Good.bind_get hw (Good.bind_guard hw fun _ => ?_)
  have hres : ∀ t, WF nA t → Good env sc t (resolveNodeValue env r 0) (fun x t => x < t.tys.length ∧ NodeIs t r x) :=
    fun t wt => Good.resolve wt hu
  split
  · rename_i node hn
    split
    · rename_i target ht
      split
      · exact hres s hw
      · exact Good.bind hw (Good.bindAttr hw (nameIs_nodeOf hn) ⟨node, target, hn, ht⟩) fun _ t wt _ _ => hres t wt
    · exact hres s hw
  · exact hres s hw

/-- Loops: if every step is good and its postcondition is stable, so is the loop. -/
theorem Good.mapM' {γ δ : Type} {f : γ → M δ} {P : γ → δ → St → Prop}
    (hmono : ∀ x y t t', Ext t t' → P x y t → P x y t') :
    ∀ (l : List γ) (s : St), WF nA s → (∀ x ∈ l, ∀ t, WF nA t → Ext s t → Good env sc t (f x) (P x)) →
    Good env sc s (mapM' f l) (fun ys t => List.Forall₂ (fun x y => P x y t) l ys) := by
  intro l
  induction l with
  | nil => intro s hw _; exact Good.pure .nil
  | cons x xs ih =>
    intro s hw hf
    show Good env sc s (f x >>= fun y => Fx.mapM' f xs >>= fun ys => Pure.pure (y :: ys)) _
    refine Good.bind hw (hf x (by simp) s hw (Ext.refl s)) fun y t wt rt hy => ?_
    refine Good.bind wt (ih t wt fun x' hx' t' wt' ht' => hf x' (by simp [hx']) t' wt' (rt.ext.trans ht')) fun ys t' wt' rt' hys => ?_
    exact Good.pure (.cons (hmono _ _ _ _ rt'.ext hy) hys)

theorem forall₂_right {γ δ : Type} {P : γ → δ → Prop} {Q : δ → Prop} {l : List γ} {m : List δ}
    (h : List.Forall₂ P l m) (hq : ∀ x y, P x y → Q y) : ∀ y ∈ m, Q y := by
  induction h with
  | nil => simp
  | cons h _ ih => intro y hy; simp at hy; rcases hy with rfl | hy
                   · exact hq _ _ h
                   · exact ih y hy

theorem Good.importListArg {xs : List Elem} {ty : Option JitTy} (hw : WF nA s)
    (hu : ∀ r ∈ xs.flatMap elemRefs, sc.uses r) :
    Good env sc s (importListArg env xs ty) (fun x t => x < t.tys.length ∧
      ∃ ys, Defines t.ops x .listConstruct ys ∧ List.Forall₂ (ElemIs t) xs ys) := by
  unfold Fx.importListArg
  split
  · exact Good.raise
  · rename_i isOpt e _
    refine Good.bind hw (Good.mapM' (P := fun x y t => y < t.tys.length ∧ ElemIs t x y)
      (fun x y t t' h hp => ⟨by have := h.len; omega, ElemIs.mono h hp.2⟩) xs s hw ?_) ?_
    · intro x hx t wt _
      cases x with
      | node r =>
        show Good env sc t (Fx.importNodeElem env r >>= _) _
        refine Good.bind wt (Good.importNodeElem wt (hu r ?_)) fun y t' wt' _ hy => ?_
        · exact List.mem_flatMap.mpr ⟨_, hx, by simp [elemRefs]⟩
        · exact Good.bind_get wt' (Good.bind_guard wt' fun _ => Good.pure hy)
      | lit l =>
        show Good env sc t (guardM _ _ >>= _) _
        exact Good.bind_guard wt fun _ => Good.convertLit
      | nested => exact Good.raise
    · intro ys t wt rt hys
      refine (Good.emit1 rfl (forall₂_right hys fun _ _ h => h.1)).weaken fun x t' r h => ⟨h.1, ys, h.2.1, ?_⟩
      exact hys.imp fun _ _ h => ElemIs.mono r.ext h.2

theorem Good.convertType {y : Nat} {ty : Option JitTy} (hw : WF nA s) (hy : y < s.tys.length) :
    Good env sc s (convertType y ty) (fun x t => x < t.tys.length ∧ AdaptIs t y ty x) := by
  unfold Fx.convertType
  refine Good.bind_get hw ?_
  have hty : s.tys[y]? = some s.tys[y] := List.getElem?_eq_getElem hy
  have cv : ∀ nm rt, (∀ t : St, t.tys[y]? = some .bool → ∀ x, AdaptIs t y ty x ↔ Defines t.ops x (.convert nm) [y]) →
      s.tys[y] = .bool →
      Good env sc s (Fx.emit1 (.convert nm) [y] rt) (fun x t => x < t.tys.length ∧ AdaptIs t y ty x) := by
    intro nm rt hsp hb
    refine (Good.emit1 rfl (by intro z hz; simp at hz; subst hz; exact hy)).weaken fun x t r h => ⟨h.1, ?_⟩
    rw [hsp t (by rw [r.ext.ty hy, hty, hb])]
    exact h.2.1
  have same : (∀ x, AdaptIs s y ty x ↔ x = y) → Good env sc s (Pure.pure y) (fun x t => x < t.tys.length ∧ AdaptIs t y ty x) :=
    fun h => Good.pure ⟨hy, (h y).mpr rfl⟩
  split
  · rename_i hb
    rw [hty] at hb
    simp at hb
    split
    · exact cv _ _ (fun t ht x => by unfold AdaptIs; rw [ht]) hb
    · exact cv _ _ (fun t ht x => by unfold AdaptIs; rw [ht]) hb
    · exact cv _ _ (fun t ht x => by unfold AdaptIs; rw [ht]) hb
    · rename_i h1 h2 h3
      refine same fun x => ?_
      unfold AdaptIs
      split
      · exact absurd rfl h1
      · exact absurd rfl h2
      · exact absurd rfl h3
      · rfl
  · rename_i hb
    rw [hty] at hb
    simp at hb
    refine same fun x => ?_
    unfold AdaptIs
    rw [hty]
    split <;> simp_all

theorem Good.importArgument {a : Arg} {ty : Option JitTy} (hw : WF nA s) (hu : ∀ r ∈ argRefs a, sc.uses r) :
    Good env sc s (importArgument env a ty) (fun x t => ArgIs' t a ty x) := by
  have conv : ∀ (m : M Nat), Good env sc s m (fun y t => y < t.tys.length ∧ RawIs t a ty y) →
      Good env sc s (m >>= fun x => Fx.convertType x ty) (fun x t => ArgIs' t a ty x) := by
    intro m hm
    refine Good.bind hw hm fun y t wt rt hy => ?_
    exact (Good.convertType wt hy.1).weaken fun x t' r h =>
      ⟨h.1, y, by have := r.ext.len; omega, RawIs.mono r.ext hy.2, h.2⟩
  cases a with
  | node r => exact conv _ (Good.importNodeArg hw (hu r (by simp [argRefs])))
  | list xs => exact conv _ (Good.importListArg hw hu)
  | tuple xs => exact Good.raise
  | lit l =>
    refine conv _ ?_
    unfold RawIs importLitArg
    by_cases hc : ty = some .tensor ∧ l.isTensor = false
    · have hc' : (decide (ty = some JitTy.tensor) && !l.isTensor) = true := by simp [hc.1, hc.2]
      rw [if_pos hc']
      simp only [if_pos hc]
      unfold importScalarAsTensor
      have ok : Good env sc s (Fx.convertLit l none >>= fun x => Fx.emit1 .numToTensor [x] .vtensor)
          (fun x t => x < t.tys.length ∧ ∃ y, ScalarIs t.ops l y ∧ Defines t.ops x .numToTensor [y]) := by
        refine Good.bind hw Good.convertLit fun y t wt rt hy => ?_
        exact (Good.emit1 rfl (by intro z hz; simp at hz; subst hz; exact hy.1)).weaken fun x t' r h =>
          ⟨h.1, y, ScalarIs.mono r.ext hy.2, h.2.1⟩
      split <;> first | exact ok | exact Good.raise
    · have hc' : ¬ ((decide (ty = some JitTy.tensor) && !l.isTensor) = true) := by
        simp only [Bool.and_eq_true, decide_eq_true_eq, Bool.not_eq_true']
        exact hc
      rw [if_neg hc']
      simp only [if_neg hc]
      exact Good.importLiteral hw

theorem Good.importDefault {a : Arg} {ty : JitTy} (hw : WF nA s) (hu : ∀ r ∈ argRefs a, sc.uses r) :
    Good env sc s (importDefault env a ty) (fun x t => x < t.tys.length ∧ DefaultIs t a x) := by
  unfold Fx.importDefault
  split
  · exact Good.importListArg hw hu
  · exact Good.convertLit
  · exact Good.raise

theorem DefaultIs.mono {t t' : St} (h : Ext t t') {a x} (hd : DefaultIs t a x) : DefaultIs t' a x := by
  unfold DefaultIs at hd ⊢
  split at hd
  · obtain ⟨ys, h1, h2⟩ := hd
    exact ⟨ys, Defines.mono h h1, h2.imp fun _ _ => ElemIs.mono h⟩
  · exact ScalarIs.mono h hd
  · exact hd

/-- `OperandIs` with bounds. -/
def OperandIs' (t : St) (args : List Arg) (kwargs : List (String × Arg)) (ip : Nat × Param) (x : Nat) : Prop :=
  x < t.tys.length ∧ ∃ a explicit, Passed args kwargs ip.1 ip.2 a explicit ∧
    if explicit = true then ArgIs' t a (some ip.2.ty) x else DefaultIs t a x

theorem OperandIs'.mono {t t' : St} (h : Ext t t') {args kwargs ip x} (hd : OperandIs' t args kwargs ip x) :
    OperandIs' t' args kwargs ip x := by
  obtain ⟨hx, a, e, hp, hv⟩ := hd
  refine ⟨by have := h.len; omega, a, e, hp, ?_⟩
  split at hv
  · rename_i he; rw [if_pos he]; exact ArgIs'.mono h hv
  · rename_i he; rw [if_neg he]; exact DefaultIs.mono h hv

theorem OperandIs'.operandIs {t : St} {args kwargs ip x} (h : OperandIs' t args kwargs ip x) :
    OperandIs t args kwargs ip.1 ip.2 x := by
  obtain ⟨_, a, e, hp, hv⟩ := h
  refine ⟨a, e, hp, ?_⟩
  split at hv
  · rename_i he; rw [if_pos he]; exact hv.argIs
  · rename_i he; rw [if_neg he]; exact hv

theorem lookup_spec {κ : Type} [DecidableEq κ] (l : List (κ × Arg)) (k : κ) :
    (∀ a, l.lookup k = some a → ∃ pre post, l = pre ++ (k, a) :: post ∧ ∀ q ∈ pre, q.1 ≠ k) ∧
    (l.lookup k = none → ∀ q ∈ l, q.1 ≠ k) := by
  induction l with
  | nil => simp
  | cons p l ih =>
    obtain ⟨k', a'⟩ := p
    constructor
    · intro a h
      simp only [List.lookup_cons] at h
      split at h
      · rename_i e
        have e' : k = k' := by simpa using e
        cases h; subst e'
        exact ⟨[], l, rfl, by simp⟩
      · rename_i e
        obtain ⟨pre, post, h1, h2⟩ := ih.1 a h
        refine ⟨(k', a') :: pre, post, by simp [h1], ?_⟩
        intro q hq
        simp at hq
        rcases hq with rfl | hq
        · intro e'; subst e'; simp at e
        · exact h2 q hq
    · intro h
      simp only [List.lookup_cons] at h
      split at h
      · cases h
      · rename_i e
        intro q hq
        simp at hq
        rcases hq with rfl | hq
        · intro e'; subst e'; simp at e
        · exact ih.2 h q hq

/-- References reachable from an op call. -/
def callRefs (args : List Arg) (kwargs : List (String × Arg)) : List Ref :=
  args.flatMap argRefs ++ kwargs.flatMap fun p => argRefs p.2

theorem argRefs_default (d : Dflt) : argRefs d.arg = [] := by
  cases d <;> simp [Dflt.arg, argRefs, elemRefs]

theorem Good.importParam {args : List Arg} {kwargs : List (String × Arg)} {ip : Nat × Param} (hw : WF nA s)
    (hu : ∀ r ∈ callRefs args kwargs, sc.uses r) :
    Good env sc s (importParam env args kwargs ip) (fun x t => OperandIs' t args kwargs ip x) := by
  unfold Fx.importParam
  split
  · rename_i a ha
    refine (Good.importArgument hw fun r hr => hu r ?_).weaken fun x t _ h => ⟨h.1, a, true, .positional ha, ?_⟩
    · exact List.mem_append_left _ (List.mem_flatMap.mpr ⟨a, List.mem_of_getElem? ha, hr⟩)
    · simpa using h
  · rename_i ha
    have hlen : args.length ≤ ip.1 := by simpa using ha
    split
    · rename_i a hk
      obtain ⟨pre, post, h1, h2⟩ := (lookup_spec kwargs ip.2.name).1 a hk
      refine (Good.importArgument hw fun r hr => hu r ?_).weaken fun x t _ h => ⟨h.1, a, true, .keyword hlen h1 h2, ?_⟩
      · refine List.mem_append_right _ (List.mem_flatMap.mpr ⟨(ip.2.name, a), ?_, hr⟩)
        rw [h1]; simp
      · simpa using h
    · rename_i hk
      refine (Good.importDefault hw fun r hr => by rw [argRefs_default] at hr; cases hr).weaken fun x t _ h =>
        ⟨h.1, ip.2.default.arg, false, .default hlen ((lookup_spec kwargs ip.2.name).2 hk), ?_⟩
      simpa using h.2

end Verif.Fx
