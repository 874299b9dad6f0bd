import Verif.Spec.Unroll

namespace Verif.Unroll
open Fold (V)

variable {W E : Type}

theorem set1_self (σ : V → E) (v : V) (e : E) : set1 σ v e v = e := by simp [set1]

theorem set1_ne {σ : V → E} {v n : V} {e : E} (h : n ≠ v) : set1 σ v e n = σ n := by simp [set1, h]

theorem setAll_other : ∀ (vs : List V) (es : List E) (σ : V → E) (n : V), n ∉ vs → setAll σ vs es n = σ n
  | [], _, σ, n, _ => by simp [setAll]
  | _ :: _, [], σ, n, _ => by simp [setAll]
  | v :: vs, e :: es, σ, n, h => by
    rw [setAll, setAll_other vs es _ n (fun hm => h (List.mem_cons_of_mem _ hm)), set1_ne (fun e => h (by simp [e]))]

theorem setAll_map : ∀ (vs : List V) (es : List E) (σ : V → E), vs.Nodup → vs.length = es.length →
    vs.map (setAll σ vs es) = es
  | [], [], _, _, _ => rfl
  | [], _ :: _, _, _, h => by simp at h
  | _ :: _, [], _, _, h => by simp at h
  | v :: vs, e :: es, σ, hn, h => by
    rw [List.nodup_cons] at hn
    rw [List.map_cons, setAll, setAll_other vs es _ v hn.1, set1_self, setAll_map vs es _ hn.2 (by simpa using h)]

/-- Names set through a mapping. -/
theorem setAll_zip : ∀ (vs ns : List V) (es : List E) (σ τ : V → E) (m : Mapping), vs.Nodup → ns.Nodup →
    vs.length = ns.length → vs.length = es.length → ∀ v ∈ vs, ∃ x, Mapping.find (vs.zip ns ++ m) v = some x ∧ x ∈ ns
      ∧ setAll τ ns es x = setAll σ vs es v
  | [], _, _, _, _, _, _, _, _, _, v, hv => by simp at hv
  | _ :: _, [], _, _, _, _, _, _, h, _, _, _ => by simp at h
  | _ :: _, _ :: _, [], _, _, _, _, _, _, h, _, _ => by simp at h
  | u :: vs, x :: ns, e :: es, σ, τ, m, hv, hn, h1, h2, v, hm => by
    rw [List.nodup_cons] at hv hn
    by_cases huv : v = u
    · subst huv
      refine ⟨x, by simp [Mapping.find, List.lookup_cons], by simp, ?_⟩
      rw [setAll, setAll, setAll_other _ _ _ _ hn.1, setAll_other _ _ _ _ hv.1, set1_self, set1_self]
    · have hm' : v ∈ vs := by
        rcases List.mem_cons.1 hm with h | h
        · exact absurd h huv
        · exact h
      obtain ⟨y, hy1, hy2, hy3⟩ := setAll_zip vs ns es (set1 σ u e) (set1 τ x e) m hv.2 hn.2 (by simpa using h1)
        (by simpa using h2) v hm'
      refine ⟨y, ?_, by simp [hy2], by rw [setAll, setAll]; exact hy3⟩
      have hb : (v == u) = false := by simpa using huv
      simpa [Mapping.find, List.lookup_cons, hb] using hy1

theorem find_zip_none : ∀ (vs ns : List V) (m : Mapping) (v : V), v ∉ vs →
    Mapping.find (vs.zip ns ++ m) v = Mapping.find m v
  | [], _, _, _, _ => by simp
  | _ :: _, [], _, _, _ => by simp
  | u :: vs, x :: ns, m, v, h => by
    have hb : (v == u) = false := by
      have : v ≠ u := fun e => h (by simp [e])
      simpa using this
    have := find_zip_none vs ns m v (fun hm => h (List.mem_cons_of_mem _ hm))
    simp only [Mapping.find] at this
    simp [Mapping.find, List.lookup_cons, hb, this]

theorem find_zip_isSome : ∀ (vs ns : List V) (m : Mapping) (v : V), vs.length = ns.length →
    ((Mapping.find (vs.zip ns ++ m) v).isSome = true ↔ v ∈ vs ∨ (Mapping.find m v).isSome = true)
  | [], _, _, _, _ => by simp
  | _ :: _, [], _, _, h => by simp at h
  | u :: vs, x :: ns, m, v, h => by
    have ih := find_zip_isSome vs ns m v (by simpa using h)
    simp only [Mapping.find] at ih
    by_cases huv : v = u
    · subst huv; simp [Mapping.find, List.lookup_cons]
    · have hb : (v == u) = false := by simpa using huv
      simp [Mapping.find, List.lookup_cons, hb, ih, huv]

theorem orSelf_of_find {m : Mapping} {v x : V} (h : m.find v = some x) : m.orSelf v = x := by simp [Mapping.orSelf, h]

theorem orSelf_zip_none {vs ns : List V} {m : Mapping} {v : V} (h : v ∉ vs) :
    Mapping.orSelf (vs.zip ns ++ m) v = m.orSelf v := by
  rw [Mapping.orSelf, Mapping.orSelf, find_zip_none _ _ _ _ h]

theorem lookupAll_eq (m : Mapping) : ∀ vs : List V,
    lookupAll m vs = if vs.all (fun v => (m.find v).isSome) then some (vs.map m.orSelf) else none
  | [] => by simp [lookupAll]
  | v :: vs => by
    rw [lookupAll, lookupAll_eq m vs]
    cases h : m.find v with
    | none => simp [h]
    | some x =>
      by_cases hv : vs.all (fun v => (m.find v).isSome) = true
      · simp [h, hv, Mapping.orSelf]
      · simp only [Bool.not_eq_true] at hv
        simp [h, hv]

theorem names_length (f : V) (n : Nat) : (names f n).length = n := by simp [names]

theorem names_nodup (f : V) (n : Nat) : (names f n).Nodup := List.nodup_range'

theorem mem_names {f : V} {n : Nat} {x : V} : x ∈ names f n ↔ f ≤ x ∧ x < f + n := by
  rw [names, List.mem_range'_1]

/-! ## Steps -/

def effect (S : Sem W E) : Op → List E → W → Option (List E × W)
  | .const _ c, _, w => some ([S.int c], w)
  | .call res s _, vs, w =>
    match S.run s vs w with
    | none => none
    | some (f, w') => some ((List.range res.length).map f, w')

theorem step_eq (S : Sem W E) (o : Op) (w : W) (σ : V → E) :
    step S o (w, σ) = match effect S o (o.args.map σ) w with
      | none => none
      | some (es, w') => some (w', setAll σ o.res es) := by
  cases o with
  | const r c => simp [step, effect, Op.res, setAll]
  | call res s args =>
    simp only [step, effect, Op.args, Op.res]
    cases S.run s (List.map σ args) w <;> rfl

theorem effect_length {S : Sem W E} {o : Op} {vs : List E} {w w' : W} {es : List E} (h : effect S o vs w = some (es, w')) :
    es.length = o.res.length := by
  cases o with
  | const r c => simp only [effect, Option.some.injEq, Prod.mk.injEq] at h; simp [← h.1, Op.res]
  | call res s args =>
    simp only [effect] at h
    cases hr : S.run s vs w with
    | none => rw [hr] at h; cases h
    | some p =>
      rw [hr] at h
      simp only [Option.some.injEq, Prod.mk.injEq] at h
      simp [← h.1, Op.res]

theorem effect_rebuild (S : Sem W E) (o : Op) (res args : List V) (h : res.length = o.res.length) (vs : List E) (w : W) :
    effect S (o.rebuild res args) vs w = effect S o vs w := by
  cases o with
  | const r c => rfl
  | call r s a => simp only [Op.rebuild, effect, Op.res] at h ⊢; rw [h]

theorem rebuild_res (o : Op) (res args : List V) (h : res.length = o.res.length) : (o.rebuild res args).res = res := by
  cases o with
  | const r c =>
    match res, h with
    | [x], _ => rfl
  | call r s a => rfl

theorem rebuild_args (o : Op) (res : List V) (f : V → V) : (o.rebuild res (o.args.map f)).args = o.args.map f := by
  cases o <;> rfl

theorem exec_append (S : Sem W E) : ∀ (a b : List Op) (s : W × (V → E)),
    exec S (a ++ b) s = match exec S a s with
      | none => none
      | some s' => exec S b s'
  | [], _, _ => rfl
  | o :: a, b, s => by
    rw [List.cons_append, exec, exec]
    cases step S o s with
    | none => rfl
    | some s' => exact exec_append S a b s'

/-! ## Cloning -/

/-- Values of the names in scope, seen through the mapping. -/
structure Inv (seen : List V) (bound : V) (scope : List V) (m : Mapping) (fresh : V) (σ τ : V → E) : Prop where
  val : ∀ v ∈ scope, τ (m.orSelf v) = σ v
  lt : ∀ v ∈ scope, m.orSelf v < fresh
  img : ∀ v ∈ scope, m.orSelf v ∈ seen ∨ bound ≤ m.orSelf v

theorem cloneOp_sim (S : Sem W E) {seen : List V} {bound : V} {scope : List V} {m : Mapping} {fresh : V} {σ τ : V → E}
    (o : Op) (w : W) (hinv : Inv seen bound scope m fresh σ τ) (hB : bound ≤ fresh) (hargs : ∀ v ∈ o.args, v ∈ scope)
    (hres : ∀ r ∈ o.res, r ∉ scope) (hnd : o.res.Nodup) :
    (step S o (w, σ) = none ∧ step S (cloneOp m fresh o).1 (w, τ) = none) ∨
    ∃ w' σ' τ', step S o (w, σ) = some (w', σ') ∧ step S (cloneOp m fresh o).1 (w, τ) = some (w', τ')
      ∧ Inv seen bound (scope ++ o.res) (cloneOp m fresh o).2 (fresh + o.res.length) σ' τ'
      ∧ (∀ n, n < fresh → τ' n = τ n) := by
  have hlen := names_length fresh o.res.length
  have hmap : ((cloneOp m fresh o).1.args.map τ) = o.args.map σ := by
    rw [show (cloneOp m fresh o).1 = o.rebuild (names fresh o.res.length) (o.args.map m.orSelf) from rfl, rebuild_args,
      List.map_map]
    exact List.map_congr_left fun v hv => hinv.val v (hargs v hv)
  have heff : effect S (cloneOp m fresh o).1 ((cloneOp m fresh o).1.args.map τ) w = effect S o (o.args.map σ) w := by
    rw [hmap]; exact effect_rebuild S o _ _ hlen _ _
  have hresc : (cloneOp m fresh o).1.res = names fresh o.res.length := rebuild_res o _ _ hlen
  rw [step_eq S o, step_eq S (cloneOp m fresh o).1, heff, hresc]
  cases he : effect S o (o.args.map σ) w with
  | none => exact Or.inl ⟨rfl, rfl⟩
  | some p =>
    obtain ⟨es, w'⟩ := p
    right
    have hel := effect_length he
    have hold : ∀ v ∈ scope, v ∉ o.res := fun v hv hr => hres v hr hv
    have hor : ∀ v ∈ scope, Mapping.orSelf (cloneOp m fresh o).2 v = m.orSelf v :=
      fun v hv => orSelf_zip_none (hold v hv)
    have hnew := setAll_zip o.res (names fresh o.res.length) es σ τ m hnd (names_nodup _ _) hlen.symm hel.symm
    refine ⟨w', _, _, rfl, rfl, ⟨fun v hv => ?_, fun v hv => ?_, fun v hv => ?_⟩, fun n hn => ?_⟩
    · rcases List.mem_append.1 hv with hv | hv
      · rw [hor v hv, setAll_other, setAll_other _ _ _ _ (hold v hv)]
        · exact hinv.val v hv
        · intro hm; exact Nat.lt_irrefl _ (Nat.lt_of_lt_of_le (hinv.lt v hv) (mem_names.1 hm).1)
      · obtain ⟨x, h1, h2, h3⟩ := hnew v hv
        rw [show (cloneOp m fresh o).2.orSelf v = x from orSelf_of_find h1]
        exact h3
    · rcases List.mem_append.1 hv with hv | hv
      · rw [hor v hv]; exact Nat.lt_of_lt_of_le (hinv.lt v hv) (Nat.le_add_right _ _)
      · obtain ⟨x, h1, h2, h3⟩ := hnew v hv
        rw [show (cloneOp m fresh o).2.orSelf v = x from orSelf_of_find h1]
        exact (mem_names.1 h2).2
    · rcases List.mem_append.1 hv with hv | hv
      · rw [hor v hv]; exact hinv.img v hv
      · obtain ⟨x, h1, h2, h3⟩ := hnew v hv
        rw [show (cloneOp m fresh o).2.orSelf v = x from orSelf_of_find h1]
        exact Or.inr (Nat.le_trans hB (mem_names.1 h2).1)
    · exact setAll_other _ _ _ _ fun hm => Nat.lt_irrefl _ (Nat.lt_of_lt_of_le hn (mem_names.1 hm).1)

theorem cloneBody_fresh : ∀ (ops : List Op) (m : Mapping) (fresh : V), fresh ≤ (cloneBody m fresh ops).2.2
  | [], _, _ => Nat.le_refl _
  | o :: rest, m, fresh => by
    rw [cloneBody]
    exact Nat.le_trans (Nat.le_add_right _ _) (cloneBody_fresh rest _ _)

theorem cloneBody_find : ∀ (ops : List Op) (m : Mapping) (fresh v : V),
    ((cloneBody m fresh ops).2.1.find v).isSome = true ↔ v ∈ ops.flatMap Op.res ∨ (m.find v).isSome = true
  | [], _, _, _ => by simp [cloneBody]
  | o :: rest, m, fresh, v => by
    rw [cloneBody]
    refine (cloneBody_find rest (cloneOp m fresh o).2 (fresh + o.res.length) v).trans ?_
    rw [show (cloneOp m fresh o).2 = o.res.zip (names fresh o.res.length) ++ m from rfl,
      find_zip_isSome _ _ _ _ (names_length _ _).symm, List.flatMap_cons, List.mem_append]
    tauto

theorem cloneBody_sim (S : Sem W E) {seen : List V} {bound : V} : ∀ (ops : List Op) (scope : List V) (m : Mapping)
    (fresh : V) (σ τ : V → E) (w : W), Inv seen bound scope m fresh σ τ → bound ≤ fresh → Ssa scope ops →
    (exec S ops (w, σ) = none ∧ exec S (cloneBody m fresh ops).1 (w, τ) = none) ∨
    ∃ w' σ' τ', exec S ops (w, σ) = some (w', σ') ∧ exec S (cloneBody m fresh ops).1 (w, τ) = some (w', τ')
      ∧ Inv seen bound (scope ++ ops.flatMap Op.res) (cloneBody m fresh ops).2.1 (cloneBody m fresh ops).2.2 σ' τ'
      ∧ (∀ n, n < fresh → τ' n = τ n) := by
  intro ops
  induction ops with
  | nil =>
    intro scope m fresh σ τ w h _ _
    exact Or.inr ⟨w, σ, τ, rfl, rfl, by simpa [cloneBody] using h, fun _ _ => rfl⟩
  | cons o rest ih =>
    intro scope m fresh σ τ w h hB hssa
    obtain ⟨h1, h2, h3, h4⟩ := hssa
    rw [show (cloneBody m fresh (o :: rest)).1 = (cloneOp m fresh o).1 ::
      (cloneBody (cloneOp m fresh o).2 (fresh + o.res.length) rest).1 from rfl, exec, exec]
    rcases cloneOp_sim S o w h hB h1 h2 h3 with ⟨e1, e2⟩ | ⟨w1, σ1, τ1, e1, e2, hi, hf⟩
    · rw [e1, e2]; exact Or.inl ⟨rfl, rfl⟩
    · rw [e1, e2]
      dsimp only
      have hB' : bound ≤ fresh + o.res.length := Nat.le_trans hB (Nat.le_add_right _ _)
      rcases ih _ _ _ σ1 τ1 w1 hi hB' h4 with ⟨e3, e4⟩ | ⟨w2, σ2, τ2, e3, e4, hi2, hf2⟩
      · exact Or.inl ⟨e3, e4⟩
      · right
        refine ⟨w2, σ2, τ2, e3, e4, ?_, fun n hn => ?_⟩
        · rw [List.flatMap_cons, ← List.append_assoc]; exact hi2
        · rw [hf2 n (Nat.lt_of_lt_of_le hn (Nat.le_add_right _ _)), hf n hn]

/-! ## Iterations -/

theorem entry_inv {seen : List V} {bound : V} {L : Loop} (hok : L.Ok seen) (hseen : ∀ v ∈ seen, v < bound) {S : Sem W E}
    {σ τ : V → E} {idx : V} {i : Nat} {iterArgs : List V} {vals : List E} {fresh : V} (hB : bound ≤ fresh)
    (hvals : iterArgs.map τ = vals) (hlen : iterArgs.length = L.params.length) (hlt : ∀ a ∈ iterArgs, a < fresh)
    (himg : ∀ a ∈ iterArgs, a ∈ seen ∨ bound ≤ a) (hσ : ∀ v ∈ seen, τ v = σ v) (hidx : τ idx = S.int i)
    (hidxl : idx < fresh) (hidxb : bound ≤ idx) :
    Inv seen bound (seen ++ L.index :: L.params) (entry L idx iterArgs) fresh
      (setAll (set1 σ L.index (S.int i)) L.params vals) τ := by
  have hnd := List.nodup_cons.1 hok.args
  have hparam : ∀ v ∈ L.params, ∃ x ∈ iterArgs, (entry L idx iterArgs).orSelf v = x
      ∧ τ x = setAll (set1 σ L.index (S.int i)) L.params vals v := by
    subst hvals
    have key : ∀ (ps : List V) (as : List V) (ρ : V → E) (m : Mapping), ps.Nodup → as.length = ps.length →
        ∀ v ∈ ps, ∃ x ∈ as, Mapping.orSelf (ps.zip as ++ m) v = x ∧ τ x = setAll ρ ps (as.map τ) v := by
      intro ps
      induction ps with
      | nil => intro as ρ m _ _ v hv; simp at hv
      | cons p ps ih =>
        intro as ρ m hn hl v hv
        match as, hl with
        | a :: as, hl =>
          rw [List.nodup_cons] at hn
          by_cases e : v = p
          · subst e
            refine ⟨a, by simp, by simp [Mapping.orSelf, Mapping.find, List.lookup_cons], ?_⟩
            rw [List.map_cons, setAll, setAll_other _ _ _ _ hn.1, set1_self]
          · have hv' : v ∈ ps := by
              rcases List.mem_cons.1 hv with h | h
              · exact absurd h e
              · exact h
            obtain ⟨x, hx, h1, h2⟩ := ih as (set1 ρ p (τ a)) m hn.2 (by simpa using hl) v hv'
            have hb : (v == p) = false := by simpa using e
            refine ⟨x, List.mem_cons_of_mem _ hx, ?_, by rw [List.map_cons, setAll]; exact h2⟩
            simpa [Mapping.orSelf, Mapping.find, List.lookup_cons, hb] using h1
    exact key L.params iterArgs _ [(L.index, idx)] hnd.2 hlen
  have hindex : (entry L idx iterArgs).orSelf L.index = idx := by
    rw [entry, orSelf_zip_none hnd.1]
    simp [Mapping.orSelf, Mapping.find, List.lookup_cons]
  have hs : ∀ v ∈ seen, (entry L idx iterArgs).orSelf v = v ∧ v ∉ L.params ∧ v ≠ L.index := by
    intro v hv
    have h1 : v ∉ L.params := fun hm => hok.new v (by simp [hm]) hv
    have h2 : v ≠ L.index := fun e => hok.new v (by simp [e]) hv
    refine ⟨?_, h1, h2⟩
    have hb : (v == L.index) = false := by simpa using h2
    rw [entry, orSelf_zip_none h1]
    simp [Mapping.orSelf, Mapping.find, List.lookup_cons, hb]
  refine ⟨fun v hv => ?_, fun v hv => ?_, fun v hv => ?_⟩ <;>
    rcases List.mem_append.1 hv with hv | hv
  · obtain ⟨h1, h2, h3⟩ := hs v hv
    rw [h1, setAll_other _ _ _ _ h2, set1_ne h3, hσ v hv]
  · rcases List.mem_cons.1 hv with rfl | hv
    · rw [hindex, setAll_other _ _ _ _ hnd.1, set1_self, hidx]
    · obtain ⟨x, _, h1, h2⟩ := hparam v hv
      rw [h1, h2]
  · rw [(hs v hv).1]; exact Nat.lt_of_lt_of_le (hseen v hv) hB
  · rcases List.mem_cons.1 hv with rfl | hv
    · rw [hindex]; exact hidxl
    · obtain ⟨x, hx, h1, _⟩ := hparam v hv
      rw [h1]; exact hlt x hx
  · rw [(hs v hv).1]; exact Or.inl hv
  · rcases List.mem_cons.1 hv with rfl | hv
    · rw [hindex]; exact Or.inr hidxb
    · obtain ⟨x, hx, h1, _⟩ := hparam v hv
      rw [h1]; exact himg x hx

theorem iterations_sim (S : Sem W E) {seen : List V} {bound : V} {L : Loop} (hok : L.Ok seen) (hseen : ∀ v ∈ seen, v < bound)
    {σ : V → E} (hc : Continues S L σ) {idx : V} (hidxb : bound ≤ idx) : ∀ (n i : Nat) (iterArgs : List V) (fresh : V)
    (vals : List E) (w : W) (τ : V → E) (ops : List Op) (last : List V),
    iterations L idx n i iterArgs fresh = some (ops, last) → bound ≤ fresh → iterArgs.map τ = vals →
    iterArgs.length = L.params.length → (∀ a ∈ iterArgs, a < fresh) → (∀ a ∈ iterArgs, a ∈ seen ∨ bound ≤ a) →
    (∀ v ∈ seen, τ v = σ v) → (∀ j, i ≤ j → j < i + n → τ (idx + j) = S.int j ∧ idx + j < fresh) →
    (runLoop S L σ n i vals true w = none ∧ exec S ops (w, τ) = none) ∨
      ∃ w' vals' τ', runLoop S L σ n i vals true w = some (w', vals') ∧ exec S ops (w, τ) = some (w', τ')
        ∧ last.map τ' = vals' ∧ (∀ m, m < fresh → τ' m = τ m)
        ∧ last.length = L.params.length ∧ (∀ a ∈ last, a ∈ seen ∨ bound ≤ a) := by
  intro n
  induction n with
  | zero =>
    intro i iterArgs fresh vals w τ ops last h hB hvals hlen hlt himg hσ _
    simp only [iterations, Option.some.injEq, Prod.mk.injEq] at h
    obtain ⟨rfl, rfl⟩ := h
    exact Or.inr ⟨w, vals, τ, rfl, rfl, hvals, fun _ _ => rfl, hlen, himg⟩
  | succ n ih =>
    intro i iterArgs fresh vals w τ ops last h hB hvals hlen hlt himg hσ hidx
    rw [iterations] at h
    dsimp only at h
    have hi := hidx i (Nat.le_refl _) (by omega)
    have hinv := entry_inv hok hseen (S := S) (i := i) hB hvals hlen hlt himg hσ hi.1 hi.2
      (Nat.le_trans hidxb (Nat.le_add_right _ _))
    cases hl : lookupAll (cloneBody (entry L (idx + i) iterArgs) fresh L.body).2.1 L.yields with
    | none => rw [hl] at h; cases h
    | some next =>
      rw [hl] at h
      dsimp only at h
      cases hr : iterations L idx n (i + 1) next (cloneBody (entry L (idx + i) iterArgs) fresh L.body).2.2 with
      | none => rw [hr] at h; cases h
      | some p =>
        obtain ⟨rest, last'⟩ := p
        rw [hr] at h
        simp only [Option.some.injEq, Prod.mk.injEq] at h
        obtain ⟨rfl, rfl⟩ := h
        rw [lookupAll_eq] at hl
        have hnext : next = L.yields.map (cloneBody (entry L (idx + i) iterArgs) fresh L.body).2.1.orSelf := by
          split at hl
          · injection hl with hl; exact hl.symm
          · cases hl
        have hff := cloneBody_fresh L.body (entry L (idx + i) iterArgs) fresh
        have hlen' : next.length = L.params.length := by rw [hnext, List.length_map, hok.len_yield]
        rw [exec_append, runLoop, if_pos rfl]
        rcases cloneBody_sim S L.body _ _ fresh _ τ w hinv hB hok.body with ⟨e1, e2⟩ | ⟨w1, σ1, τ1, e1, e2, hi1, hf1⟩
        · rw [e1, e2]
          exact Or.inl ⟨rfl, rfl⟩
        · rw [e1, e2]
          dsimp only
          have hcont := hc i vals w w1 σ1 e1
          rw [hcont]
          have hy : ∀ v ∈ L.yields, v ∈ (seen ++ L.index :: L.params) ++ L.body.flatMap Op.res := hok.yields
          have hih := ih (i + 1) next _ (L.yields.map σ1) w1 τ1 rest last' hr (Nat.le_trans hB hff)
            (by rw [hnext, List.map_map]; exact List.map_congr_left fun v hv => hi1.val v (hy v hv))
            hlen'
            (by rw [hnext]; intro a ha; obtain ⟨v, hv, rfl⟩ := List.mem_map.1 ha; exact hi1.lt v (hy v hv))
            (by rw [hnext]; intro a ha; obtain ⟨v, hv, rfl⟩ := List.mem_map.1 ha; exact hi1.img v (hy v hv))
            (fun v hv => by rw [hf1 v (Nat.lt_of_lt_of_le (hseen v hv) hB), hσ v hv])
            (fun j h1 h2 => by
              have := hidx j (by omega) (by omega)
              exact ⟨by rw [hf1 _ this.2, this.1], Nat.lt_of_lt_of_le this.2 hff⟩)
          rcases hih with h | ⟨w2, vals2, τ2, e3, e4, h5, h6, h7⟩
          · exact Or.inl h
          · exact Or.inr ⟨w2, vals2, τ2, e3, e4, h5, fun m hm => by
              rw [h6 m (Nat.lt_of_lt_of_le hm hff), hf1 m hm], h7⟩

theorem indices_exec (S : Sem W E) (fresh : V) (w : W) : ∀ (n : Nat) (σ : V → E), ∃ τ,
    exec S (indices fresh n) (w, σ) = some (w, τ) ∧ (∀ j, j < n → τ (fresh + j) = S.int j) ∧ (∀ m, m < fresh → τ m = σ m) := by
  intro n
  induction n with
  | zero => intro σ; exact ⟨σ, rfl, fun j hj => absurd hj (Nat.not_lt_zero _), fun _ _ => rfl⟩
  | succ n ih =>
    intro σ
    obtain ⟨τ, h1, h2, h3⟩ := ih σ
    refine ⟨set1 τ (fresh + n) (S.int n), ?_, fun j hj => ?_, fun m hm => ?_⟩
    · rw [indices, List.range_succ, List.map_append, exec_append]
      rw [indices] at h1
      rw [h1]
      rfl
    · by_cases e : j = n
      · subst e; exact set1_self _ _ _
      · rw [set1_ne (fun h => e (Nat.add_left_cancel h)), h2 j (by omega)]
    · rw [set1_ne (Nat.ne_of_lt (Nat.lt_of_lt_of_le hm (Nat.le_add_right _ _))), h3 m hm]

/-! ## The operations after the loop -/

theorem replaceUses_eq (m : Mapping) (o : Op) : o.replaceUses m = o.rebuild o.res (o.args.map m.orSelf) := by
  cases o <;> rfl

/-- The values of names, after the loop. -/
structure After (L : Loop) (values : List V) (bound : V) (σ τ : V → E) : Prop where
  other : ∀ n, n < bound → n ∉ L.results → τ n = σ n
  res : values.map τ = L.results.map σ

theorem After.orSelf {L : Loop} {values : List V} {bound : V} {σ τ : V → E} (h : After L values bound σ τ)
    (hnd : L.results.Nodup) (hlen : values.length = L.results.length) {v : V} (hv : v < bound) :
    τ (Mapping.orSelf (L.results.zip values) v) = σ v := by
  by_cases hm : v ∈ L.results
  · have key : ∀ (rs vs : List V), rs.Nodup → vs.length = rs.length → vs.map τ = rs.map σ → v ∈ rs →
        τ (Mapping.orSelf (rs.zip vs) v) = σ v := by
      intro rs
      induction rs with
      | nil => intro vs _ _ _ h; simp at h
      | cons r rs ih =>
        intro vs hn hl he hm
        match vs, hl with
        | x :: vs, hl =>
          rw [List.nodup_cons] at hn
          simp only [List.map_cons, List.cons.injEq] at he
          by_cases e : v = r
          · subst e; simpa [Mapping.orSelf, Mapping.find] using he.1
          · have hb : (v == r) = false := by simpa using e
            have hm' : v ∈ rs := by
              rcases List.mem_cons.1 hm with h | h
              · exact absurd h e
              · exact h
            have := ih vs hn.2 (by simpa using hl) he.2 hm'
            simpa [Mapping.orSelf, Mapping.find, List.lookup_cons, hb] using this
    exact key _ _ hnd hlen h.res hm
  · have := orSelf_zip_none (ns := values) (m := []) hm
    rw [List.append_nil] at this
    rw [this]
    exact h.other v hv hm

theorem after_sim (S : Sem W E) {L : Loop} {values : List V} {bound : V} (hnd : L.results.Nodup)
    (hlen : values.length = L.results.length) : ∀ (ops : List Op) (scope : List V) (w : W) (σ τ : V → E),
    After L values bound σ τ → Ssa scope ops → (∀ v ∈ scope, v < bound) → (∀ o ∈ ops, ∀ r ∈ o.res, r < bound) →
    (∀ r ∈ L.results, r ∈ scope) → (∀ a ∈ values, a ∈ scope ∨ bound ≤ a) →
    SameEnd L values bound (exec S ops (w, σ)) (exec S (ops.map (Op.replaceUses (L.results.zip values))) (w, τ)) := by
  intro ops
  induction ops with
  | nil => intro scope w σ τ h _ _ _ _ _; exact ⟨rfl, h.other, h.res⟩
  | cons o rest ih =>
    intro scope w σ τ h hssa hscope hres hrs hvs
    obtain ⟨h1, h2, h3, h4⟩ := hssa
    rw [List.map_cons, exec, exec, replaceUses_eq]
    have hargs : (o.rebuild o.res (o.args.map (Mapping.orSelf (L.results.zip values)))).args.map τ = o.args.map σ := by
      rw [rebuild_args, List.map_map]
      exact List.map_congr_left fun v hv => h.orSelf hnd hlen (hscope v (h1 v hv))
    rw [step_eq S o, step_eq S (o.rebuild _ _), hargs, effect_rebuild S o _ _ rfl, rebuild_res o _ _ rfl]
    cases he : effect S o (o.args.map σ) w with
    | none => trivial
    | some p =>
      obtain ⟨es, w'⟩ := p
      dsimp only
      refine ih (scope ++ o.res) w' _ _ ⟨fun n hn hnr => ?_, ?_⟩ h4 (fun v hv => ?_) (fun p hp => hres p (by simp [hp]))
        (fun r hr => List.mem_append_left _ (hrs r hr)) (fun a ha => ?_)
      · by_cases hm : n ∈ o.res
        · have key : ∀ (vs : List V) (es : List E) (ρ ρ' : V → E), vs.length = es.length → n ∈ vs →
              setAll ρ' vs es n = setAll ρ vs es n := by
            intro vs
            induction vs with
            | nil => intro es ρ ρ' _ h; simp at h
            | cons v vs ihv =>
              intro es ρ ρ' hl hm
              match es, hl with
              | e :: es, hl =>
                rw [setAll, setAll]
                by_cases hin : n ∈ vs
                · exact ihv es _ _ (by simpa using hl) hin
                · rw [setAll_other _ _ _ _ hin, setAll_other _ _ _ _ hin]
                  have : n = v := by
                    rcases List.mem_cons.1 hm with h | h
                    · exact h
                    · exact absurd h hin
                  subst this
                  rw [set1_self, set1_self]
          exact key _ _ _ _ (effect_length he).symm hm
        · rw [setAll_other _ _ _ _ hm, setAll_other _ _ _ _ hm]
          exact h.other n hn hnr
      · have e1 : values.map (setAll τ o.res es) = values.map τ := by
          refine List.map_congr_left fun a ha => setAll_other _ _ _ _ fun hm => ?_
          rcases hvs a ha with hs | hb
          · exact h2 a hm hs
          · exact Nat.lt_irrefl _ (Nat.lt_of_lt_of_le (hres o (by simp) a hm) hb)
        have e2 : L.results.map (setAll σ o.res es) = L.results.map σ :=
          List.map_congr_left fun r hr => setAll_other _ _ _ _ fun hm => h2 r hm (hrs r hr)
        rw [e1, e2]; exact h.res
      · rcases List.mem_append.1 hv with hv | hv
        · exact hscope v hv
        · exact hres o (by simp) v hv
      · rcases hvs a ha with hs | hb
        · exact Or.inl (List.mem_append_left _ hs)
        · exact Or.inr hb

/-! ## When the copies can be made -/

theorem entry_find (L : Loop) (idx : V) (iterArgs : List V) (hlen : iterArgs.length = L.params.length) (v : V) :
    ((entry L idx iterArgs).find v).isSome = true ↔ v ∈ L.index :: L.params := by
  rw [entry, find_zip_isSome _ _ _ _ hlen.symm, List.mem_cons]
  by_cases e : v = L.index
  · subst e; simp [Mapping.find, List.lookup_cons]
  · have hb : (v == L.index) = false := by simpa using e
    simp [Mapping.find, List.lookup_cons, hb, e]

theorem yields_found (L : Loop) (idx : V) (iterArgs : List V) (hlen : iterArgs.length = L.params.length) (fresh : V) :
    (L.yields.all (fun v => ((cloneBody (entry L idx iterArgs) fresh L.body).2.1.find v).isSome) = true) ↔ L.YieldsOwn := by
  rw [List.all_eq_true, Loop.YieldsOwn]
  refine forall_congr' fun v => forall_congr' fun _ => ?_
  rw [cloneBody_find, entry_find L idx iterArgs hlen, List.mem_append]
  tauto

theorem iterations_own {L : Loop} (hy : L.yields.length = L.params.length) (hown : L.YieldsOwn) (idx : V) :
    ∀ (n i : Nat) (iterArgs : List V) (fresh : V), iterArgs.length = L.params.length →
      iterations L idx n i iterArgs fresh ≠ none := by
  intro n
  induction n with
  | zero => intro i iterArgs fresh _; simp [iterations]
  | succ n ih =>
    intro i iterArgs fresh hlen
    rw [iterations]
    dsimp only
    rw [lookupAll_eq, if_pos ((yields_found L _ _ hlen fresh).2 hown)]
    dsimp only
    have := ih (i + 1) (L.yields.map (cloneBody (entry L (idx + i) iterArgs) fresh L.body).2.1.orSelf)
      (cloneBody (entry L (idx + i) iterArgs) fresh L.body).2.2 (by rw [List.length_map, hy])
    cases hr : iterations L idx n (i + 1) (L.yields.map (cloneBody (entry L (idx + i) iterArgs) fresh L.body).2.1.orSelf)
        (cloneBody (entry L (idx + i) iterArgs) fresh L.body).2.2 with
    | none => exact absurd hr this
    | some p => simp

theorem iterations_not_own {L : Loop} (hown : ¬L.YieldsOwn) (idx : V) (n i : Nat) (iterArgs : List V) (fresh : V)
    (hlen : iterArgs.length = L.params.length) : iterations L idx (n + 1) i iterArgs fresh = none := by
  rw [iterations]
  dsimp only
  rw [lookupAll_eq, if_neg (fun h => hown ((yields_found L _ _ hlen fresh).1 h))]

/-! ## The new block is well formed -/

theorem ssa_append : ∀ (a b : List Op) (seen : List V), Ssa seen a → Ssa (seen ++ a.flatMap Op.res) b → Ssa seen (a ++ b)
  | [], b, seen, _, h => by simpa using h
  | o :: a, b, seen, ⟨h1, h2, h3, h4⟩, h => by
    refine ⟨h1, h2, h3, ssa_append a b _ h4 ?_⟩
    simpa [List.flatMap_cons, List.append_assoc] using h

theorem ssa_mono : ∀ (ops : List Op) (seen seen' : List V), Ssa seen ops → (∀ v ∈ seen, v ∈ seen') →
    (∀ v ∈ seen', v ∈ seen ∨ ∀ o ∈ ops, v ∉ o.res) → Ssa seen' ops
  | [], _, _, _, _, _ => trivial
  | o :: rest, seen, seen', ⟨h1, h2, h3, h4⟩, hs, hn => by
    refine ⟨fun v hv => hs v (h1 v hv), fun r hr hm => ?_, h3, ssa_mono rest _ _ h4 ?_ ?_⟩
    · rcases hn r hm with h | h
      · exact h2 r hr h
      · exact h o (by simp) hr
    · intro v hv
      rcases List.mem_append.1 hv with hv | hv
      · exact List.mem_append_left _ (hs v hv)
      · exact List.mem_append_right _ hv
    · intro v hv
      rcases List.mem_append.1 hv with hv | hv
      · rcases hn v hv with h | h
        · exact Or.inl (List.mem_append_left _ h)
        · exact Or.inr fun p hp => h p (by simp [hp])
      · exact Or.inl (List.mem_append_right _ hv)

/-- Cloned operations use and define what they may. -/
theorem cloneBody_ssa : ∀ (ops : List Op) (scope avail : List V) (m : Mapping) (fresh : V), Ssa scope ops →
    (∀ v ∈ scope, m.orSelf v ∈ avail) → (∀ a ∈ avail, a < fresh) →
    Ssa avail (cloneBody m fresh ops).1
      ∧ (∀ v ∈ scope ++ ops.flatMap Op.res, (cloneBody m fresh ops).2.1.orSelf v ∈ avail ++ (cloneBody m fresh ops).1.flatMap Op.res)
      ∧ (∀ a ∈ avail ++ (cloneBody m fresh ops).1.flatMap Op.res, a < (cloneBody m fresh ops).2.2)
      ∧ (∀ o ∈ (cloneBody m fresh ops).1, ∀ r ∈ o.res, fresh ≤ r) := by
  intro ops
  induction ops with
  | nil =>
    intro scope avail m fresh _ h1 h2
    refine ⟨trivial, by simpa [cloneBody] using h1, by simpa [cloneBody] using h2, by simp [cloneBody]⟩
  | cons o rest ih =>
    intro scope avail m fresh hssa h1 h2
    obtain ⟨a1, a2, a3, a4⟩ := hssa
    have hlen := names_length fresh o.res.length
    have hres : (cloneOp m fresh o).1.res = names fresh o.res.length := rebuild_res o _ _ hlen
    have hz := setAll_zip o.res (names fresh o.res.length) (List.replicate o.res.length ()) (fun _ => ()) (fun _ => ()) m a3
      (names_nodup _ _) hlen.symm (by simp)
    have hmap : ∀ v ∈ scope ++ o.res, (cloneOp m fresh o).2.orSelf v ∈ avail ++ (cloneOp m fresh o).1.res := by
      intro v hv
      rcases List.mem_append.1 hv with hv | hv
      · rw [show (cloneOp m fresh o).2.orSelf v = m.orSelf v from orSelf_zip_none (fun hr => a2 v hr hv)]
        exact List.mem_append_left _ (h1 v hv)
      · obtain ⟨x, e1, e2, _⟩ := hz v hv
        rw [show (cloneOp m fresh o).2.orSelf v = x from orSelf_of_find e1, hres]
        exact List.mem_append_right _ e2
    have hlt : ∀ a ∈ avail ++ (cloneOp m fresh o).1.res, a < fresh + o.res.length := by
      intro a ha
      rcases List.mem_append.1 ha with ha | ha
      · exact Nat.lt_of_lt_of_le (h2 a ha) (Nat.le_add_right _ _)
      · rw [hres] at ha; exact (mem_names.1 ha).2
    obtain ⟨b1, b2, b3, b4⟩ := ih _ _ _ _ a4 hmap hlt
    rw [show cloneBody m fresh (o :: rest) = ((cloneOp m fresh o).1 ::
      (cloneBody (cloneOp m fresh o).2 (fresh + o.res.length) rest).1,
      (cloneBody (cloneOp m fresh o).2 (fresh + o.res.length) rest).2) from rfl]
    refine ⟨⟨?_, ?_, ?_, b1⟩, ?_, ?_, ?_⟩
    · intro v hv
      rw [show (cloneOp m fresh o).1 = o.rebuild (names fresh o.res.length) (o.args.map m.orSelf) from rfl, rebuild_args] at hv
      obtain ⟨u, hu, rfl⟩ := List.mem_map.1 hv
      exact h1 u (a1 u hu)
    · intro r hr hm
      rw [hres] at hr
      exact Nat.lt_irrefl _ (Nat.lt_of_lt_of_le (h2 r hm) (mem_names.1 hr).1)
    · rw [hres]; exact names_nodup _ _
    · simpa [List.flatMap_cons, List.append_assoc] using b2
    · simpa [List.flatMap_cons, List.append_assoc] using b3
    · intro p hp
      rcases List.mem_cons.1 hp with rfl | hp
      · intro r hr; rw [hres] at hr; exact (mem_names.1 hr).1
      · intro r hr; exact Nat.le_trans (Nat.le_add_right _ _) (b4 p hp r hr)

theorem entry_avail {seen : List V} {L : Loop} (hok : L.Ok seen) {idx : V} {iterArgs avail : List V}
    (hlen : iterArgs.length = L.params.length) (hs : ∀ v ∈ seen, v ∈ avail) (ha : ∀ a ∈ iterArgs, a ∈ avail)
    (hi : idx ∈ avail) : ∀ v ∈ seen ++ L.index :: L.params, (entry L idx iterArgs).orSelf v ∈ avail := by
  have hnd := List.nodup_cons.1 hok.args
  intro v hv
  rcases List.mem_append.1 hv with hv | hv
  · have h1 : v ∉ L.params := fun hm => hok.new v (by simp [hm]) hv
    have h2 : v ≠ L.index := fun e => hok.new v (by simp [e]) hv
    have hb : (v == L.index) = false := by simpa using h2
    rw [entry, orSelf_zip_none h1]
    simpa [Mapping.orSelf, Mapping.find, List.lookup_cons, hb] using hs v hv
  · rcases List.mem_cons.1 hv with rfl | hv
    · rw [entry, orSelf_zip_none hnd.1]
      simpa [Mapping.orSelf, Mapping.find] using hi
    · have key : ∀ (ps as : List V) (m : Mapping), as.length = ps.length → (∀ a ∈ as, a ∈ avail) → v ∈ ps →
          Mapping.orSelf (ps.zip as ++ m) v ∈ avail := by
        intro ps
        induction ps with
        | nil => intro as m _ _ h; simp at h
        | cons p ps ih =>
          intro as m hl ha hm
          match as, hl with
          | a :: as, hl =>
            by_cases e : v = p
            · subst e; simpa [Mapping.orSelf, Mapping.find] using ha a (by simp)
            · have hb : (v == p) = false := by simpa using e
              have hm' : v ∈ ps := by
                rcases List.mem_cons.1 hm with h | h
                · exact absurd h e
                · exact h
              have := ih as m (by simpa using hl) (fun x hx => ha x (by simp [hx])) hm'
              simpa [Mapping.orSelf, Mapping.find, List.lookup_cons, hb] using this
      exact key _ _ _ hlen ha hv

theorem iterations_ssa {seen : List V} {L : Loop} (hok : L.Ok seen) (idx : V) : ∀ (n i : Nat) (iterArgs : List V) (fresh : V)
    (avail : List V) (ops : List Op) (last : List V), iterations L idx n i iterArgs fresh = some (ops, last) →
    iterArgs.length = L.params.length → (∀ v ∈ seen, v ∈ avail) → (∀ a ∈ iterArgs, a ∈ avail) → (∀ a ∈ avail, a < fresh) →
    (∀ j, i ≤ j → j < i + n → idx + j ∈ avail) →
    Ssa avail ops ∧ (∀ a ∈ last, a ∈ avail ++ ops.flatMap Op.res) ∧ (∀ o ∈ ops, ∀ r ∈ o.res, fresh ≤ r)
      ∧ last.length = L.params.length := by
  intro n
  induction n with
  | zero =>
    intro i iterArgs fresh avail ops last h hlen _ ha _ _
    simp only [iterations, Option.some.injEq, Prod.mk.injEq] at h
    obtain ⟨rfl, rfl⟩ := h
    exact ⟨trivial, by simpa using ha, by simp, hlen⟩
  | succ n ih =>
    intro i iterArgs fresh avail ops last h hlen hs ha hlt hidx
    rw [iterations] at h
    dsimp only at h
    cases hl : lookupAll (cloneBody (entry L (idx + i) iterArgs) fresh L.body).2.1 L.yields with
    | none => rw [hl] at h; cases h
    | some next =>
      rw [hl] at h
      dsimp only at h
      cases hr : iterations L idx n (i + 1) next (cloneBody (entry L (idx + i) iterArgs) fresh L.body).2.2 with
      | none => rw [hr] at h; cases h
      | some p =>
        obtain ⟨rest, last'⟩ := p
        rw [hr] at h
        simp only [Option.some.injEq, Prod.mk.injEq] at h
        obtain ⟨rfl, rfl⟩ := h
        rw [lookupAll_eq] at hl
        have hnext : next = L.yields.map (cloneBody (entry L (idx + i) iterArgs) fresh L.body).2.1.orSelf := by
          split at hl
          · injection hl with hl; exact hl.symm
          · cases hl
        have hy : ∀ v ∈ L.yields, v ∈ (seen ++ L.index :: L.params) ++ L.body.flatMap Op.res := hok.yields
        obtain ⟨b1, b2, b3, b4⟩ := cloneBody_ssa L.body _ avail (entry L (idx + i) iterArgs) fresh hok.body
          (entry_avail hok hlen hs ha (hidx i (Nat.le_refl _) (by omega))) hlt
        obtain ⟨c1, c2, c3, c4⟩ := ih (i + 1) next _ (avail ++ (cloneBody (entry L (idx + i) iterArgs) fresh L.body).1.flatMap Op.res)
          rest last' hr (by rw [hnext, List.length_map, hok.len_yield]) (fun v hv => List.mem_append_left _ (hs v hv))
          (by rw [hnext]; intro a ha; obtain ⟨v, hv, rfl⟩ := List.mem_map.1 ha; exact b2 v (hy v hv)) b3
          (fun j h1 h2 => List.mem_append_left _ (hidx j (by omega) (by omega)))
        refine ⟨ssa_append _ _ _ b1 c1, ?_, ?_, c4⟩
        · simpa [List.flatMap_append, List.append_assoc] using c2
        · intro o ho r hr
          rcases List.mem_append.1 ho with ho | ho
          · exact b4 o ho r hr
          · exact Nat.le_trans (cloneBody_fresh _ _ _) (c3 o ho r hr)

theorem indices_ssa (fresh : V) : ∀ (n : Nat) (avail : List V), (∀ a ∈ avail, a < fresh) → Ssa avail (indices fresh n) := by
  intro n
  induction n with
  | zero => intro avail _; trivial
  | succ n ih =>
    intro avail h
    rw [indices, List.range_succ, List.map_append]
    refine ssa_append _ _ _ (ih avail h) ⟨by simp [Op.args], ?_, by simp [Op.res], trivial⟩
    intro r hr hm
    simp only [Op.res, List.mem_singleton] at hr
    subst hr
    rcases List.mem_append.1 hm with hm | hm
    · exact Nat.lt_irrefl _ (Nat.lt_of_lt_of_le (h _ hm) (Nat.le_add_right _ _))
    · simp [Op.res] at hm

theorem indices_res (fresh : V) (n : Nat) (x : V) : x ∈ (indices fresh n).flatMap Op.res ↔ fresh ≤ x ∧ x < fresh + n := by
  simp only [indices, List.flatMap_map, Op.res, List.mem_flatMap, List.mem_range, List.mem_singleton]
  constructor
  · rintro ⟨j, hj, rfl⟩; exact ⟨Nat.le_add_right _ _, Nat.add_lt_add_left hj _⟩
  · rintro ⟨h1, h2⟩
    obtain ⟨j, rfl⟩ := Nat.exists_eq_add_of_le h1
    exact ⟨j, Nat.lt_of_add_lt_add_left h2, rfl⟩

/-- The operations after the loop. -/
theorem after_ssa {L : Loop} {values : List V} {bound : V} (hnd : L.results.Nodup)
    (hlen : values.length = L.results.length) : ∀ (ops : List Op) (scope avail : List V), Ssa scope ops →
    (∀ o ∈ ops, ∀ r ∈ o.res, r < bound) → (∀ r ∈ L.results, r ∈ scope) →
    (∀ v ∈ scope, v ∉ L.results → v ∈ avail) → (∀ a ∈ values, a ∈ avail) → (∀ a ∈ avail, a ∈ scope ∨ bound ≤ a) →
    Ssa avail (ops.map (Op.replaceUses (L.results.zip values))) := by
  intro ops
  induction ops with
  | nil => intro scope avail _ _ _ _ _ _; trivial
  | cons o rest ih =>
    intro scope avail hssa hres hrs hs hv ha
    obtain ⟨a1, a2, a3, a4⟩ := hssa
    rw [List.map_cons, replaceUses_eq]
    have hr : (o.rebuild o.res (o.args.map (Mapping.orSelf (L.results.zip values)))).res = o.res := rebuild_res o _ _ rfl
    refine ⟨?_, ?_, by rw [hr]; exact a3, ?_⟩
    · intro v hvm
      rw [rebuild_args] at hvm
      obtain ⟨u, hu, rfl⟩ := List.mem_map.1 hvm
      by_cases hm : u ∈ L.results
      · obtain ⟨x, h1, h2, _⟩ : ∃ x, Mapping.find (L.results.zip values ++ []) u = some x ∧ x ∈ values ∧ True := by
          have := (find_zip_isSome L.results values [] u hlen.symm).2 (Or.inl hm)
          obtain ⟨x, hx⟩ := Option.isSome_iff_exists.1 this
          have key : ∀ (rs vs : List V), Mapping.find (rs.zip vs) u = some x → x ∈ vs := by
            intro rs
            induction rs with
            | nil => intro vs h; simp [Mapping.find] at h
            | cons r rs ih2 =>
              intro vs h
              match vs with
              | [] => simp [Mapping.find] at h
              | y :: vs =>
                by_cases e : u = r
                · subst e; simp [Mapping.find] at h; simp [h]
                · have hb : (u == r) = false := by simpa using e
                  exact List.mem_cons_of_mem _ (ih2 vs (by simpa [Mapping.find, List.lookup_cons, hb] using h))
          exact ⟨x, hx, key _ _ (by simpa using hx), trivial⟩
        rw [List.append_nil] at h1
        rw [orSelf_of_find h1]
        exact hv x h2
      · have := orSelf_zip_none (ns := values) (m := []) hm
        rw [List.append_nil] at this
        rw [this]
        exact hs u (a1 u hu) hm
    · intro r hrm hm
      rw [hr] at hrm
      rcases ha r hm with h | h
      · exact a2 r hrm h
      · exact Nat.lt_irrefl _ (Nat.lt_of_lt_of_le (hres o (by simp) r hrm) h)
    · rw [hr]
      refine ih (scope ++ o.res) (avail ++ o.res) a4 (fun p hp => hres p (by simp [hp]))
        (fun r hr => List.mem_append_left _ (hrs r hr)) ?_ (fun a ha => List.mem_append_left _ (hv a ha)) ?_
      · intro v hvm hn
        rcases List.mem_append.1 hvm with h | h
        · exact List.mem_append_left _ (hs v h hn)
        · exact List.mem_append_right _ h
      · intro a hm
        rcases List.mem_append.1 hm with h | h
        · rcases ha a h with h | h
          · exact Or.inl (List.mem_append_left _ h)
          · exact Or.inr h
        · exact Or.inl (List.mem_append_right _ h)

end Verif.Unroll
