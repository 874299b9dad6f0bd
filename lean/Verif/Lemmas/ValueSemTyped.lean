import Verif.Lemmas.ValueSemTop

/-! The rewritten block is well formed: nothing here is claimed. -/

namespace Verif.VS

/-- Some machine. -/
def dummy : Machine Unit Unit := ⟨fun _ _ => (), fun _ _ _ _ => (), fun _ _ _ _ => ([], fun _ => (), ())⟩

theorem dummy_back (blk : List Op) : dummy.ReadsBack blk := fun _ _ _ _ _ => rfl

/-- What the replacement of names respects. -/
structure Repl (nv' : Name → Bool) (base : Name) (D D' : List Name) (θ : Name → Name) : Prop where
  kind : ∀ n, n < base → nv' (θ n) = nv' n
  fixed : ∀ n, nv' n = true → θ n = n
  below : ∀ n, n < base → θ n < base
  defined : ∀ n ∈ D, θ n ∈ D'
  sub : ∀ n ∈ D', n ∈ D
  fresh : ∀ n, n ∉ D → θ n = n

/-- Types of an operation after the rewriting. -/
theorem typed_kept {T W : Type} {i : Info} {c base : Name} {al : List Name} {nv' : Name → Bool} {D0 : List Name}
    {post : List Op} {M : Machine T W} (hS : SliceOk i c base al nv' D0 post M) (hc : c ∉ defs post) {o : Op}
    (ho : o ∈ post) (hov : overwriteOf al o = none) (hrd : readOf (copyResults al post) o = none) {D D' : List Name}
    {θ : Name → Name} (hθ : Repl nv' base D D' θ) (hargs : ∀ a ∈ o.args, a ∈ defs post ++ D0) :
    (i.after base nv').Typed (o.subst θ) := by
  have hty := hS.typed o ho
  have hres : ∀ r ∈ o.results, r ∈ defs post ++ D0 :=
    fun r hr => List.mem_append_left _ (List.mem_flatMap.2 ⟨o, ho, hr⟩)
  have hnv : ∀ n ∈ defs post ++ D0, nv' n = true ↔ i.nv n = true ∧ n ∉ al := by
    intro n hn
    rw [hS.ctx.after n (hS.below n hn)]
    simp
  have hnvf : ∀ n ∈ defs post ++ D0, i.nv n = false → nv' n = false := by
    intro n hn h
    rw [hS.ctx.after n (hS.below n hn), h]; rfl
  have hreg : ∀ n ∈ defs post ++ D0, (i.after base nv').region n = i.region n := by
    intro n hn
    simp [Info.after, hS.below n hn]
  have hk : ∀ n ∈ defs post ++ D0, nv' (θ n) = nv' n := fun n hn => hθ.kind n (hS.below n hn)
  obtain ⟨kind, args, results⟩ := o
  unfold Info.Typed at hty ⊢
  cases kind with
  | toTensor =>
    obtain ⟨x, r, rfl, rfl, h1, h2, h3⟩ := hty
    have hxd := hargs x (by simp)
    have hrd := hres r (by simp)
    refine ⟨θ x, r, rfl, rfl, (hk x hxd).trans (hnvf x hxd h1), ?_, ?_⟩
    · refine (hnv r hrd).2 ⟨h2, fun hal => ?_⟩
      have hin := (hS.ctx.inside r hal).2
      rcases h3 with e | e
      · rw [e] at hin; cases hin
      · rw [e] at hin
        exact hc (Option.some.inj hin ▸ List.mem_flatMap.2 ⟨_, ho, by simp⟩)
    · rw [hreg r hrd]; exact h3
  | toVTensor =>
    obtain ⟨x, r, rfl, rfl, h1, h2⟩ := hty
    have hxd := hargs x (by simp)
    have hxal : x ∉ al := by
      intro hal
      have : r ∈ copyResults al post := copyResults_mem ho
        (List.ne_nil_of_mem (mem_usesOf.2 ⟨List.mem_singleton.2 rfl, hal⟩)) rfl (by simp)
      simp [readOf, this] at hrd
    refine ⟨θ x, r, rfl, rfl, (hk x hxd).trans ((hnv x hxd).2 ⟨h1, hxal⟩), hnvf r (hres r (by simp)) h2⟩
  | cast =>
    obtain ⟨x, r, rfl, rfl, h1, h2⟩ := hty
    have hxd := hargs x (by simp)
    have hrd := hres r (by simp)
    have hiff : i.nv r = true → (x ∈ al ↔ r ∈ al) := by
      intro hr
      constructor
      · intro h; exact hS.complete r hrd ⟨hr, (h2 hr).trans (hS.ctx.inside x h).2⟩
      · intro h; exact hS.complete x hxd ⟨h1.trans hr, (h2 hr).symm.trans (hS.ctx.inside r h).2⟩
    refine ⟨θ x, r, rfl, rfl, (hk x hxd).trans ?_, ?_⟩
    · show nv' x = nv' r
      rw [Bool.eq_iff_iff, hnv x hxd, hnv r hrd, h1]
      constructor
      · rintro ⟨a, b⟩; exact ⟨a, fun h => b ((hiff a).2 h)⟩
      · rintro ⟨a, b⟩; exact ⟨a, fun h => b ((hiff a).1 h)⟩
    · intro hr
      obtain ⟨hr1, hr2⟩ := (hnv r hrd).1 hr
      have hx : nv' x = true := (hnv x hxd).2 ⟨h1.trans hr1, fun h => hr2 ((hiff hr1).1 h)⟩
      rw [hθ.fixed x hx, hreg r hrd, hreg x hxd]
      exact h2 hr1
  | view k =>
    obtain ⟨x, xs, r, rfl, rfl, h2⟩ := hty
    have hxd := hargs x (by simp)
    have hrd := hres r (by simp)
    refine ⟨θ x, xs.map θ, r, by simp [Op.subst], rfl, ?_⟩
    intro hr
    obtain ⟨hr1, hr2⟩ := (hnv r hrd).1 hr
    have hx : nv' x = true := (hnv x hxd).2 ⟨(h2 hr1).1, fun h =>
      hr2 (hS.complete r hrd ⟨hr1, (h2 hr1).2.trans (hS.ctx.inside x h).2⟩)⟩
    rw [hθ.fixed x hx, hreg r hrd, hreg x hxd]
    exact ⟨hx, (h2 hr1).2⟩
  | overwrite =>
    obtain ⟨v, d, rfl, rfl, h1, h2⟩ := hty
    have hvd := hargs v (by simp)
    have hdd := hargs d (by simp)
    have hdal : d ∉ al := by
      intro h
      simp [overwriteOf, h] at hov
    exact ⟨θ v, θ d, rfl, rfl, (hk v hvd).trans (hnvf v hvd h1), (hk d hdd).trans ((hnv d hdd).2 ⟨h2, hdal⟩)⟩
  | ret => exact hty
  | other k =>
    refine ⟨?_, ?_⟩
    · intro y hy hny
      obtain ⟨a, ha, rfl⟩ := List.mem_map.1 hy
      have had := hargs a ha
      have hna : nv' a = true := (hk a had).symm.trans hny
      rw [hθ.fixed a hna, hreg a had]
      exact hty.1 a ha ((hnv a had).1 hna).1
    · intro r hr hnr
      rw [hreg r (hres r hr)]
      exact hty.2 r hr ((hnv r (hres r hr)).1 hnr).1

/-- The kept operations are well formed. -/
theorem go_wellFormed {T W : Type} {i : Info} {c base : Name} {al : List Name} {nv' : Name → Bool} {D0 : List Name}
    {post : List Op} {M : Machine T W} (hS : SliceOk i c base al nv' D0 post M) (hc : c ∉ defs post) (done ops : List Op)
    (hpost : post = done ++ ops) (D' : List Name) (θ : Name → Name) (hθ : Repl nv' base (defs done ++ D0) D' θ) :
    Ssa D' (go al post.reverse (copyResults al post) θ ops)
      ∧ (∀ o ∈ go al post.reverse (copyResults al post) θ ops, (i.after base nv').Typed o)
      ∧ (∀ o ∈ go al post.reverse (copyResults al post) θ ops, ∀ n ∈ o.args ++ o.results, n < base)
      ∧ (returns (go al post.reverse (copyResults al post) θ ops)).map (·.map nv') = (returns ops).map (·.map nv') := by
  induction ops generalizing done D' θ with
  | nil => simp [go, Ssa, returns]
  | cons o ops ih =>
    have hpost' : post = (done ++ [o]) ++ ops := by simp [hpost]
    have ho : o ∈ post := by simp [hpost]
    have hssa := hS.ssa
    rw [hpost] at hssa
    obtain ⟨_, ka, kr, kn, _⟩ := hssa.append
    have hty := hS.typed o ho
    have hdef : ∀ n, n ∈ defs (done ++ [o]) ++ D0 ↔ n ∈ o.results ∨ n ∈ defs done ++ D0 := by
      intro n
      simp only [defs, List.flatMap_append, List.flatMap_cons, List.flatMap_nil, List.append_nil, List.mem_append]
      constructor
      · rintro ((h | h) | h)
        · exact .inr (.inl h)
        · exact .inl h
        · exact .inr (.inr h)
      · rintro (h | h | h)
        · exact .inl (.inr h)
        · exact .inl (.inl h)
        · exact .inr h
    have hDD : ∀ n, n ∈ defs done ++ D0 → n ∈ defs post ++ D0 := by
      intro n hn
      rw [hpost, defs_append]
      simp only [List.mem_append] at hn ⊢
      rcases hn with h | h
      · exact .inl (.inl h)
      · exact .inr h
    have hbD : ∀ n ∈ defs done ++ D0, n < base := fun n hn => hS.below n (hDD n hn)
    have hbr : ∀ n ∈ o.results, n < base :=
      fun n hn => hS.below n (List.mem_append_left _ (List.mem_flatMap.2 ⟨o, ho, hn⟩))
    rw [go]
    cases hov : overwriteOf al o with
    | some p =>
      obtain ⟨v, d⟩ := p
      simp only
      obtain ⟨hk, ha, hd⟩ := overwriteOf_eq hov
      have hty' := hty
      unfold Info.Typed at hty'
      rw [hk] at hty'
      obtain ⟨v', d', e1, hres, hv, _⟩ := hty'
      rw [ha] at e1; simp only [List.cons.injEq, and_true] at e1
      obtain ⟨rfl, rfl⟩ := e1
      have hvD := ka v (by simp [ha])
      have hsetD : ∀ n ∈ d :: castAliases post.reverse d, n ∈ defs done ++ D0 := by
        have hdD : d ∈ defs done ++ D0 := ka d (by simp [ha])
        intro n hn
        rcases List.mem_cons.1 hn with e | e
        · exact e ▸ hdD
        · have hch := (chain_of_castAliases _ _ _ e).mono (b := post) (fun p hp => List.mem_reverse.1 hp)
          exact Chain.defined hssa (hpost ▸ hch) hdD
      have hset : ∀ n ∈ d :: castAliases post.reverse d, n ∈ al := by
        intro n hn
        have hnD := hsetD n hn
        rcases List.mem_cons.1 hn with e | e
        · exact e ▸ hd
        · have hch := (chain_of_castAliases _ _ _ e).mono (b := post) (fun p hp => List.mem_reverse.1 hp)
          have hin := hch.typed hS.typed (hS.ctx.inside d hd).1
          exact hS.complete n (hDD n hnD) ⟨hin.1, hin.2.trans (hS.ctx.inside d hd).2⟩
      have hvf : nv' v = false := by rw [hS.ctx.after v (hbD v hvD), hv]; rfl
      have half : ∀ n ∈ al, n < base → nv' n = false := by
        intro n hn hb
        rw [hS.ctx.after n hb]; simp [hn]
      rw [show returns (o :: ops) = returns ops by rw [returns, if_neg (by rw [hk]; simp)]]
      apply ih (done ++ [o]) hpost'
      refine ⟨?_, ?_, ?_, ?_, ?_, ?_⟩
      · intro n hn
        split
        · next hm => rw [hθ.kind v (hbD v hvD), hvf, half n (hset n hm) hn]
        · exact hθ.kind n hn
      · intro n hn
        have : n ∉ d :: castAliases post.reverse d := by
          intro hm
          have hal := hset n hm
          have := half n hal (hS.ctx.below n (hS.ctx.inside n hal).1).1
          rw [hn] at this; cases this
        rw [if_neg this]; exact hθ.fixed n hn
      · intro n hn
        split
        · exact hθ.below v (hbD v hvD)
        · exact hθ.below n hn
      · intro n hn
        have hn' : n ∈ defs done ++ D0 := ((hdef n).1 hn).resolve_left (by simp [hres])
        split
        · exact hθ.defined v hvD
        · exact hθ.defined n hn'
      · intro n hn; exact (hdef n).2 (.inr (hθ.sub n hn))
      · intro n hn
        have hn' : n ∉ defs done ++ D0 := fun h => hn ((hdef n).2 (.inr h))
        rw [if_neg (fun h => hn' (hsetD n h))]
        exact hθ.fresh n hn'
    | none =>
      simp only
      cases hrd : readOf (copyResults al post) o with
      | some p =>
        obtain ⟨x, r⟩ := p
        simp only
        obtain ⟨hoe, hrs⟩ := readOf_eq hrd
        have hxD : x ∈ defs done ++ D0 := ka x (by simp [hoe])
        have hrD : r ∉ defs done ++ D0 := kr r (by simp [hoe])
        have hty' := hty
        rw [hoe] at hty'
        unfold Info.Typed at hty'
        simp only at hty'
        obtain ⟨x', r', e1, e2, h1, h2⟩ := hty'
        simp only [List.cons.injEq, and_true] at e1 e2
        subst e1; subst e2
        have hxal : x ∈ al := by
          obtain ⟨q, hq1, hq2, _, hq4⟩ := mem_copyResults hrs
          have hoq := hS.ssa.unique ho hq1 (r := r) (by simp [hoe]) hq4
          rw [← hoq] at hq2
          obtain ⟨u, hu⟩ := List.exists_mem_of_ne_nil _ hq2
          obtain ⟨hu1, hu2⟩ := mem_usesOf.1 hu
          rw [hoe] at hu1
          exact (List.mem_singleton.1 hu1) ▸ hu2
        have hrb := hbr r (by simp [hoe])
        have hxf : nv' x = false := by rw [hS.ctx.after x (hbD x hxD)]; simp [hxal]
        have hrf : nv' r = false := by rw [hS.ctx.after r hrb, h2]; rfl
        rw [show returns (o :: ops) = returns ops by rw [returns, if_neg (by rw [hoe]; simp)]]
        apply ih (done ++ [o]) hpost'
        refine ⟨?_, ?_, ?_, ?_, ?_, ?_⟩
        · intro n hn
          split
          · next e => rw [hθ.kind x (hbD x hxD), hxf, e, hrf]
          · exact hθ.kind n hn
        · intro n hn
          have : n ≠ r := fun e => by rw [e, hrf] at hn; cases hn
          rw [if_neg this]; exact hθ.fixed n hn
        · intro n hn
          split
          · exact hθ.below x (hbD x hxD)
          · exact hθ.below n hn
        · intro n hn
          split
          · exact hθ.defined x hxD
          · next e =>
            have hn' : n ∈ defs done ++ D0 := ((hdef n).1 hn).resolve_left (by simp [hoe, e])
            exact hθ.defined n hn'
        · intro n hn; exact (hdef n).2 (.inr (hθ.sub n hn))
        · intro n hn
          have hn' : n ∉ defs done ++ D0 := fun h => hn ((hdef n).2 (.inr h))
          rw [if_neg (fun e => hn ((hdef n).2 (.inl (by simp [hoe, e]))))]
          exact hθ.fresh n hn'
      | none =>
        simp only
        have hfix : ∀ r ∈ o.results, r ∉ D' := fun r hr h => kr r hr (hθ.sub r h)
        have hθ' : Repl nv' base (defs (done ++ [o]) ++ D0) (o.results ++ D') θ := by
          refine ⟨hθ.kind, hθ.fixed, hθ.below, ?_, ?_, ?_⟩
          · intro n hn
            rcases (hdef n).1 hn with h | h
            · rw [hθ.fresh n (kr n h)]; exact List.mem_append_left _ h
            · exact List.mem_append_right _ (hθ.defined n h)
          · intro n hn
            rcases List.mem_append.1 hn with h | h
            · exact (hdef n).2 (.inl h)
            · exact (hdef n).2 (.inr (hθ.sub n h))
          · intro n hn; exact hθ.fresh n (fun h => hn ((hdef n).2 (.inr h)))
        obtain ⟨k1, k2, k3, k4⟩ := ih (done ++ [o]) hpost' _ θ hθ'
        have hsub : ∀ a ∈ (o.subst θ).args, ∃ b ∈ o.args, θ b = a := fun a ha => List.mem_map.1 ha
        refine ⟨⟨?_, hfix, kn, k1⟩, ?_, ?_, ?_⟩
        · intro a ha
          obtain ⟨b, hb, rfl⟩ := hsub a ha
          exact hθ.defined b (ka b hb)
        · intro p hp
          rcases List.mem_cons.1 hp with e | e
          · rw [e]
            exact typed_kept hS hc ho hov hrd hθ (fun a ha => hDD a (ka a ha))
          · exact k2 p e
        · intro p hp n hn
          rcases List.mem_cons.1 hp with e | e
          · rw [e] at hn
            rcases List.mem_append.1 hn with h | h
            · obtain ⟨b, hb, rfl⟩ := hsub n h
              exact hθ.below b (hbD b (ka b hb))
            · exact hbr n h
          · exact k3 p e n hn
        · rw [returns, returns]
          have hkind : (o.subst θ).kind = o.kind := rfl
          rw [hkind]
          by_cases hk : o.kind = .ret
          · rw [if_pos hk, if_pos hk]
            simp only [Option.map_some, Option.some.injEq, Op.subst, List.map_map]
            apply List.map_congr_left
            intro a ha
            exact hθ.kind a (hbD a (ka a ha))
          · rw [if_neg hk, if_neg hk]; exact k4

end Verif.VS

namespace Verif.VS

theorem Ssa.append_iff {D : List Name} {a b : List Op} : Ssa D (a ++ b) ↔ Ssa D a ∧ Ssa (defs a ++ D) b := by
  constructor
  · exact Ssa.append
  · rintro ⟨h1, h2⟩
    induction a generalizing D with
    | nil => simpa [defs] using h2
    | cons o a ih =>
      obtain ⟨k1, k2, k3, k4⟩ := h1
      refine ⟨k1, k2, k3, ih k4 (h2.mono ?_)⟩
      intro n; simp [defs, or_assoc, or_comm, or_left_comm]

/-- What is used of the types of new names. -/
structure NewNames (j : Info) (nv : Name → Bool) (base : Nat) : Prop where
  old : ∀ n : Nat, n < base → j.nv n = nv n
  region : ∀ n : Nat, base ≤ n → j.region n = some n

theorem copyTensorToType_wf {j : Info} {nv : Name → Bool} {base0 : Nat} (hj : NewNames j nv base0) (recast : Bool)
    (b n : Nat) (hb : base0 ≤ b) (hn : n < base0) {D : List Name} (hnD : n ∈ D) (hD : ∀ m : Nat, m ∈ D → m < b) :
    Ssa D (copyTensorToType nv (recast && !nv n) b n).1
      ∧ (∀ o ∈ (copyTensorToType nv (recast && !nv n) b n).1, ∀ m : Nat, m ∈ o.results → b ≤ m ∧ m < b + 3)
      ∧ (∀ o ∈ (copyTensorToType nv (recast && !nv n) b n).1, ∀ m : Nat, m ∈ o.args → m < b + 3)
      ∧ (copyTensorToType nv (recast && !nv n) b n).2 ∈ defs (copyTensorToType nv (recast && !nv n) b n).1
      ∧ ((∀ o ∈ (copyTensorToType nv (recast && !nv n) b n).1, ∀ m ∈ o.results, j.nv m = decide (o.kind = .toTensor)) →
        (∀ o ∈ (copyTensorToType nv (recast && !nv n) b n).1, j.Typed o)
          ∧ j.nv (copyTensorToType nv (recast && !nv n) b n).2 = true) := by
  have h0 : b ∉ D := fun h => Nat.lt_irrefl _ (hD b h)
  have h1 : b + 1 ∉ D := fun h => by have := hD _ h; omega
  have h2 : b + 2 ∉ D := fun h => by have := hD _ h; omega
  have hnb : n < b + 3 := by omega
  have hold := hj.old n hn
  have hr2 := hj.region (b + 2) (by omega)
  cases hnv : nv n <;> cases recast <;> rw [hnv] at hold <;>
    refine ⟨?_, ?_, ?_, ?_, ?_⟩ <;>
    simp [copyTensorToType, hnv, Ssa, defs, hnD, h0, h1, h2, hnb, Info.Typed, hold, hr2]
  all_goals try omega
  all_goals try (intros; simp_all)

theorem copyBack_wf {j : Info} {nv : Name → Bool} {base0 : Nat} (hj : NewNames j nv base0) (recast : Nat → Bool)
    (b k : Nat) (flags : List Bool) (ns : List Name) (hb : base0 ≤ b) (hn : ∀ n : Nat, n ∈ ns → n < base0)
    {D : List Name} (hnD : ∀ n ∈ ns, n ∈ D) (hD : ∀ m : Nat, m ∈ D → m < b) :
    Ssa D (copyBack nv recast b k flags ns).1
      ∧ (∀ o ∈ (copyBack nv recast b k flags ns).1, ∀ m : Nat, m ∈ o.results → b ≤ m ∧ m < b + 3 * ns.length)
      ∧ (∀ o ∈ (copyBack nv recast b k flags ns).1, ∀ m : Nat, m ∈ o.args → m < b + 3 * ns.length)
      ∧ (∀ m ∈ (copyBack nv recast b k flags ns).2, m ∈ defs (copyBack nv recast b k flags ns).1 ++ D)
      ∧ ((∀ o ∈ (copyBack nv recast b k flags ns).1, ∀ m ∈ o.results, j.nv m = decide (o.kind = .toTensor)) →
        (∀ o ∈ (copyBack nv recast b k flags ns).1, j.Typed o)
          ∧ (flags.length = ns.length → (copyBack nv recast b k flags ns).2.map j.nv
              = List.zipWith (fun f n => f || nv n) flags ns)) := by
  induction ns generalizing b k flags D with
  | nil => simp [copyBack, Ssa]
  | cons n ns ih =>
    have hn0 := hn n List.mem_cons_self
    have hns : ∀ m : Nat, m ∈ ns → m < base0 := fun m hm => hn m (List.mem_cons_of_mem _ hm)
    rw [copyBack]
    simp only
    split
    · next hf =>
      obtain ⟨c1, c2, c3, c4, c5⟩ := copyTensorToType_wf hj (recast k) b n hb hn0 (hnD n List.mem_cons_self) hD
      obtain ⟨k1, k2, k3, k4, k5⟩ := ih (b + 3) (k + 1) (flags.drop 1) (by omega) hns
        (D := defs (copyTensorToType nv (recast k && !nv n) b n).1 ++ D)
        (fun m hm => List.mem_append_right _ (hnD m (List.mem_cons_of_mem _ hm)))
        (fun m hm => by
          rcases List.mem_append.1 hm with h | h
          · obtain ⟨o, ho, hr⟩ := List.mem_flatMap.1 h
            exact (c2 o ho m hr).2
          · have := hD m h; omega)
      refine ⟨Ssa.append_iff.2 ⟨c1, k1⟩, ?_, ?_, ?_, ?_⟩
      · intro o ho m hm
        simp only [List.length_cons]
        rcases List.mem_append.1 ho with e | e
        · have := c2 o e m hm; omega
        · have := k2 o e m hm; omega
      · intro o ho m hm
        simp only [List.length_cons]
        rcases List.mem_append.1 ho with e | e
        · have := c3 o e m hm; omega
        · have := k3 o e m hm; omega
      · intro m hm
        rw [defs_append]
        rcases List.mem_cons.1 hm with e | e
        · rw [e]; exact List.mem_append_left _ (List.mem_append_left _ c4)
        · have := k4 m e
          simp only [List.mem_append] at this ⊢
          rcases this with h | h | h
          · exact .inl (.inr h)
          · exact .inl (.inl h)
          · exact .inr h
      · intro hk
        obtain ⟨t1, t2⟩ := c5 (fun o ho => hk o (List.mem_append_left _ ho))
        obtain ⟨u1, u2⟩ := k5 (fun o ho => hk o (List.mem_append_right _ ho))
        refine ⟨?_, ?_⟩
        · intro o ho
          rcases List.mem_append.1 ho with e | e
          · exact t1 o e
          · exact u1 o e
        · intro hl
          match flags, hl, hf with
          | f :: fs, hl, hf =>
            simp only [List.headD_cons] at hf
            simp only [List.length_cons, Nat.add_right_cancel_iff] at hl
            rw [List.map_cons, t2, hf]
            simp only [List.drop_succ_cons, List.drop_zero] at u2 ⊢
            rw [u2 hl]
            simp
    · next hf =>
      obtain ⟨k1, k2, k3, k4, k5⟩ := ih (b + 3) (k + 1) (flags.drop 1) (by omega) hns (D := D)
        (fun m hm => hnD m (List.mem_cons_of_mem _ hm)) (fun m hm => by have := hD m hm; omega)
      refine ⟨k1, ?_, ?_, ?_, ?_⟩
      · intro o ho m hm
        simp only [List.length_cons]
        have := k2 o ho m hm; omega
      · intro o ho m hm
        simp only [List.length_cons]
        have := k3 o ho m hm; omega
      · intro m hm
        rcases List.mem_cons.1 hm with e | e
        · rw [e]; exact List.mem_append_right _ (hnD n List.mem_cons_self)
        · exact k4 m e
      · intro hk
        obtain ⟨u1, u2⟩ := k5 hk
        refine ⟨u1, ?_⟩
        intro hl
        match flags, hl, hf with
        | f :: fs, hl, hf =>
          simp only [List.headD_cons, Bool.not_eq_true] at hf
          simp only [List.length_cons, Nat.add_right_cancel_iff] at hl
          simp only [List.drop_succ_cons, List.drop_zero] at u2 ⊢
          rw [List.map_cons, u2 hl, hj.old n hn0, hf]
          simp

end Verif.VS

namespace Verif.VS

theorem Ssa.weaken {D E : List Name} {ops : List Op} (h : Ssa D ops) (hE : ∀ n ∈ E, n ∉ defs ops) : Ssa (E ++ D) ops := by
  induction ops generalizing D with
  | nil => trivial
  | cons o ops ih =>
    obtain ⟨h1, h2, h3, h4⟩ := h
    have hE' : ∀ n ∈ E, n ∉ o.results ∧ n ∉ defs ops := fun n hn => by simpa [defs] using hE n hn
    refine ⟨fun a ha => List.mem_append_right _ (h1 a ha), ?_, h3, ?_⟩
    · intro r hr hm
      rcases List.mem_append.1 hm with e | e
      · exact (hE' r e).1 hr
      · exact h2 r hr e
    · refine (ih h4 (fun n hn => (hE' n hn).2)).mono ?_
      intro n; simp [or_left_comm]

theorem returnFlags_eq (nv : Name → Bool) (ops : List Op) : returnFlags nv ops = ((returns ops).getD []).map nv := by
  induction ops with
  | nil => rfl
  | cons o ops ih =>
    rw [returnFlags, returns]
    split
    · rfl
    · exact ih

theorem finishReturn_wf {j : Info} {nv : Name → Bool} {base : Nat} (hj : NewNames j nv base) (recast : Nat → Bool)
    (flags : List Bool) (ops : List Op) {D : List Name} (hs : Ssa D ops) (hD : ∀ m : Nat, m ∈ D → m < base)
    (hb : ∀ o ∈ ops, ∀ m : Nat, m ∈ o.args ++ o.results → m < base) :
    Ssa D (finishReturn nv recast base flags ops)
      ∧ (∀ o ∈ finishReturn nv recast base flags ops, ∀ m : Nat, m ∈ o.args ++ o.results →
          m < base + 3 * ((returns ops).getD []).length)
      ∧ ((∀ o ∈ ops, j.Typed o) →
        (∀ o ∈ finishReturn nv recast base flags ops, ∀ m : Nat, m ∈ o.results → base ≤ m →
          j.nv m = decide (o.kind = .toTensor)) →
        (∀ o ∈ finishReturn nv recast base flags ops, j.Typed o)
          ∧ (flags.length = ((returns ops).getD []).length →
              (returns (finishReturn nv recast base flags ops)).map (·.map j.nv)
                = (returns ops).map fun ns => List.zipWith (fun f n => f || nv n) flags ns)) := by
  induction ops generalizing D with
  | nil => simp [finishReturn, Ssa, returns]
  | cons o ops ih =>
    obtain ⟨h1, h2, h3, h4⟩ := hs
    have hb0 := hb o List.mem_cons_self
    have hb' : ∀ p ∈ ops, ∀ m : Nat, m ∈ p.args ++ p.results → m < base := fun p hp => hb p (List.mem_cons_of_mem _ hp)
    rw [finishReturn, returns]
    split
    · next hk =>
      obtain ⟨k1, k2, k3, k4, k5⟩ := copyBack_wf hj recast base 0 flags o.args (Nat.le_refl _)
        (fun n hn => hb0 n (List.mem_append_left _ hn)) h1 hD
      have hnew : ∀ m : Nat, m ∈ defs (copyBack nv recast base 0 flags o.args).1 → base ≤ m := by
        intro m hm
        obtain ⟨p, hp, hr⟩ := List.mem_flatMap.1 hm
        exact (k2 p hp m hr).1
      have hnot : ∀ n ∈ defs (copyBack nv recast base 0 flags o.args).1, n ∉ o.results ∧ n ∉ defs ops := by
        intro n hn
        have := hnew n hn
        refine ⟨fun h => ?_, fun h => ?_⟩
        · exact Nat.lt_irrefl _ (Nat.lt_of_lt_of_le (hb0 n (List.mem_append_right _ h)) this)
        · obtain ⟨p, hp, hr⟩ := List.mem_flatMap.1 h
          exact Nat.lt_irrefl _ (Nat.lt_of_lt_of_le (hb' p hp n (List.mem_append_right _ hr)) this)
      simp only [Option.getD_some]
      refine ⟨?_, ?_, ?_⟩
      · refine Ssa.append_iff.2 ⟨k1, ?_, ?_, h3, ?_⟩
        · exact k4
        · intro r hr hm
          rcases List.mem_append.1 hm with e | e
          · exact (hnot r e).1 hr
          · exact h2 r hr e
        · refine (h4.weaken (fun n hn => (hnot n hn).2)).mono ?_
          intro n; simp [or_left_comm]
      · intro p hp m hm
        rcases List.mem_append.1 hp with e | e
        · rcases List.mem_append.1 hm with f | f
          · exact k3 p e m f
          · exact (k2 p e m f).2
        · rcases List.mem_cons.1 e with e | e
          · subst e
            rcases List.mem_append.1 hm with f | f
            · rcases List.mem_append.1 (k4 m f) with g | g
              · obtain ⟨q, hq, hr⟩ := List.mem_flatMap.1 g
                exact (k2 q hq m hr).2
              · exact Nat.lt_add_right _ (hD m g)
            · exact Nat.lt_add_right _ (hb0 m (List.mem_append_right _ f))
          · exact Nat.lt_add_right _ (hb' p e m hm)
      · intro hty hnv
        obtain ⟨u1, u2⟩ := k5 (fun p hp m hm => hnv p (List.mem_append_left _ hp) m hm (k2 p hp m hm).1)
        refine ⟨?_, ?_⟩
        · intro p hp
          rcases List.mem_append.1 hp with e | e
          · exact u1 p e
          · rcases List.mem_cons.1 e with e | e
            · subst e
              have := hty o List.mem_cons_self
              unfold Info.Typed at this ⊢
              simp only
              rw [hk] at this ⊢
              exact this
            · exact hty p (List.mem_cons_of_mem _ e)
        · intro hl
          have hret : ∀ (a : List Op) (q : Op) (b : List Op), (∀ p ∈ a, p.kind ≠ .ret) → q.kind = .ret →
              returns (a ++ q :: b) = some q.args := by
            intro a q b ha hq
            induction a with
            | nil => simp [returns, hq]
            | cons p a iha =>
              rw [List.cons_append, returns, if_neg (ha p List.mem_cons_self)]
              exact iha (fun p' hp' => ha p' (List.mem_cons_of_mem _ hp'))
          rw [hret _ ⟨o.kind, (copyBack nv recast base 0 flags o.args).2, o.results⟩ ops (copyBack_spec dummy j nv recast base 0 flags o.args
            (fun n hn => hb0 n (List.mem_append_left _ hn)) ⟨fun _ => (), ()⟩).1 hk]
          simp only [Option.map_some, Option.some.injEq]
          exact u2 hl
    · next hk =>
      obtain ⟨k1, k2, k3⟩ := ih h4 (fun m hm => by
        rcases List.mem_append.1 hm with e | e
        · exact hb0 m (List.mem_append_right _ e)
        · exact hD m e) hb'
      refine ⟨⟨h1, h2, h3, k1⟩, ?_, ?_⟩
      · intro p hp m hm
        rcases List.mem_cons.1 hp with e | e
        · subst e; exact Nat.lt_add_right _ (hb0 m hm)
        · exact k2 p e m hm
      · intro hty hnv
        obtain ⟨u1, u2⟩ := k3 (fun p hp => hty p (List.mem_cons_of_mem _ hp))
          (fun p hp => hnv p (List.mem_cons_of_mem _ hp))
        refine ⟨?_, ?_⟩
        · intro p hp
          rcases List.mem_cons.1 hp with e | e
          · subst e; exact hty p List.mem_cons_self
          · exact u1 p e
        · intro hl
          rw [returns, if_neg hk]
          exact u2 hl

end Verif.VS

namespace Verif.VS

theorem Info.Typed.congr {i j : Info} {o : Op} (h : i.Typed o) (hnv : ∀ n ∈ o.args ++ o.results, j.nv n = i.nv n)
    (hreg : ∀ n ∈ o.args ++ o.results, j.region n = i.region n) : j.Typed o := by
  obtain ⟨kind, args, results⟩ := o
  unfold Info.Typed at h ⊢
  cases kind with
  | toTensor =>
    obtain ⟨x, r, rfl, rfl, h1, h2, h3⟩ := h
    exact ⟨x, r, rfl, rfl, by rw [hnv x (by simp), h1], by rw [hnv r (by simp), h2], by rw [hreg r (by simp)]; exact h3⟩
  | toVTensor =>
    obtain ⟨x, r, rfl, rfl, h1, h2⟩ := h
    exact ⟨x, r, rfl, rfl, by rw [hnv x (by simp), h1], by rw [hnv r (by simp), h2]⟩
  | cast =>
    obtain ⟨x, r, rfl, rfl, h1, h2⟩ := h
    refine ⟨x, r, rfl, rfl, by rw [hnv x (by simp), hnv r (by simp), h1], ?_⟩
    rw [hnv r (by simp), hreg r (by simp), hreg x (by simp)]; exact h2
  | view k =>
    obtain ⟨x, xs, r, rfl, rfl, h1⟩ := h
    refine ⟨x, xs, r, rfl, rfl, ?_⟩
    rw [hnv r (by simp), hnv x (by simp), hreg r (by simp), hreg x (by simp)]; exact h1
  | overwrite =>
    obtain ⟨v, d, rfl, rfl, h1, h2⟩ := h
    exact ⟨v, d, rfl, rfl, by rw [hnv v (by simp), h1], by rw [hnv d (by simp), h2]⟩
  | ret => exact h
  | other k =>
    refine ⟨?_, ?_⟩
    · intro x hx
      rw [hnv x (List.mem_append_left _ hx), hreg x (List.mem_append_left _ hx)]
      exact h.1 x hx
    · intro r hr
      rw [hnv r (List.mem_append_right _ hr), hreg r (List.mem_append_right _ hr)]
      exact h.2 r hr

theorem returns_mem {ops : List Op} {ns : List Name} (h : returns ops = some ns) :
    ∃ o ∈ ops, o.kind = .ret ∧ o.args = ns := by
  induction ops with
  | nil => cases h
  | cons o ops ih =>
    rw [returns] at h
    split at h
    · next hk => exact ⟨o, by simp, hk, Option.some.inj h⟩
    · obtain ⟨p, hp, h1⟩ := ih h
      exact ⟨p, by simp [hp], h1⟩

/-- Rewriting keeps blocks well formed, and the kinds of what is returned. -/
theorem rewriteSlice_wf {i : Info} {params : List Name} {base c x : Name} {pre post : List Op}
    (hwf : WellFormed i params base (pre ++ ⟨.toTensor, [x], [c]⟩ :: post)) (hreg : i.region c = some c)
    (hview : ∀ o ∈ post, usesOf (aliases i.nv c post) o ≠ [] → viewOk i.nv (aliases i.nv c post) o = true)
    (recast : Nat → Bool) (post' : List Op)
    (hpost' : post' = rewriteSlice i.nv recast base c x (aliases i.nv c post) post) :
    WellFormed (i.after base (nvAfter i.nv (aliases i.nv c post) base post')) params
        (base + 3 * ((returns post).getD []).length) (pre ++ post')
      ∧ (returns post').map (·.map (nvAfter i.nv (aliases i.nv c post) base post'))
        = (returns post).map (·.map i.nv) := by
  generalize hnv'd : nvAfter i.nv (aliases i.nv c post) base post' = nv'
  generalize hald : aliases i.nv c post = al at *
  have hnv' : ∀ n, n < base → nv' n = (i.nv n && !al.contains n) := by
    intro n hn
    rw [← hnv'd, nvAfter, if_pos hn]
  obtain ⟨hS, hcD, hxD, hxn, hcc, hbefore⟩ := slice_ok (nv' := nv') hwf hreg (dummy_back _)
    (by rw [hald]; exact hnv') (by rw [hald]; exact hview)
  rw [hald] at hS
  have hcal : c ∈ al := hald ▸ mem_foldl_addAlias (by simp)
  obtain ⟨hpre, _, _, _, hspost⟩ := hwf.ssa.append
  have hcpost : c ∉ defs post := fun h => hspost.notMem_defs c h (by simp)
  have hcb : c < base := hwf.below ⟨.toTensor, [x], [c]⟩ (by simp) c (by simp)
  have hxb : x < base := hwf.below ⟨.toTensor, [x], [c]⟩ (by simp) x (by simp)
  have hnvc : nv' c = false := by rw [hnv' c hcb]; simp [hcal]
  have hnvx : nv' x = false := by rw [hnv' x hxb, hxn]; rfl
  have hnval : ∀ n ∈ defs pre ++ params, nv' n = i.nv n := by
    intro n hn
    rw [hnv' n (hbefore n hn).2]
    have : n ∉ al := fun h => (hbefore n hn).1 (hS.ctx.inside n h)
    simp [this]
  have hrepl : Repl nv' base (defs ([] : List Op) ++ ([c] ++ (defs pre ++ params))) (defs pre ++ params)
      (fun n => if n = c then x else n) := by
    refine ⟨?_, ?_, ?_, ?_, ?_, ?_⟩
    · intro n _
      split
      · next e => rw [hnvx, e, hnvc]
      · rfl
    · intro n hn
      rw [if_neg]
      intro e
      rw [e, hnvc] at hn; cases hn
    · intro n hn
      split
      · exact hxb
      · exact hn
    · intro n hn
      split
      · exact hxD
      · next e =>
        simp only [defs, List.flatMap_nil, List.nil_append, List.cons_append, List.mem_cons] at hn
        exact hn.resolve_left e
    · intro n hn
      simp only [defs, List.flatMap_nil, List.nil_append, List.cons_append, List.mem_cons]
      exact .inr hn
    · intro n hn
      simp only [defs, List.flatMap_nil, List.nil_append, List.cons_append, List.mem_cons, not_or] at hn
      rw [if_neg hn.1]
  obtain ⟨g1, g2, g3, g4⟩ := go_wellFormed hS hcpost [] post rfl _ _ hrepl
  have hdrop := dropCopies_eq_go hwf al (copyResults al post) (fun n => if n = c then x else n)
  unfold rewriteSlice at hpost'
  simp only at hpost'
  rw [hdrop] at hpost'
  clear hdrop
  generalize hG : go al post.reverse (copyResults al post) (fun n => if n = c then x else n) post = G at *
  have hlen : ((returns G).getD []).length = ((returns post).getD []).length := by
    cases h1 : returns G <;> cases h2 : returns post <;> rw [h1, h2] at g4 <;> simp at g4
    · simpa using congrArg List.length g4
  have hnew : NewNames (i.after base nv') (fun n => i.nv n && !al.contains n) base := by
    refine ⟨fun n hn => hnv' n hn, fun n hn => ?_⟩
    simp [Info.after, Nat.not_lt.2 hn]
  have hD'b : ∀ m : Nat, m ∈ defs pre ++ params → m < base := fun m hm => (hbefore m hm).2
  -- the rest of the block
  have hall : Ssa (defs pre ++ params) post'
      ∧ (∀ o ∈ post', ∀ m : Nat, m ∈ o.args ++ o.results → m < base + 3 * ((returns post).getD []).length)
      ∧ (∀ o ∈ post', (i.after base nv').Typed o)
      ∧ (returns post').map (·.map nv') = (returns post).map (·.map i.nv) := by
    split at hpost'
    · obtain ⟨f1, f2, f3⟩ := finishReturn_wf hnew recast (returnFlags i.nv post) G g1 hD'b g3
      rw [← hpost'] at f1 f2 f3
      have hkind : ∀ o ∈ post', ∀ m : Nat, m ∈ o.results → base ≤ m →
          (i.after base nv').nv m = decide (o.kind = .toTensor) := by
        intro o ho m hm hb
        simp only [Info.after]
        rw [← hnv'd, nvAfter, if_neg (Nat.not_lt.2 hb), Bool.eq_iff_iff]
        simp only [List.any_eq_true, Bool.and_eq_true, beq_iff_eq, List.contains_iff_mem, decide_eq_true_eq]
        constructor
        · rintro ⟨p, hp, hpk, hpr⟩
          rw [f1.unique ho hp hm hpr]; exact hpk
        · intro hk
          exact ⟨o, ho, hk, hm⟩
      obtain ⟨f4, f5⟩ := f3 g2 hkind
      refine ⟨f1, by rw [← hlen]; exact f2, f4, ?_⟩
      have f5 := f5 (by rw [returnFlags_eq, List.length_map, hlen])
      refine (show (returns post').map (·.map nv') = _ from f5).trans ?_
      rw [returnFlags_eq]
      cases h1 : returns G with
      | none =>
        cases h2 : returns post with
        | none => rfl
        | some b => rw [h1, h2] at g4; simp at g4
      | some a =>
        cases h2 : returns post with
        | none => rw [h1, h2] at g4; simp at g4
        | some b =>
          rw [h1, h2] at g4
          replace g4 : a.map nv' = b.map nv' := by simpa using g4
          have hab : ∀ n : Nat, n ∈ a → n < base := by
            intro n hn
            obtain ⟨o, ho, _, e⟩ := returns_mem h1
            exact g3 o ho n (by simp [e, hn])
          have hbb : ∀ n : Nat, n ∈ b → n < base := by
            intro n hn
            obtain ⟨o, ho, _, e⟩ := returns_mem h2
            exact hwf.below o (by simp [ho]) n (by simp [e, hn])
          simp only [Option.map_some, Option.getD_some, Option.some.injEq]
          clear h1 h2 f5
          induction b generalizing a with
          | nil => cases a <;> simp at g4 ⊢
          | cons y b ihb =>
            cases a with
            | nil => simp at g4
            | cons z a =>
              simp only [List.map_cons, List.cons.injEq] at g4
              simp only [List.map_cons, List.zipWith_cons_cons, List.cons.injEq]
              refine ⟨?_, ihb a g4.2 (fun n hn => hab n (by simp [hn])) (fun n hn => hbb n (by simp [hn]))⟩
              have e := g4.1
              rw [hnv' z (hab z (by simp)), hnv' y (hbb y (by simp))] at e
              rw [e]
              cases i.nv y <;> simp
    · next hany =>
      refine ⟨hpost' ▸ g1, ?_, hpost' ▸ g2, ?_⟩
      · intro o ho m hm
        rw [hpost'] at ho
        exact Nat.lt_of_lt_of_le (g3 o ho m hm) (Nat.le_add_right _ _)
      · rw [hpost', g4]
        cases h2 : returns post with
        | none => rfl
        | some b =>
          obtain ⟨o, ho, hk, e⟩ := returns_mem h2
          simp only [Option.map_some, Option.some.injEq]
          apply List.map_congr_left
          intro n hn
          rw [hnv' n (hwf.below o (by simp [ho]) n (by simp [e, hn]))]
          have : n ∉ al := by
            intro hal
            apply hany
            rw [List.any_eq_true]
            refine ⟨o, List.mem_filter.2 ⟨ho, ?_⟩, by simpa using hk⟩
            have : n ∈ usesOf al o := mem_usesOf.2 ⟨e ▸ hn, hal⟩
            simp only [ne_eq, decide_eq_true_eq]
            intro h0
            rw [h0] at this; cases this
          simp [this]
  obtain ⟨a1, a2, a3, a4⟩ := hall
  refine ⟨⟨Ssa.append_iff.2 ⟨hpre, a1⟩, ?_, ?_, ?_, ?_, ?_⟩, a4⟩
  · intro o ho
    rcases List.mem_append.1 ho with h | h
    · have hin : ∀ n ∈ o.args ++ o.results, n ∈ defs pre ++ params := by
        intro n hn
        rcases List.mem_append.1 hn with h' | h'
        · obtain ⟨l1, l2, e⟩ := List.append_of_mem h
          have hpre' := hpre
          rw [e] at hpre'
          have := (hpre'.append).2.1 n h'
          rw [e, defs_append]
          simp only [List.mem_append] at this ⊢
          rcases this with h'' | h''
          · exact .inl (.inl h'')
          · exact .inr h''
        · exact List.mem_append_left _ (List.mem_flatMap.2 ⟨o, h, h'⟩)
      exact (hwf.typed o (by simp [h])).congr (fun n hn => hnval n (hin n hn))
        (fun n hn => by simp [Info.after, (hbefore n (hin n hn)).2])
    · exact a3 o h
  · intro p hp hn
    have hpd : p ∈ defs pre ++ params := List.mem_append_right _ hp
    simp only [Info.after] at hn ⊢
    rw [if_pos (hbefore p hpd).2]
    exact hwf.paramsPublic p hp (by rw [← hnval p hpd]; exact hn)
  · intro p hp
    exact Nat.lt_of_lt_of_le (hwf.paramsBelow p hp) (Nat.le_add_right _ _)
  · intro o ho n hn
    rcases List.mem_append.1 ho with h | h
    · exact Nat.lt_of_lt_of_le (hwf.below o (by simp [h]) n hn) (Nat.le_add_right _ _)
    · exact a2 o h n hn
  · intro n hn
    simp only [Info.after] at hn
    by_cases hb : n < base
    · rw [hnv' n hb, Bool.and_eq_true] at hn
      have := hwf.nvBelow n hn.1
      refine ⟨Nat.lt_of_lt_of_le this.1 (Nat.le_add_right _ _), ?_⟩
      intro r hr
      simp only [Info.after, if_pos hb] at hr
      exact Nat.lt_of_lt_of_le (this.2 r hr) (Nat.le_add_right _ _)
    · rw [← hnv'd, nvAfter, if_neg hb, List.any_eq_true] at hn
      obtain ⟨o, ho, h⟩ := hn
      rw [Bool.and_eq_true, List.contains_iff_mem] at h
      have := a2 o ho n (List.mem_append_right _ h.2)
      refine ⟨this, ?_⟩
      intro r hr
      simp only [Info.after, if_neg hb, Option.some.injEq] at hr
      exact hr ▸ this

end Verif.VS
