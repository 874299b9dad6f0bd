import Verif.Spec.FxNames
import Mathlib.Tactic.Tauto

namespace Verif.Names

theorem gen_toList (b : String) (k : Nat) :
    (gen b k).toList = b.toList ++ '_' :: Nat.toDigits 10 k := by
  have : (toString k).toList = Nat.toDigits 10 k := Nat.toList_repr
  simp [gen, String.toList_append, this]

theorem split_unique {l₁ l₂ d₁ d₂ : List Char} (h₁ : '_' ∉ d₁) (h₂ : '_' ∉ d₂)
    (h : l₁ ++ '_' :: d₁ = l₂ ++ '_' :: d₂) : l₁ = l₂ ∧ d₁ = d₂ := by
  induction l₁ generalizing l₂ with
  | nil =>
    cases l₂ with
    | nil => simpa using h
    | cons a l₂ =>
      simp only [List.nil_append, List.cons_append, List.cons.injEq] at h
      exact absurd (h.2 ▸ (by simp : '_' ∈ l₂ ++ '_' :: d₂)) h₁
  | cons a l₁ ih =>
    cases l₂ with
    | nil =>
      simp only [List.nil_append, List.cons_append, List.cons.injEq] at h
      exact absurd (h.2 ▸ (by simp : '_' ∈ l₁ ++ '_' :: d₁)) h₂
    | cons b l₂ =>
      simp only [List.cons_append, List.cons.injEq] at h
      obtain ⟨h1, h2⟩ := ih h.2
      exact ⟨by rw [h.1, h1], h2⟩

theorem gen_inj {a b : String} {j k : Nat} (h : gen a j = gen b k) : a = b ∧ j = k := by
  have h1 := congrArg String.toList h
  rw [gen_toList, gen_toList] at h1
  obtain ⟨h2, h3⟩ := split_unique Nat.underscore_not_in_toDigits Nat.underscore_not_in_toDigits h1
  refine ⟨String.toList_inj.1 h2, ?_⟩
  have := congrArg (Nat.ofDigitChars 10 · 0) h3
  simpa [Nat.ofDigitChars_ten_toDigits] using this

theorem generateSymbol_fresh (taken : List String) (base : String) :
    ∀ (fuel c : Nat) (l : List String),
      (∀ j, c ≤ j → gen base j ∈ taken → gen base j ∈ l) → l.length < fuel →
      (generateSymbol taken base c fuel).1 ∉ taken
  | 0, _, _, _, hf => absurd hf (by omega)
  | fuel + 1, c, l, hl, hf => by
    rw [generateSymbol]
    split
    · next hin =>
      have hin' := hl c (Nat.le_refl _) hin
      refine generateSymbol_fresh taken base fuel (c + 1) (l.erase (gen base c)) ?_ ?_
      · intro j hj hjt
        have hne : gen base j ≠ gen base c := fun h => by
          have := (gen_inj h).2; omega
        exact (List.mem_erase_of_ne hne).2 (hl j (by omega) hjt)
      · have := List.length_erase_of_mem hin'
        have := List.length_pos_of_mem hin'
        omega
    · next hin => exact hin

theorem insertSymbol_nodup {st : State} (h : (st.symbols.map Prod.fst).Nodup) (name : String)
    (o : Owner) : ((insertSymbol st name o).symbols.map Prod.fst).Nodup := by
  unfold insertSymbol
  simp only
  split
  · simp only [List.map_cons, List.nodup_cons]
    exact ⟨generateSymbol_fresh _ _ _ _ _ (fun _ _ h => h) (by simp), h⟩
  · next hn =>
    simp only [List.map_cons, List.nodup_cons]
    exact ⟨hn, h⟩

theorem chooseName_symbols (st : State) (id : Nat) (name : String) :
    (chooseName st id name).2.symbols = st.symbols := by
  unfold chooseName; split
  · rfl
  · split <;> rfl

theorem insertSymbol_names (st : State) (name : String) (o : Owner) :
    (insertSymbol st name o).names = st.names := by
  unfold insertSymbol; simp only; split <;> rfl

mutual

theorem importGM_nodup : ∀ (g : GM) (st : State) (name : String),
    (st.symbols.map Prod.fst).Nodup → ((importGM st g name).symbols.map Prod.fst).Nodup
  | .mk id children, st, name, h => by
    rw [importGM]
    have h' : ((chooseName st id name).2.symbols.map Prod.fst).Nodup := by
      rw [chooseName_symbols]; exact h
    exact insertSymbol_nodup (importChildren_nodup children _ h') _ _

theorem importChildren_nodup : ∀ (l : List (String × GM)) (st : State),
    (st.symbols.map Prod.fst).Nodup → ((importChildren st l).symbols.map Prod.fst).Nodup
  | [], st, h => by rw [importChildren]; exact h
  | (name, g) :: rest, st, h => by
    rw [importChildren]
    exact importChildren_nodup rest _ (importGM_nodup g st name h)

end

theorem call_nodup (c : Call) (st : State) (h : (st.symbols.map Prod.fst).Nodup) :
    ((call st c).symbols.map Prod.fst).Nodup := by
  cases c with
  | graphModule g name => exact importGM_nodup g st name h
  | program children name => exact insertSymbol_nodup (importChildren_nodup children st h) _ _

theorem foldl_nodup (calls : List Call) (st : State) (h : (st.symbols.map Prod.fst).Nodup) :
    ((calls.foldl call st).symbols.map Prod.fst).Nodup := by
  induction calls generalizing st with
  | nil => exact h
  | cons c calls ih => exact ih _ (call_nodup c st h)

/-! ## Names once recorded stay -/

theorem chooseName_keeps (st : State) (id : Nat) (name : String) (i : Nat) (n : String)
    (h : dictGet st.names i = some n) : dictGet (chooseName st id name).2.names i = some n := by
  unfold chooseName
  cases hg : dictGet st.names id with
  | some m => exact h
  | none =>
    have hne : id ≠ i := by rintro rfl; rw [h] at hg; cases hg
    simp only
    split <;> simp [dictGet_set_ne _ _ hne, h]

theorem chooseName_records (st : State) (id : Nat) (name : String) :
    dictGet (chooseName st id name).2.names id = some (chooseName st id name).1 := by
  unfold chooseName
  cases hg : dictGet st.names id with
  | some m => exact hg
  | none => simp only; split <;> simp

mutual

theorem importGM_keeps : ∀ (g : GM) (st : State) (name : String) (i : Nat) (n : String),
    dictGet st.names i = some n → dictGet (importGM st g name).names i = some n
  | .mk id children, st, name, i, n, h => by
    rw [importGM]
    simp only [insertSymbol_names]
    exact importChildren_keeps children _ i n (chooseName_keeps st id name i n h)

theorem importChildren_keeps : ∀ (l : List (String × GM)) (st : State) (i : Nat) (n : String),
    dictGet st.names i = some n → dictGet (importChildren st l).names i = some n
  | [], st, i, n, h => by rw [importChildren]; exact h
  | (name, g) :: rest, st, i, n, h => by
    rw [importChildren]
    exact importChildren_keeps rest _ i n (importGM_keeps g st name i n h)

end

theorem foldl_keeps (calls : List Call) (st : State) (i : Nat) (n : String)
    (h : dictGet st.names i = some n) : dictGet (calls.foldl call st).names i = some n := by
  induction calls generalizing st with
  | nil => exact h
  | cons c calls ih =>
    refine ih _ ?_
    cases c with
    | graphModule g name => exact importGM_keeps g st name i n h
    | program children name =>
      simp only [call, insertSymbol_names]
      exact importChildren_keeps children st i n h

/-! ## Imports without sharing and without names that look generated -/

/-- `R`: names asked for graph modules; `P`: names asked for programs.  `done`: graph modules whose
function exists. -/
structure Inv (R P : String → Prop) (st : State) (done : List Nat) (progs : List String) :
    Prop where
  inj : ∀ i j n, dictGet st.names i = some n → dictGet st.names j = some n → i = j
  shape : ∀ i n, dictGet st.names i = some n → R n ∨ ∃ b k, R b ∧ k < st.counter ∧ n = gen b k
  values : ∀ n, n ∈ st.names.map Prod.snd → ∃ i, dictGet st.names i = some n
  symbols : ∀ s o, dictGet st.symbols s = some o →
    (∃ i, o = .graphModule i ∧ i ∈ done ∧ dictGet st.names i = some s) ∨
    (o = .program ∧ s ∈ progs)
  dom : ∀ s, s ∈ st.symbols.map Prod.fst → ∃ o, dictGet st.symbols s = some o
  made : ∀ i ∈ done, ∃ n, dictGet st.names i = some n ∧ dictGet st.symbols n = some (.graphModule i)
  progsMade : ∀ p ∈ progs, P p ∧ dictGet st.symbols p = some .program

variable {R P : String → Prop}

theorem dictGet_isSome_of_mem {κ ν : Type} [DecidableEq κ] {d : List (κ × ν)} {k : κ}
    (h : k ∈ d.map Prod.fst) : ∃ v, dictGet d k = some v := by
  induction d with
  | nil => simp at h
  | cons e d ih =>
    obtain ⟨k', v⟩ := e
    by_cases hk : k' = k
    · exact ⟨v, by simp [dictGet, hk]⟩
    · have : k ∈ d.map Prod.fst := by
        simp only [List.map_cons, List.mem_cons] at h
        rcases h with h | h
        · exact absurd h.symm hk
        · exact h
      obtain ⟨v', hv'⟩ := ih this
      exact ⟨v', by simp [dictGet, hk, hv']⟩

theorem chooseName_inv (hR : ∀ a b, R a → R b → ¬ LooksGenerated a b)
    {st : State} {done : List Nat} {progs : List String} (h : Inv R P st done progs) {id : Nat}
    {name : String} (hname : R name) (hnew : dictGet st.names id = none) :
    Inv R P (chooseName st id name).2 done progs ∧
    (∀ i, i ≠ id → dictGet (chooseName st id name).2.names i = dictGet st.names i) := by
  have hlook : ∀ a b k, R a → R b → a ≠ gen b k := fun a b k ha hb hab => hR a b ha hb ⟨k, hab⟩
  have hne : ∀ i n, dictGet st.names i = some n → id ≠ i := by
    rintro i n hi rfl; rw [hi] at hnew; cases hnew
  have key : ∀ (n : String) (c : Nat), st.counter ≤ c →
      (R n ∨ ∃ b k, R b ∧ k < c ∧ n = gen b k) →
      (∀ i, dictGet st.names i ≠ some n) →
      Inv R P { st with names := dictSet st.names id n, counter := c } done progs ∧
      (∀ i, i ≠ id → dictGet (dictSet st.names id n) i = dictGet st.names i) := by
    intro n c hc hn hfresh
    refine ⟨⟨?_, ?_, ?_, ?_, h.dom, ?_, h.progsMade⟩, fun i hi => dictGet_set_ne _ _ (Ne.symm hi)⟩
    · intro i j m hi hj
      simp only [dictGet_set] at hi hj
      split at hi <;> split at hj
      · next h1 h2 => exact h1.symm.trans h2
      · next h1 h2 => cases hi; exact absurd hj (hfresh j)
      · next h1 h2 => cases hj; exact absurd hi (hfresh i)
      · exact h.inj i j m hi hj
    · intro i m hi
      simp only [dictGet_set] at hi
      split at hi
      · cases hi; exact hn
      · refine (h.shape i m hi).imp_right ?_
        rintro ⟨b, k, h1, h2, h3⟩
        exact ⟨b, k, h1, Nat.lt_of_lt_of_le h2 hc, h3⟩
    · intro m hm
      simp only [dictSet, List.map_cons, List.mem_cons] at hm
      rcases hm with rfl | hm
      · exact ⟨id, dictGet_set_self _ _ _⟩
      · obtain ⟨i, hi⟩ := h.values m hm
        exact ⟨i, by simp only [dictGet_set_ne _ _ (hne i m hi), hi]⟩
    · intro s o hs
      refine (h.symbols s o hs).imp_left ?_
      rintro ⟨i, h1, h2, h3⟩
      exact ⟨i, h1, h2, by simp only [dictGet_set_ne _ _ (hne i s h3), h3]⟩
    · intro i hi
      obtain ⟨m, h1, h2⟩ := h.made i hi
      exact ⟨m, by simp only [dictGet_set_ne _ _ (hne i m h1), h1], h2⟩
  unfold chooseName
  rw [hnew]
  simp only
  split
  · refine key (gen name st.counter) (st.counter + 1) (by omega)
      (.inr ⟨name, st.counter, hname, by omega, rfl⟩) ?_
    intro i hi
    rcases h.shape i _ hi with h1 | ⟨b, k, h1, h2, h3⟩
    · exact hlook _ name st.counter h1 hname rfl
    · have := (gen_inj h3).2; omega
  · next hnin =>
    refine key name st.counter (Nat.le_refl _) (.inl hname) ?_
    intro i hi
    exact hnin (List.mem_map.2 ⟨(i, name), dictGet_mem hi, rfl⟩)

theorem insertSymbol_inv (hP : ∀ p, P p → ¬ R p) (hPg : ∀ p b, P p → R b → ¬ LooksGenerated p b)
    {st : State} {done : List Nat} {progs : List String} (h : Inv R P st done progs) {id : Nat}
    {n : String} (hn : dictGet st.names id = some n) (hnew : id ∉ done) :
    Inv R P (insertSymbol st n (.graphModule id)) (id :: done) progs := by
  have hnot : n ∉ st.symbols.map Prod.fst := by
    intro hin
    obtain ⟨o, ho⟩ := h.dom n hin
    rcases h.symbols n o ho with ⟨i, _, h2, h3⟩ | ⟨_, h2⟩
    · exact hnew (h.inj i id n h3 hn ▸ h2)
    · have hp := (h.progsMade n h2).1
      rcases h.shape id n hn with h4 | ⟨b, k, h4, _, h5⟩
      · exact hP n hp h4
      · exact hPg n b hp h4 ⟨k, h5⟩
  have hstep : insertSymbol st n (.graphModule id) =
      { st with symbols := (n, .graphModule id) :: st.symbols } := by
    simp [insertSymbol, hnot]
  have hne : ∀ s o, dictGet st.symbols s = some o → n ≠ s := by
    rintro s o hs rfl
    exact hnot (List.mem_map.2 ⟨_, dictGet_mem hs, rfl⟩)
  rw [hstep]
  refine ⟨h.inj, h.shape, h.values, ?_, ?_, ?_, ?_⟩
  · intro s o hs
    simp only [dictGet] at hs
    split at hs
    · next heq => cases hs; subst heq; exact .inl ⟨id, rfl, by simp, hn⟩
    · refine (h.symbols s o hs).imp_left ?_
      rintro ⟨i, h1, h2, h3⟩
      exact ⟨i, h1, List.mem_cons_of_mem _ h2, h3⟩
  · intro s hs; exact dictGet_isSome_of_mem hs
  · intro i hi
    rcases List.mem_cons.1 hi with rfl | hi
    · exact ⟨n, hn, by simp [dictGet]⟩
    · obtain ⟨m, h1, h2⟩ := h.made i hi
      exact ⟨m, h1, by simp [dictGet, hne m _ h2, h2]⟩
  · intro p hp
    obtain ⟨h1, h2⟩ := h.progsMade p hp
    exact ⟨h1, by simp [dictGet, hne p _ h2, h2]⟩

theorem insertProgram_inv (hP : ∀ p, P p → ¬ R p)
    (hPg : ∀ p b, P p → R b → ¬ LooksGenerated p b)
    {st : State} {done : List Nat} {progs : List String} (h : Inv R P st done progs)
    {n : String} (hn : P n) (hnew : n ∉ progs) :
    Inv R P (insertSymbol st n .program) done (n :: progs) := by
  have hnot : n ∉ st.symbols.map Prod.fst := by
    intro hin
    obtain ⟨o, ho⟩ := h.dom n hin
    rcases h.symbols n o ho with ⟨i, _, h2, h3⟩ | ⟨_, h2⟩
    · rcases h.shape i n h3 with h4 | ⟨b, k, h4, _, h5⟩
      · exact hP n hn h4
      · exact hPg n b hn h4 ⟨k, h5⟩
    · exact hnew h2
  have hstep : insertSymbol st n .program =
      { st with symbols := (n, .program) :: st.symbols } := by
    simp [insertSymbol, hnot]
  have hne : ∀ s o, dictGet st.symbols s = some o → n ≠ s := by
    rintro s o hs rfl
    exact hnot (List.mem_map.2 ⟨_, dictGet_mem hs, rfl⟩)
  rw [hstep]
  refine ⟨h.inj, h.shape, h.values, ?_, ?_, ?_, ?_⟩
  · intro s o hs
    simp only [dictGet] at hs
    split at hs
    · next heq => cases hs; subst heq; exact .inr ⟨rfl, by simp⟩
    · refine (h.symbols s o hs).imp_right ?_
      rintro ⟨h1, h2⟩
      exact ⟨h1, List.mem_cons_of_mem _ h2⟩
  · intro s hs; exact dictGet_isSome_of_mem hs
  · intro i hi
    obtain ⟨m, h1, h2⟩ := h.made i hi
    exact ⟨m, h1, by simp [dictGet, hne m _ h2, h2]⟩
  · intro p hp
    rcases List.mem_cons.1 hp with rfl | hp
    · exact ⟨hn, by simp [dictGet]⟩
    · obtain ⟨h1, h2⟩ := h.progsMade p hp
      exact ⟨h1, by simp [dictGet, hne p _ h2, h2]⟩

/-- The graph modules recorded so far are those given by `known`. -/
def Known (st : State) (known : List Nat) : Prop := ∀ i, i ∉ known → dictGet st.names i = none

mutual

theorem importGM_inv (hR : ∀ a b, R a → R b → ¬ LooksGenerated a b) (hP : ∀ p, P p → ¬ R p)
    (hPg : ∀ p b, P p → R b → ¬ LooksGenerated p b) :
    ∀ (g : GM) (st : State) (name : String) (done known : List Nat) (progs : List String),
      Inv R P st done progs → Known st known → (∀ i ∈ done, i ∈ known) →
      R name → (∀ n ∈ g.childNames, R n) → g.ids.Nodup → (∀ i ∈ g.ids, i ∉ known) →
      ∃ done', Inv R P (importGM st g name) done' progs ∧
        (∀ i, i ∈ done' ↔ i ∈ g.ids ∨ i ∈ done) ∧ Known (importGM st g name) (g.ids ++ known)
  | .mk id children, st, name, done, known, progs, hi, hk, hdk, hname, hch, hnd, hnew => by
    simp only [GM.ids, List.nodup_cons] at hnd
    have hidk : id ∉ known := hnew id (by simp [GM.ids])
    obtain ⟨hi1, hkeep⟩ := chooseName_inv hR hi hname (hk id hidk)
    have hk1 : Known (chooseName st id name).2 (id :: known) := by
      intro i hi'
      have h1 : i ≠ id := fun h => hi' (by simp [h])
      rw [hkeep i h1]
      exact hk i (fun h => hi' (by simp [h]))
    obtain ⟨done', h1, h2, h3⟩ := importChildren_inv hR hP hPg children (chooseName st id name).2
      done (id :: known) progs hi1 hk1 (fun i h => List.mem_cons_of_mem _ (hdk i h))
      (fun n hn => hch n (by simpa [GM.childNames] using hn)) hnd.2
      (fun i h h' => by
        rcases List.mem_cons.1 h' with rfl | h'
        · exact hnd.1 h
        · exact hnew i (by simp [GM.ids, h]) h')
    have hrec := importChildren_keeps children _ _ _ (chooseName_records st id name)
    have hidd : id ∉ done' := by
      rw [h2]
      rintro (h | h)
      · exact hnd.1 h
      · exact hidk (hdk id h)
    refine ⟨id :: done', ?_, ?_, ?_⟩
    · rw [importGM]
      exact insertSymbol_inv hP hPg h1 hrec hidd
    · intro i
      simp only [List.mem_cons, h2, GM.ids, or_assoc]
    · rw [importGM]
      intro i hi'
      simp only [insertSymbol_names]
      apply h3
      intro h
      apply hi'
      simp only [GM.ids, List.cons_append, List.mem_cons, List.mem_append] at h ⊢
      tauto

theorem importChildren_inv (hR : ∀ a b, R a → R b → ¬ LooksGenerated a b) (hP : ∀ p, P p → ¬ R p)
    (hPg : ∀ p b, P p → R b → ¬ LooksGenerated p b) :
    ∀ (l : List (String × GM)) (st : State) (done known : List Nat) (progs : List String),
      Inv R P st done progs → Known st known → (∀ i ∈ done, i ∈ known) →
      (∀ n ∈ childrenNames l, R n) → (childrenIds l).Nodup → (∀ i ∈ childrenIds l, i ∉ known) →
      ∃ done', Inv R P (importChildren st l) done' progs ∧
        (∀ i, i ∈ done' ↔ i ∈ childrenIds l ∨ i ∈ done) ∧
        Known (importChildren st l) (childrenIds l ++ known)
  | [], st, done, known, progs, hi, hk, hdk, hch, hnd, hnew => by
    refine ⟨done, by rw [importChildren]; exact hi, by simp [childrenIds], ?_⟩
    rw [importChildren]; simpa [childrenIds] using hk
  | (name, g) :: rest, st, done, known, progs, hi, hk, hdk, hch, hnd, hnew => by
    simp only [childrenIds] at hnd hnew
    obtain ⟨n1, n2, n3⟩ := List.nodup_append.1 hnd
    obtain ⟨d1, h1, h2, h3⟩ := importGM_inv hR hP hPg g st name done known progs hi hk hdk
      (hch name (by simp [childrenNames])) (fun n hn => hch n (by simp [childrenNames, hn]))
      n1 (fun i h => hnew i (by simp [h]))
    obtain ⟨d2, h4, h5, h6⟩ := importChildren_inv hR hP hPg rest (importGM st g name) d1
      (g.ids ++ known) progs h1 h3
      (fun i h => by
        rw [h2] at h
        rcases h with h | h
        · simp [h]
        · simp [hdk i h])
      (fun n hn => hch n (by simp [childrenNames, hn])) n2
      (fun i h h' => by
        rcases List.mem_append.1 h' with h' | h'
        · exact n3 i h' i h rfl
        · exact hnew i (by simp [h]) h')
    refine ⟨d2, by rw [importChildren]; exact h4, ?_, ?_⟩
    · intro i
      rw [h5, h2]
      simp only [childrenIds, List.mem_append]
      tauto
    · rw [importChildren]
      intro i hi'
      apply h6
      intro h
      apply hi'
      simp only [childrenIds, List.mem_append] at h ⊢
      tauto

end

theorem foldl_inv (hR : ∀ a b, R a → R b → ¬ LooksGenerated a b) (hP : ∀ p, P p → ¬ R p)
    (hPg : ∀ p b, P p → R b → ¬ LooksGenerated p b) :
    ∀ (calls : List Call) (st : State) (done known : List Nat) (progs : List String),
      Inv R P st done progs → Known st known → (∀ i ∈ done, i ∈ known) →
      (∀ n ∈ calls.flatMap Call.moduleNames, R n) →
      (∀ n ∈ calls.flatMap Call.programNames, P n) →
      (calls.flatMap Call.ids).Nodup → (∀ i ∈ calls.flatMap Call.ids, i ∉ known) →
      (calls.flatMap Call.programNames).Nodup →
      (∀ p ∈ calls.flatMap Call.programNames, p ∉ progs) →
      ∃ done' progs', Inv R P (calls.foldl call st) done' progs' ∧
        (∀ i ∈ calls.flatMap Call.ids, i ∈ done') ∧ (∀ i ∈ done, i ∈ done') ∧
        (∀ p ∈ calls.flatMap Call.programNames, p ∈ progs') ∧ (∀ p ∈ progs, p ∈ progs')
  | [], st, done, known, progs, hi, _, _, _, _, _, _, _, _ =>
    ⟨done, progs, hi, by simp, fun _ h => h, by simp, fun _ h => h⟩
  | c :: calls, st, done, known, progs, hi, hk, hdk, hr, hp, hnd, hnew, hpn, hpnew => by
    rw [List.foldl_cons]
    simp only [List.flatMap_cons] at hr hp hnd hnew hpn hpnew ⊢
    obtain ⟨n1, n2, n3⟩ := List.nodup_append.1 hnd
    obtain ⟨p1, p2, p3⟩ := List.nodup_append.1 hpn
    suffices ∃ d1 pr1, Inv R P (call st c) d1 pr1 ∧ (∀ i, i ∈ d1 ↔ i ∈ c.ids ∨ i ∈ done) ∧
        Known (call st c) (c.ids ++ known) ∧ (∀ p, p ∈ pr1 ↔ p ∈ c.programNames ∨ p ∈ progs) by
      obtain ⟨d1, pr1, h1, h2, h3, h4⟩ := this
      obtain ⟨d2, pr2, g1, g2, g3, g4, g5⟩ := foldl_inv hR hP hPg calls (call st c) d1
        (c.ids ++ known) pr1 h1 h3
        (fun i h => by
          rw [h2] at h
          rcases h with h | h
          · simp [h]
          · simp [hdk i h])
        (fun n hn => hr n (List.mem_append_right _ hn))
        (fun n hn => hp n (List.mem_append_right _ hn)) n2
        (fun i h h' => by
          rcases List.mem_append.1 h' with h' | h'
          · exact n3 i h' i h rfl
          · exact hnew i (List.mem_append_right _ h) h') p2
        (fun p h h' => by
          rcases (h4 p).1 h' with h' | h'
          · exact p3 p h' p h rfl
          · exact hpnew p (List.mem_append_right _ h) h')
      refine ⟨d2, pr2, g1, ?_, fun i h => g3 i ((h2 i).2 (.inr h)), ?_,
        fun p h => g5 p ((h4 p).2 (.inr h))⟩
      · intro i h
        rcases List.mem_append.1 h with h | h
        · exact g3 i ((h2 i).2 (.inl h))
        · exact g2 i h
      · intro p h
        rcases List.mem_append.1 h with h | h
        · exact g5 p ((h4 p).2 (.inl h))
        · exact g4 p h
    cases c with
    | graphModule g name =>
      obtain ⟨d1, h1, h2, h3⟩ := importGM_inv hR hP hPg g st name done known progs hi hk hdk
        (hr name (by simp [Call.moduleNames])) (fun n hn => hr n (by simp [Call.moduleNames, hn]))
        n1 (fun i h => hnew i (List.mem_append_left _ h))
      exact ⟨d1, progs, h1, h2, h3, by simp [Call.programNames]⟩
    | program children name =>
      obtain ⟨d1, h1, h2, h3⟩ := importChildren_inv hR hP hPg children st done known progs hi hk
        hdk (fun n hn => hr n (by simp [Call.moduleNames, hn])) n1
        (fun i h => hnew i (List.mem_append_left _ h))
      refine ⟨d1, name :: progs, insertProgram_inv hP hPg h1 (hp name (by simp [Call.programNames]))
        (hpnew name (by simp [Call.programNames])), h2, ?_, by simp [Call.programNames]⟩
      intro i h
      simp only [call, insertSymbol_names]
      exact h3 i h

end Verif.Names
