import Verif.Spec.RefBackend

/-!
# C50: values returned through the reference backend
-/

namespace Verif.RefB

open Version (strLe)

theorem strLe_refl (a : Text) : strLe a a = true := by
  induction a with
  | nil => rfl
  | cons c cs ih => simp [strLe, ih]

theorem strLe_total (a b : Text) : strLe a b || strLe b a := by
  induction a generalizing b with
  | nil => simp [strLe]
  | cons c cs ih =>
    cases b with
    | nil => simp [strLe]
    | cons d ds =>
      unfold strLe
      by_cases h1 : c.toNat < d.toNat
      · simp [h1]
      · by_cases h2 : d.toNat < c.toNat
        · simp [h2]
        · simp only [h1, h2, if_false]; exact ih ds

theorem strLe_trans (a b c : Text) : strLe a b → strLe b c → strLe a c := by
  induction a generalizing b c with
  | nil => simp [strLe]
  | cons x xs ih =>
    cases b with
    | nil => intro h; simp [strLe] at h
    | cons y ys =>
      cases c with
      | nil => intro _ h; simp [strLe] at h
      | cons z zs =>
        unfold strLe
        intro h1 h2
        by_cases h3 : x.toNat < y.toNat
        · by_cases h4 : y.toNat < z.toNat
          · rw [if_pos (by omega)]
          · by_cases h5 : z.toNat < y.toNat
            · rw [if_neg h4, if_pos h5] at h2; exact absurd h2 (by simp)
            · rw [if_pos (by omega)]
        · by_cases h4 : y.toNat < x.toNat
          · rw [if_neg h3, if_pos h4] at h1; exact absurd h1 (by simp)
          · rw [if_neg h3, if_neg h4] at h1
            by_cases h5 : y.toNat < z.toNat
            · rw [if_pos (by omega)]
            · by_cases h6 : z.toNat < y.toNat
              · rw [if_neg h5, if_pos h6] at h2; exact absurd h2 (by simp)
              · rw [if_neg h5, if_neg h6] at h2
                rw [if_neg (by omega), if_neg (by omega)]
                exact ih ys zs h1 h2

theorem strLe_antisymm (a b : Text) : strLe a b = true → strLe b a = true → a = b := by
  induction a generalizing b with
  | nil => cases b with
    | nil => intros; rfl
    | cons d ds => intro _ h; simp [strLe] at h
  | cons c cs ih =>
    cases b with
    | nil => intro h; simp [strLe] at h
    | cons d ds =>
      unfold strLe
      intro h1 h2
      by_cases h3 : c.toNat < d.toNat
      · rw [if_neg (by omega), if_pos h3] at h2; exact absurd h2 (by simp)
      · by_cases h4 : d.toNat < c.toNat
        · rw [if_neg h3, if_pos h4] at h1; exact absurd h1 (by simp)
        · rw [if_neg h3, if_neg h4] at h1
          rw [if_neg h4, if_neg h3] at h2
          have e : c = d := Char.toNat_inj.mp (by omega)
          rw [e, ih ds h1 h2]

theorem num_no_under (n : Nat) : '_' ∉ num n := by
  intro h
  have := Nat.isDigit_of_mem_toDigits (b := 10) (by omega) (by omega) h
  exact absurd this (by decide)

theorem elemToken_no_under {e : Elem} {t : Text} (h : elemToken e = some t) : '_' ∉ t := by
  cases e <;> simp only [elemToken, Option.some.injEq, reduceCtorEq] at h
  all_goals
    subst h
    have := num_no_under
    simp [this]

theorem typeToken_no_under {t : Ty} {s : Text} (h : typeToken t = some s) : '_' ∉ s := by
  cases t with
  | scalar e => exact elemToken_no_under h
  | memref e =>
    simp only [typeToken, Option.map_eq_some_iff] at h
    obtain ⟨a, ha, rfl⟩ := h
    have := elemToken_no_under ha
    simp [this]

/-- Tokens of a list of types. -/
theorem tokens_no_under {ts : List Ty} {tokens : List Text} (h : ts.mapM typeToken = some tokens) :
    tokens.length = ts.length ∧ (∀ s ∈ tokens, '_' ∉ s) ∧
      ∀ (i : Nat) (t : Ty) (s : Text), ts[i]? = some t → tokens[i]? = some s → typeToken t = some s := by
  induction ts generalizing tokens with
  | nil => simp at h; subst h; simp
  | cons t ts ih =>
    rw [List.mapM_cons] at h
    simp only [Option.bind_eq_bind, Option.bind_eq_some_iff, Option.pure_def, Option.some.injEq] at h
    obtain ⟨s, hs, ss, hss, rfl⟩ := h
    obtain ⟨h1, h2, h3⟩ := ih hss
    refine ⟨by simp [h1], ?_, ?_⟩
    · intro x hx
      rcases List.mem_cons.mp hx with rfl | hx
      · exact typeToken_no_under hs
      · exact h2 x hx
    · intro i t' s' e1 e2
      cases i with
      | zero => cases e1; cases e2; exact hs
      | succ i => exact h3 i t' s' (by simpa using e1) (by simpa using e2)

theorem foldl_joinStep (a : Text) (ha : a ≠ []) (tokens : List Text) :
    tokens.foldl joinStep a = a ++ (tokens.map ('_' :: ·)).flatten := by
  induction tokens generalizing a with
  | nil => simp
  | cons t ts ih =>
    have e : joinStep a t = a ++ '_' :: t := by
      unfold joinStep
      cases a with
      | nil => exact absurd rfl ha
      | cons c cs => rfl
    rw [List.foldl_cons, e, ih _ (by simp)]
    simp

theorem consumeName_eq {ts : List Ty} {tokens : List Text} (h : ts.mapM typeToken = some tokens) :
    consumeName ts = some (baseName ++ (tokens.map ('_' :: ·)).flatten) := by
  unfold consumeName
  rw [h]
  have : joinStep [] baseName = baseName := rfl
  rw [Option.map_some, List.foldl_cons, this, foldl_joinStep _ (by decide)]

theorem splitUnder_join (t : Text) (ts : List Text) (h : ∀ s ∈ t :: ts, '_' ∉ s) :
    pySplit '_' (t ++ (ts.map ('_' :: ·)).flatten) = t :: ts := by
  induction ts generalizing t with
  | nil => simpa using pySplit_plain (h t (by simp))
  | cons u us ih =>
    rw [List.map_cons, List.flatten_cons, List.cons_append, pySplit_append (h t (by simp)),
      ih u fun s hs => h s (by simp at hs ⊢; exact Or.inr hs)]

theorem consumePrefix_eq : consumePrefix = baseName ++ ['_'] := by decide

end Verif.RefB

namespace Verif

open RefB

/-- C50, names: from the callback's name the Python side reads back the type tokens the compiler put in, for
every list of result types. -/
theorem C50_names (ts : List Ty) (tokens : List Text) (hne : ts ≠ [])
    (h : ts.mapM typeToken = some tokens) :
    ∃ name, consumeName ts = some name ∧ name.take consumePrefix.length = consumePrefix ∧
      pySplit '_' (name.drop consumePrefix.length) = tokens := by
  refine ⟨_, consumeName_eq h, ?_⟩
  obtain ⟨h1, h2, -⟩ := tokens_no_under h
  cases tokens with
  | nil =>
    cases ts with
    | nil => exact absurd rfl hne
    | cons t ts => simp at h1
  | cons t tokens =>
    have e : baseName ++ (List.map ('_' :: ·) (t :: tokens)).flatten =
        consumePrefix ++ (t ++ (tokens.map ('_' :: ·)).flatten) := by
      rw [consumePrefix_eq]; simp
    rw [e]
    refine ⟨by simp, ?_⟩
    rw [List.drop_left]
    exact splitUnder_join t tokens h2

/-- C50, names: result types with the same callback name have the same tokens. -/
theorem C50_names_injective (ts us : List Ty) (name : Text) (h1 : consumeName ts = some name)
    (h2 : consumeName us = some name) : ts.map typeToken = us.map typeToken := by
  have split : ∀ xs : List Ty, consumeName xs = some name → ∃ tokens, xs.mapM typeToken = some tokens := by
    intro xs h
    unfold consumeName at h
    rw [Option.map_eq_some_iff] at h
    obtain ⟨tokens, ht, -⟩ := h
    exact ⟨tokens, ht⟩
  obtain ⟨a, ha⟩ := split ts h1
  obtain ⟨b, hb⟩ := split us h2
  have toMap : ∀ (xs : List Ty) (tokens : List Text), xs.mapM typeToken = some tokens →
      xs.map typeToken = tokens.map some := by
    intro xs tokens h
    obtain ⟨l, -, g⟩ := tokens_no_under h
    apply List.ext_getElem (by simp [l])
    intro i hi1 hi2
    simp only [List.length_map] at hi1 hi2
    have := g i xs[i] tokens[i] (List.getElem?_eq_getElem hi1) (List.getElem?_eq_getElem hi2)
    simp [this]
  have e : a = b := by
    rw [consumeName_eq ha] at h1
    rw [consumeName_eq hb] at h2
    have e := List.append_cancel_left ((Option.some.inj h1).trans (Option.some.inj h2).symm)
    obtain ⟨-, na, -⟩ := tokens_no_under ha
    obtain ⟨-, nb, -⟩ := tokens_no_under hb
    cases a with
    | nil =>
      cases b with
      | nil => rfl
      | cons t b => simp at e
    | cons s a =>
      cases b with
      | nil => simp at e
      | cons t b =>
        simp only [List.map_cons, List.flatten_cons, List.cons_append, List.cons.injEq, true_and] at e
        rw [← splitUnder_join s a na, ← splitUnder_join t b nb, e]
  rw [toMap _ _ ha, toMap _ _ hb, e]

namespace RefB

/-- One decodable result. -/
theorem decode_one {t : Ty} (hd : Decodable t) {a : Arg} (ht : Typed t a) (hf : FitsCInt a) :
    ∃ tk c o, typeToken t = some tk ∧ ctypeOf tk = .ok c ∧ decodeItem (convert c a) tk = .ok o ∧
      Shows t a o := by
  unfold Decodable at hd
  simp only [List.mem_cons, List.not_mem_nil, or_false] at hd
  rcases hd with rfl | rfl | rfl | rfl | rfl | rfl | rfl | rfl | rfl | rfl | rfl | rfl | rfl | rfl | rfl
  · cases a with
    | int n =>
      refine ⟨_, .bool, _, rfl, by decide +kernel, rfl, ?_⟩
      unfold Typed at ht
      simp only [if_true] at ht
      rcases ht with rfl | rfl <;> rfl
    | flt x => exact ht.elim
    | mem b => exact ht.elim
  · cases a with
    | int n =>
      refine ⟨_, .byte, _, rfl, by decide +kernel, rfl, ?_⟩
      have ht' : -2 ^ (8 - 1) ≤ n ∧ n < 2 ^ (8 - 1) := ht
      have e : (2 : Int) ^ (8 - 1) = 128 := rfl
      rw [e] at ht'
      show Out.int (wrap 8 n) = Out.int n
      have : wrap 8 n = n := by
        unfold wrap
        show (n + 128) % 256 - 128 = n
        omega
      rw [this]
    | flt x => exact ht.elim
    | mem b => exact ht.elim
  · cases a with
    | int n =>
      refine ⟨_, .int, _, rfl, by decide +kernel, rfl, ?_⟩
      have hf' : -2147483648 ≤ n ∧ n < 2147483648 := hf
      show Out.int (wrap 32 n) = Out.int n
      have : wrap 32 n = n := by
        unfold wrap
        show (n + 2147483648) % 4294967296 - 2147483648 = n
        omega
      rw [this]
    | flt x => exact ht.elim
    | mem b => exact ht.elim
  · cases a with
    | flt x => exact ⟨_, .float, .flt x, rfl, by decide +kernel, rfl, rfl⟩
    | int n => exact ht.elim
    | mem b => exact ht.elim
  · cases a with
    | flt x => exact ⟨_, .double, .flt x, rfl, by decide +kernel, rfl, rfl⟩
    | int n => exact ht.elim
    | mem b => exact ht.elim
  · cases a with
    | mem b => exact ⟨_, .memrefPtr, .arr .float16 b, rfl, by decide +kernel, rfl, .float16, rfl, rfl⟩
    | int n => exact ht.elim
    | flt x => exact ht.elim
  · cases a with
    | mem b => exact ⟨_, .memrefPtr, .arr .float32 b, rfl, by decide +kernel, rfl, .float32, rfl, rfl⟩
    | int n => exact ht.elim
    | flt x => exact ht.elim
  · cases a with
    | mem b => exact ⟨_, .memrefPtr, .arr .float64 b, rfl, by decide +kernel, rfl, .float64, rfl, rfl⟩
    | int n => exact ht.elim
    | flt x => exact ht.elim
  · cases a with
    | mem b => exact ⟨_, .memrefPtr, .arr .bool b, rfl, by decide +kernel, rfl, .bool, rfl, rfl⟩
    | int n => exact ht.elim
    | flt x => exact ht.elim
  · cases a with
    | mem b => exact ⟨_, .memrefPtr, .arr .int8 b, rfl, by decide +kernel, rfl, .int8, rfl, rfl⟩
    | int n => exact ht.elim
    | flt x => exact ht.elim
  · cases a with
    | mem b => exact ⟨_, .memrefPtr, .arr .int16 b, rfl, by decide +kernel, rfl, .int16, rfl, rfl⟩
    | int n => exact ht.elim
    | flt x => exact ht.elim
  · cases a with
    | mem b => exact ⟨_, .memrefPtr, .arr .int32 b, rfl, by decide +kernel, rfl, .int32, rfl, rfl⟩
    | int n => exact ht.elim
    | flt x => exact ht.elim
  · cases a with
    | mem b => exact ⟨_, .memrefPtr, .arr .int64 b, rfl, by decide +kernel, rfl, .int64, rfl, rfl⟩
    | int n => exact ht.elim
    | flt x => exact ht.elim
  · cases a with
    | mem b => exact ⟨_, .memrefPtr, .arr .complex64 b, rfl, by decide +kernel, rfl, .complex64, rfl, rfl⟩
    | int n => exact ht.elim
    | flt x => exact ht.elim
  · cases a with
    | mem b => exact ⟨_, .memrefPtr, .arr .complex128 b, rfl, by decide +kernel, rfl, .complex128, rfl, rfl⟩
    | int n => exact ht.elim
    | flt x => exact ht.elim

/-- A list of decodable results. -/
theorem decode_all (ts : List Ty) (vals : List Arg) (hd : ∀ t ∈ ts, Decodable t)
    (ht : TypedAll ts vals) (hf : ∀ a ∈ vals, FitsCInt a) :
    ∃ tokens cs os, ts.mapM typeToken = some tokens ∧ pyMap ctypeOf tokens = .ok cs ∧
      decodeAll (cs.zipWith convert vals) tokens = .ok os ∧ os.length = ts.length ∧
      ∀ (i : Nat) (t : Ty) (a : Arg) (o : Out), ts[i]? = some t → vals[i]? = some a →
        os[i]? = some o → Shows t a o := by
  induction ts generalizing vals with
  | nil => exact ⟨[], [], [], rfl, rfl, rfl, rfl, by simp⟩
  | cons t ts ih =>
    cases vals with
    | nil => exact absurd ht.1 (by simp)
    | cons a vals =>
      obtain ⟨tk, c, o, h1, h2, h3, h4⟩ := decode_one (hd t (by simp)) (ht.2 0 t a rfl rfl)
        (hf a (by simp))
      obtain ⟨tokens, cs, os, g1, g2, g3, g4, g5⟩ := ih vals (fun x hx => hd x (by simp [hx]))
        ⟨by have := ht.1; simpa using this,
          fun i t' a' e1 e2 => ht.2 (i + 1) t' a' (by simpa using e1) (by simpa using e2)⟩
        (fun x hx => hf x (by simp [hx]))
      refine ⟨tk :: tokens, c :: cs, o :: os, ?_, ?_, ?_, by simp [g4], ?_⟩
      · rw [List.mapM_cons, h1, g1]; rfl
      · simp [pyMap, h2, g2]
      · simp [decodeAll, h3, g3, bind, Except.bind]
      · intro i t' a' o' e1 e2 e3
        cases i with
        | zero => cases e1; cases e2; cases e3; exact h4
        | succ i => exact g5 i t' a' o' (by simpa using e1) (by simpa using e2) (by simpa using e3)

theorem recordConsumer_fold (fs : List Func) (names : List Text)
    (h : ∀ f ∈ fs, ∃ n, consumeName f.rets = some n) :
    ∃ out, fs.foldlM recordConsumer names = some out ∧
      ∀ n, n ∈ out ↔ n ∈ names ∨ ∃ f ∈ fs, consumeName f.rets = some n := by
  induction fs generalizing names with
  | nil => exact ⟨names, rfl, by simp⟩
  | cons f fs ih =>
    obtain ⟨n, hn⟩ := h f (by simp)
    obtain ⟨out, h1, h2⟩ := ih (if names.contains n then names else names ++ [n])
      (fun g hg => h g (by simp [hg]))
    refine ⟨out, ?_, ?_⟩
    · rw [List.foldlM_cons]
      unfold recordConsumer
      rw [hn]
      exact h1
    · intro k
      rw [h2]
      have e : k ∈ (if names.contains n then names else names ++ [n]) ↔ k ∈ names ∨ k = n := by
        by_cases hc : names.contains n = true
        · rw [if_pos hc]
          have : n ∈ names := by simpa using hc
          constructor
          · exact Or.inl
          · rintro (h | rfl)
            · exact h
            · exact this
        · rw [if_neg hc]; simp
      rw [e]
      constructor
      · rintro ((h | rfl) | ⟨g, hg, hk⟩)
        · exact Or.inl h
        · exact Or.inr ⟨f, by simp, hn⟩
        · exact Or.inr ⟨g, by simp [hg], hk⟩
      · rintro (h | ⟨g, hg, hk⟩)
        · exact Or.inl (Or.inl h)
        · rcases List.mem_cons.mp hg with rfl | hg
          · rw [hn] at hk; exact Or.inl (Or.inr (Option.some.inj hk).symm)
          · exact Or.inr ⟨g, hg, hk⟩

/-- After registering callbacks, each is there with its own C types, and `ret_types` is the last one's. -/
theorem load_fold (l : List Text) (s : Invoker) (c : Text → List CType) (r : Text → List Text)
    (h : ∀ n ∈ l, ctypeFunc n = .ok (c n, r n)) :
    ∃ inv, pyFold registerStep s l = .ok inv ∧
      inv.callbacks = s.callbacks ++ l.map (fun n => (n, c n)) ∧
      inv.retTypes = match l.getLast? with
        | none => s.retTypes
        | some n => some (r n) := by
  induction l generalizing s with
  | nil => exact ⟨s, rfl, by simp, rfl⟩
  | cons n l ih =>
    obtain ⟨inv, h1, h2, h3⟩ := ih ⟨s.callbacks ++ [(n, c n)], some (r n)⟩ fun k hk => h k (by simp [hk])
    refine ⟨inv, ?_, by rw [h2]; simp, ?_⟩
    · have e : registerStep s n = .ok ⟨s.callbacks ++ [(n, c n)], some (r n)⟩ := by
        unfold registerStep
        rw [h n (by simp)]
        rfl
      simp [pyFold, e, h1]
    · rw [h3]
      cases l with
      | nil => rfl
      | cons k l =>
        rw [List.getLast?_cons_cons]
        cases hh : (k :: l).getLast? with
        | none => simp at hh
        | some x => rfl

theorem dictGet_callbacks (l : List Text) (c : Text → List CType) (n : Text) (h : n ∈ l) :
    dictGet (l.map fun n => (n, c n)) n = some (c n) := by
  induction l with
  | nil => simp at h
  | cons k l ih =>
    simp only [List.map_cons, dictGet]
    by_cases e : k = n
    · simp [e]
    · simp only [e, if_false]
      exact ih (by simpa [Ne.symm e] using h)

end RefB

/-- C50: in a module whose public functions have decodable result types, a function whose callback name comes
last among all of them returns what the program returned, as long as its integers fit a C `int`. -/
theorem C50_last_partial (m : List Func) (f : Func) (vals : List Arg) (hf : f ∈ publicFuncs m)
    (hne : f.rets ≠ [])
    (hd : ∀ g ∈ publicFuncs m, ∀ t ∈ g.rets, Decodable t)
    (hnames : ∀ g ∈ m, g.name.take consumePrefix.length ≠ consumePrefix)
    (hlast : ∀ g ∈ publicFuncs m, ∀ n k, consumeName g.rets = some n → consumeName f.rets = some k →
      Version.strLe n k = true)
    (ht : TypedAll f.rets vals) (hfit : ∀ a ∈ vals, FitsCInt a) :
    ∃ inv r, loadModule m = .ok inv ∧ invoke inv f vals = .ok r ∧ ShowsAll f.rets vals r := by
  -- every decodable list has a name and a parsed signature
  have sig : ∀ ts : List Ty, (∀ t ∈ ts, Decodable t) →
      ∃ tokens cs, ts.mapM typeToken = some tokens ∧ pyMap ctypeOf tokens = .ok cs := by
    intro ts
    induction ts with
    | nil => intro _; exact ⟨[], [], rfl, rfl⟩
    | cons t ts ih =>
      intro h
      obtain ⟨tokens, cs, h1, h2⟩ := ih fun x hx => h x (by simp [hx])
      have ht : ∃ a, Typed t a ∧ FitsCInt a := by
        have hdt := h t (by simp)
        cases t with
        | memref e => exact ⟨.mem 0, trivial, trivial⟩
        | scalar e =>
          cases e with
          | int w =>
            refine ⟨.int 0, ?_, ⟨by decide, by decide⟩⟩
            show (if w = 1 then _ else _)
            split
            · exact Or.inl rfl
            · have : (0 : Int) < 2 ^ (w - 1) := Int.pow_pos (by omega)
              constructor <;> omega
          | float x => exact ⟨.flt 0, trivial, trivial⟩
          | sint w => unfold Decodable at hdt; simp at hdt
          | complex x => unfold Decodable at hdt; simp at hdt
      obtain ⟨a, ha, hfa⟩ := ht
      obtain ⟨tk, c, o, g1, g2, -, -⟩ := decode_one (h t (by simp)) ha hfa
      exact ⟨tk :: tokens, c :: cs, by rw [List.mapM_cons, g1, h1]; rfl, by simp [pyMap, g2, h2]⟩
  obtain ⟨out, hout, hmem⟩ := recordConsumer_fold (publicFuncs m) [] (fun g hg => by
    obtain ⟨tokens, cs, h1, -⟩ := sig g.rets (hd g hg)
    exact ⟨_, consumeName_eq h1⟩)
  obtain ⟨tokens, cs, os, t1, t2, t3, t4, t5⟩ := decode_all f.rets vals (hd f hf) ht hfit
  obtain ⟨name, n1, n2, n3⟩ := C50_names f.rets tokens hne t1
  -- the callbacks that get registered
  let L := (sortBy Version.strLe out).filter fun n => n.take consumePrefix.length = consumePrefix
  have hL : ∀ n, n ∈ L ↔ (∃ g ∈ publicFuncs m, consumeName g.rets = some n) ∧
      n.take consumePrefix.length = consumePrefix := by
    intro n
    simp only [L, List.mem_filter, mem_sortBy, hmem, List.not_mem_nil, false_or, decide_eq_true_eq]
  have hnL : name ∈ L := (hL name).mpr ⟨⟨f, hf, n1⟩, n2⟩
  have hsorted : L.Pairwise (fun a b => Version.strLe a b = true) :=
    (sortBy_pairwise strLe_trans strLe_total out).sublist List.filter_sublist
  have hsym : symbols m = some (sortBy Version.strLe out ++ m.map (·.name)) := by
    unfold symbols consumers
    rw [hout]
    rfl
  have hret : returnFuncs (sortBy Version.strLe out ++ m.map (·.name)) = L := by
    unfold returnFuncs
    rw [List.filter_append]
    have : (m.map (·.name)).filter (fun n => n.take consumePrefix.length = consumePrefix) = [] := by
      rw [List.filter_eq_nil_iff]
      intro n hn
      obtain ⟨g, hg, rfl⟩ := List.mem_map.mp hn
      simpa using hnames g hg
    rw [this, List.append_nil]
  -- parsed signatures of the registered callbacks
  have hct : ∀ n ∈ L, ∃ p : List CType × List Text, ctypeFunc n = .ok p := by
    intro n hn
    obtain ⟨⟨g, hg, hgn⟩, hpre⟩ := (hL n).mp hn
    obtain ⟨tk, c, h1, h2⟩ := sig g.rets (hd g hg)
    have hgne : g.rets ≠ [] := by
      intro e
      rw [e] at hgn
      have : n = baseName := (Option.some.inj hgn).symm
      rw [this] at hpre
      exact absurd hpre (by decide)
    obtain ⟨n', e1, e2, e3⟩ := C50_names g.rets tk hgne h1
    rw [e1] at hgn
    cases hgn
    refine ⟨(c, tk), ?_⟩
    unfold ctypeFunc typeNames
    rw [e3, h2]
    rfl
  have hown : ctypeFunc name = .ok (cs, tokens) := by
    unfold ctypeFunc typeNames
    rw [n3, t2]
    rfl
  let p : Text → List CType × List Text := fun n => match ctypeFunc n with
    | .ok q => q
    | .error _ => ([], [])
  have hp : ∀ n ∈ L, ctypeFunc n = .ok ((p n).1, (p n).2) := by
    intro n hn
    obtain ⟨q, hq⟩ := hct n hn
    simp only [p, hq]
  obtain ⟨inv, l1, l2, l3⟩ := load_fold L ⟨[], none⟩ (fun n => (p n).1) (fun n => (p n).2) hp
  -- the last one is ours
  have hlastL : L.getLast? = some name := by
    cases hx : L.getLast? with
    | none => rw [List.getLast?_eq_none_iff] at hx; rw [hx] at hnL; simp at hnL
    | some x =>
      have hxL : x ∈ L := List.mem_of_getLast? hx
      obtain ⟨⟨g, hg, hgn⟩, -⟩ := (hL x).mp hxL
      have le1 := hlast g hg x name hgn n1
      have le2 : Version.strLe name x = true := by
        obtain ⟨ys, hys⟩ := List.getLast?_eq_some_iff.mp hx
        rw [hys] at hnL hsorted
        rcases List.mem_append.mp hnL with h | h
        · exact (List.pairwise_append.mp hsorted).2.2 _ h _ (by simp)
        · rw [List.mem_singleton.mp h]; exact strLe_refl x
      rw [strLe_antisymm _ _ le1 le2]
  have hpn : p name = (cs, tokens) := by simp only [p, hown]
  refine ⟨inv, pack os, ?_, ?_, ?_⟩
  · unfold loadModule
    rw [hsym]
    show load _ = _
    unfold load
    rw [hret]
    exact l1
  · unfold invoke
    rw [n1]
    have c1 : dictGet inv.callbacks name = some cs := by
      rw [l2]
      simp only [List.nil_append]
      rw [dictGet_callbacks L (fun n => (p n).1) name hnL, hpn]
    have c2 : inv.retTypes = some tokens := by
      rw [l3, hlastL]
      simp only
      rw [hpn]
    simp only [c1, c2, t3]
  · have e : (pack os).outs = os := by
      match os with
      | [] => rfl
      | [o] => rfl
      | a :: b :: r => rfl
    unfold ShowsAll
    rw [e]
    exact ⟨t4, t5⟩

/-- C50: if all public functions of a module have the same decodable result types, each returns what the
program returned, as long as integers fit a C `int`. -/
theorem C50_one_signature_partial (m : List Func) (f : Func) (vals : List Arg)
    (hf : f ∈ publicFuncs m) (hne : f.rets ≠ []) (hd : ∀ t ∈ f.rets, Decodable t)
    (hsame : ∀ g ∈ publicFuncs m, SameSignature g f)
    (hnames : ∀ g ∈ m, g.name.take consumePrefix.length ≠ consumePrefix)
    (ht : TypedAll f.rets vals) (hfit : ∀ a ∈ vals, FitsCInt a) :
    ∃ inv r, loadModule m = .ok inv ∧ invoke inv f vals = .ok r ∧ ShowsAll f.rets vals r := by
  refine C50_last_partial m f vals hf hne ?_ hnames ?_ ht hfit
  · intro g hg t
    rw [hsame g hg]
    exact hd t
  · intro g hg n k h1 h2
    rw [hsame g hg, h2] at h1
    cases h1
    exact strLe_refl _

/-- A public function returning one value. -/
def fn (name : String) (rets : List Ty) : Func := ⟨name.toList, false, rets⟩

/-- C50 fails with two signatures: the callbacks share the variable `ret_types`, so an array of floats comes
back as an array of integers. -/
theorem C50_violated_two_signatures :
    ∃ m f inv r, loadModule m = .ok inv ∧ f ∈ publicFuncs m ∧ TypedAll f.rets [.mem 7] ∧
      invoke inv f [.mem 7] = .ok r ∧ ¬ ShowsAll f.rets [.mem 7] r := by
  refine ⟨[fn "f" [.memref (.float .f32)], fn "g" [.memref (.int 64)]], fn "f" [.memref (.float .f32)],
    _, .one (.arr .int64 7), rfl, by simp [publicFuncs, fn], ⟨rfl, ?_⟩, by decide +kernel, ?_⟩
  · intro i t a h1 h2
    cases i with
    | zero => cases h1; cases h2; trivial
    | succ i => simp [fn] at h1
  · rintro ⟨-, h⟩
    obtain ⟨np, h1, h2⟩ := h 0 _ _ _ rfl rfl rfl
    cases h2
    cases h1

/-- C50 fails for large integers: the callback argument is declared as a C `int`. -/
theorem C50_violated_large_int :
    ∃ m f inv r, loadModule m = .ok inv ∧ f ∈ publicFuncs m ∧ TypedAll f.rets [.int 2147483648] ∧
      invoke inv f [.int 2147483648] = .ok r ∧ r.outs = [.int (-2147483648)] := by
  refine ⟨[fn "f" [.scalar (.int 64)]], fn "f" [.scalar (.int 64)], _, .one (.int (-2147483648)), rfl,
    by simp [publicFuncs, fn], ⟨rfl, ?_⟩, by decide +kernel, rfl⟩
  intro i t a h1 h2
  cases i with
  | zero => cases h1; cases h2; exact ⟨by decide, by decide⟩
  | succ i => simp [fn] at h1

/-- C50 fails for `bf16`: its token is that of `f16`, so a buffer comes back as an array of another type. -/
theorem C50_violated_bf16 :
    ∃ m f inv r, loadModule m = .ok inv ∧ f ∈ publicFuncs m ∧
      f.rets = [.memref (.float .bf16)] ∧ invoke inv f [.mem 7] = .ok r ∧
      ¬ ShowsAll f.rets [.mem 7] r := by
  refine ⟨[fn "f" [.memref (.float .bf16)]], fn "f" [.memref (.float .bf16)], _,
    .one (.arr .float16 7), rfl, by simp [publicFuncs, fn], rfl, by decide +kernel, ?_⟩
  rintro ⟨-, h⟩
  obtain ⟨np, h1, h2⟩ := h 0 _ _ _ rfl rfl rfl
  cases h2
  cases h1

/-- C50: a function without results cannot be invoked, as its callback is never registered. -/
theorem C50_violated_no_results (f : Func) (hp : f.isPrivate = false) (hr : f.rets = [])
    (hn : f.name.take consumePrefix.length ≠ consumePrefix) :
    ∃ inv, loadModule [f] = .ok inv ∧ invoke inv f [] = .error .runtimeError := by
  have e : consumers [f] = some [baseName] := by
    unfold consumers publicFuncs
    simp only [List.filter_cons, hp, Bool.not_false, if_true, List.filter_nil]
    simp only [List.foldlM_cons, List.foldlM_nil, recordConsumer, hr]
    rfl
  have e2 : returnFuncs ([baseName] ++ [f].map (·.name)) = [] := by
    unfold returnFuncs
    rw [List.filter_eq_nil_iff]
    intro n hm
    rcases List.mem_append.mp hm with h | h
    · rw [List.mem_singleton.mp h]; decide
    · rw [List.mem_singleton.mp h]; simpa using hn
  refine ⟨⟨[], none⟩, ?_, ?_⟩
  · unfold loadModule symbols
    rw [e]
    show load _ = _
    unfold load
    rw [e2]
    rfl
  · unfold invoke
    rw [hr]
    rfl

/-- A module with two functions of one signature and a private one: both results are decoded. -/
example : (do
    let inv ← loadModule [fn "f" [.memref (.float .f32), .scalar (.int 1)],
      fn "g" [.memref (.float .f32), .scalar (.int 1)], ⟨"h".toList, true, [.scalar (.int 32)]⟩]
    invoke inv (fn "g" [.memref (.float .f32), .scalar (.int 1)]) [.mem 3, .int 1]) =
    .ok (.many [.arr .float32 3, .int 1]) := by decide +kernel

/-- A scalar `i32` result is not supported: loading raises. -/
example : (match loadModule [fn "f" [.scalar (.int 32)]] with
    | .error e => some e
    | .ok _ => none) = some .assertion := by decide +kernel

end Verif
