import Verif.Lemmas.LinIndirect
import Verif.Lemmas.LinBroadcast

/-! # Indexing with tensors -/

namespace Verif.Ind

open Lin

variable {E : Type}

/-! ## What is collected -/

/-- The dimensions with an index. -/
def positions {A : Type} : List (Option A) → Nat → List Nat
  | [], _ => []
  | none :: is, i => positions is (i + 1)
  | some _ :: is, i => i :: positions is (i + 1)

def contigFrom {A : Type} : List (Option A) → Option Nat → Nat → Bool
  | [], _, _ => true
  | none :: is, last, i => contigFrom is last (i + 1)
  | some _ :: is, last, i => last.all (fun l => decide (l + 1 = i)) && contigFrom is (some i) (i + 1)

theorem collect_fold : ∀ (is : List (Option (Operand Int))) (i : Nat) (D : List Nat) (T : List (Operand Int)) (c : Bool),
    (is.zipIdx i).foldl collectStep ⟨D, T, c⟩ = ⟨D ++ positions is i, T ++ is.filterMap id, c && contigFrom is D.getLast? i⟩
  | [], i, D, T, c => by simp [positions, contigFrom]
  | none :: is, i, D, T, c => by
    rw [List.zipIdx_cons, List.foldl_cons]
    exact collect_fold is (i + 1) D T c
  | some t :: is, i, D, T, c => by
    rw [List.zipIdx_cons, List.foldl_cons]
    simp only [collectStep]
    rw [collect_fold is (i + 1)]
    simp only [positions, contigFrom, List.append_assoc, List.singleton_append, List.filterMap_cons, id, List.getLast?_concat, Collected.mk.injEq, true_and]
    rw [Bool.and_assoc]
    congr 1
    congr 1
    cases D using List.reverseRecOn with
    | nil => simp
    | append_singleton D d =>
      have : (decide ((d : Int) = (i : Int) - 1)) = decide (d + 1 = i) := decide_eq_decide.2 (by omega)
      simp [this]

theorem collect_eq (idxs : List (Option (Operand Int))) : collect idxs = ⟨positions idxs 0, idxs.filterMap id, contigFrom idxs none 0⟩ := by
  unfold collect
  rw [collect_fold]
  simp

theorem contigFrom_some {A : Type} : ∀ (is : List (Option A)) (l i : Nat), contigFrom is (some l) i = true →
    (l + 1 < i → is = List.replicate is.length none) ∧ (l + 1 = i → ∃ (ts : List A) (b : Nat), is = ts.map some ++ List.replicate b none)
  | [], _, _, _ => ⟨fun _ => rfl, fun _ => ⟨[], 0, rfl⟩⟩
  | none :: is, l, i, h => by
    obtain ⟨h1, -⟩ := contigFrom_some is l (i + 1) h
    refine ⟨fun hl => ?_, fun hl => ⟨[], is.length + 1, ?_⟩⟩
    · rw [List.length_cons, List.replicate_succ, ← h1 (by omega)]
    · rw [List.map_nil, List.nil_append, List.replicate_succ, ← h1 (by omega)]
  | some t :: is, l, i, h => by
    simp only [contigFrom, Option.all_some, Bool.and_eq_true, decide_eq_true_eq] at h
    obtain ⟨-, h2⟩ := contigFrom_some is i (i + 1) h.2
    refine ⟨fun hl => by omega, fun _ => ?_⟩
    obtain ⟨ts, b, hb⟩ := h2 rfl
    exact ⟨t :: ts, b, by rw [hb]; rfl⟩

theorem contigFrom_none {A : Type} : ∀ (is : List (Option A)) (i : Nat), contigFrom is none i = true →
    is = List.replicate is.length none ∨ ∃ f, AdjacentAt is f
  | [], _, _ => Or.inl rfl
  | none :: is, i, h => by
    rcases contigFrom_none is (i + 1) h with h | ⟨f, ts, b, h1, h2⟩
    · exact Or.inl (by rw [List.length_cons, List.replicate_succ, ← h])
    · exact Or.inr ⟨f + 1, ts, b, h1, by rw [h2]; rfl⟩
  | some t :: is, i, h => by
    simp only [contigFrom, Option.all_none, Bool.true_and] at h
    obtain ⟨-, h2⟩ := contigFrom_some is i (i + 1) h
    obtain ⟨ts, b, hb⟩ := h2 rfl
    exact Or.inr ⟨0, t :: ts, b, by simp, by rw [hb]; rfl⟩

theorem contig_nones {A : Type} : ∀ (b : Nat) (last : Option Nat) (i : Nat), contigFrom (List.replicate b (none : Option A)) last i = true
  | 0, _, _ => rfl
  | b + 1, last, i => by rw [List.replicate_succ]; exact contig_nones b last (i + 1)

theorem contig_somes {A : Type} (b : Nat) : ∀ (ts : List A) (i : Nat), contigFrom (ts.map some ++ List.replicate b none) (some i) (i + 1) = true
  | [], i => contig_nones b _ _
  | t :: ts, i => by
    simp only [List.map_cons, List.cons_append, contigFrom, Option.all_some, Bool.and_eq_true, decide_eq_true_eq]
    exact ⟨trivial, contig_somes b ts (i + 1)⟩

theorem contig_adjacent {A : Type} (ts : List A) (b : Nat) : ∀ (f i : Nat),
    contigFrom (List.replicate f none ++ ts.map some ++ List.replicate b none) none i = true
  | 0, i => by
    cases ts with
    | nil => exact contig_nones b _ _
    | cons t ts =>
      simp only [List.replicate_zero, List.nil_append, List.map_cons, List.cons_append, contigFrom, Option.all_none, Bool.true_and]
      exact contig_somes b ts i
  | f + 1, i => by
    rw [List.replicate_succ]
    exact contig_adjacent ts b f (i + 1)

theorem positions_nones {A : Type} : ∀ (b i : Nat), positions (List.replicate b (none : Option A)) i = []
  | 0, _ => rfl
  | b + 1, i => by rw [List.replicate_succ]; exact positions_nones b (i + 1)

theorem positions_somes {A : Type} (b : Nat) : ∀ (ts : List A) (i : Nat),
    positions (ts.map some ++ List.replicate b none) i = List.range' i ts.length
  | [], i => positions_nones b i
  | t :: ts, i => by
    simp only [List.map_cons, List.cons_append, positions, List.length_cons, List.range'_succ]
    rw [positions_somes b ts (i + 1)]

theorem positions_adjacent {A : Type} (ts : List A) (b : Nat) : ∀ (f i : Nat),
    positions (List.replicate f none ++ ts.map some ++ List.replicate b none) i = List.range' (i + f) ts.length
  | 0, i => by simpa using positions_somes b ts i
  | f + 1, i => by
    rw [List.replicate_succ]
    have := positions_adjacent ts b f (i + 1)
    rw [show i + (f + 1) = i + 1 + f by omega]
    exact this

theorem filterMap_adjacent {A : Type} (ts : List A) (f b : Nat) :
    (List.replicate f none ++ ts.map some ++ List.replicate b none).filterMap id = ts := by
  simp

theorem positions_length {A : Type} : ∀ (is : List (Option A)) (i : Nat), (positions is i).length = (is.filterMap id).length
  | [], _ => rfl
  | none :: is, i => by simpa [positions] using positions_length is (i + 1)
  | some _ :: is, i => by simpa [positions] using positions_length is (i + 1)

theorem positions_ge {A : Type} : ∀ (is : List (Option A)) (i : Nat), ∀ d ∈ positions is i, i ≤ d
  | [], _, d, h => by cases h
  | none :: is, i, d, h => by have := positions_ge is (i + 1) d h; omega
  | some _ :: is, i, d, h => by
    simp only [positions, List.mem_cons] at h
    rcases h with h | h
    · omega
    · have := positions_ge is (i + 1) d h; omega

/-! ## The sizes of the result -/

theorem keep_map {A B : Type} (g : A → B) : ∀ (is : List (Option A)) (ns : List Int), keep (is.map (Option.map g)) ns = keep is ns
  | [], ns => by cases ns <;> rfl
  | none :: is, [] => rfl
  | some _ :: is, [] => rfl
  | none :: is, n :: ns => by simp [keep, keep_map g is ns]
  | some _ :: is, n :: ns => by simp [keep, keep_map g is ns]

theorem unchangedSizes_nil : ∀ (ns : List Int) (i : Nat), unchangedSizes [] ns i = ns
  | [], _ => rfl
  | _ :: _, _ => rfl

theorem unchangedSizes_eq {A : Type} : ∀ (ns : List Int) (is : List (Option A)) (i : Nat),
    unchangedSizes (positions is i) ns i = keep is ns
  | [], is, i => by
    cases is with
    | nil => rfl
    | cons o is => rw [show keep (o :: is) [] = [] from by cases o <;> rfl]; unfold unchangedSizes; rfl
  | n :: ns, [], i => rfl
  | n :: ns, none :: is, i => by
    have ih := unchangedSizes_eq ns is (i + 1)
    simp only [positions, keep]
    cases h : positions is (i + 1) with
    | nil =>
      rw [h, unchangedSizes_nil] at ih
      rw [unchangedSizes_nil, ← ih]
    | cons d ds =>
      have hd := positions_ge is (i + 1) d (by rw [h]; simp)
      rw [unchangedSizes, if_neg (by omega), ← h, ih]
  | n :: ns, some _ :: is, i => by
    simp only [positions, keep]
    rw [unchangedSizes, if_pos rfl]
    exact unchangedSizes_eq ns is (i + 1)

theorem keep_nones {A : Type} : ∀ (b : Nat) (ns : List Int), b ≤ ns.length → keep (List.replicate b (none : Option A)) ns = ns
  | 0, ns, _ => by cases ns <;> rfl
  | b + 1, [], h => by simp at h
  | b + 1, n :: ns, h => by
    rw [List.replicate_succ, keep, keep_nones b ns (by simpa using h)]

theorem keep_somes {A : Type} (b : Nat) : ∀ (ts : List A) (ns : List Int), ts.length + b ≤ ns.length →
    keep (ts.map some ++ List.replicate b none) ns = ns.drop ts.length
  | [], ns, h => by simpa using keep_nones b ns (by simpa using h)
  | t :: ts, [], h => by simp at h
  | t :: ts, n :: ns, h => by
    simp only [List.map_cons, List.cons_append, keep, List.length_cons, List.drop_succ_cons]
    exact keep_somes b ts ns (by simp only [List.length_cons] at h; omega)

theorem keep_adjacent {A : Type} (ts : List A) (b : Nat) : ∀ (f : Nat) (ns : List Int), f + ts.length + b ≤ ns.length →
    keep (List.replicate f none ++ ts.map some ++ List.replicate b none) ns = ns.take f ++ ns.drop (f + ts.length)
  | 0, ns, h => by simpa using keep_somes b ts ns (by omega)
  | f + 1, [], h => by simp at h
  | f + 1, n :: ns, h => by
    have ih := keep_adjacent ts b f ns (by simp only [List.length_cons] at h; omega)
    rw [List.replicate_succ, List.cons_append, List.cons_append, keep, ih, List.take_succ_cons, show f + 1 + ts.length = f + ts.length + 1 by omega,
      List.drop_succ_cons]
    rfl

/-! ## The index -/

/-- The index in the input. -/
def mix {A : Type} : List (Option A) → List Int → List Int → List Int → List Int
  | [], _, _, k => k
  | some _ :: is, v :: vs, n :: ns, k => fromEnd v n :: mix is vs ns k
  | none :: is, vs, _ :: ns, i :: k => i :: mix is vs ns k
  | _, _, _, _ => []

theorem mix_map {A B : Type} (g : A → B) : ∀ (is : List (Option A)) (vs ns k : List Int), mix (is.map (Option.map g)) vs ns k = mix is vs ns k
  | [], _, _, _ => by simp [mix]
  | some _ :: is, [], ns, k => by simp [mix]
  | some _ :: is, v :: vs, [], k => by simp [mix]
  | some _ :: is, v :: vs, n :: ns, k => by simp [mix, mix_map g is]
  | none :: is, vs, [], k => by simp [mix]
  | none :: is, vs, n :: ns, [] => by simp [mix]
  | none :: is, vs, n :: ns, i :: k => by simp [mix, mix_map g is]

theorem source_mix (b : List Int) : ∀ (is : List (Option (Tensor Int))) (ns k : List Int), ValidIndices is ns → inRange (keep is ns) k = true →
    (∀ t ∈ is.filterMap id, inRange t.sizes (bcIndex t.sizes b) = true) →
    ∃ vs, List.Forall₂ (fun (t : Tensor Int) v => t.elem (bcIndex t.sizes b) = some v) (is.filterMap id) vs ∧ source is ns k b = some (mix is vs ns k) ∧
      inRange ns (mix is vs ns k) = true
  | [], ns, k, _, hk, _ => by
    refine ⟨[], by simp, ?_, ?_⟩
    · simp [source, mix]
    · simpa [mix, keep] using hk
  | none :: is, [], k, hv, _, _ => by simp [ValidIndices] at hv
  | some _ :: is, [], k, hv, _, _ => by simp [ValidIndices] at hv
  | none :: is, n :: ns, [], hv, hk, _ => by simp [keep, inRange] at hk
  | none :: is, n :: ns, i :: k, hv, hk, ht => by
    simp only [keep, inRange, Bool.and_eq_true, decide_eq_true_eq] at hk
    obtain ⟨vs, h1, h2, h3⟩ := source_mix b is ns k hv hk.2 (by simpa using ht)
    refine ⟨vs, by simpa using h1, ?_, ?_⟩
    · simp only [source, h2, mix, Option.map_some]
    · simp only [mix, inRange, Bool.and_eq_true, decide_eq_true_eq]
      exact ⟨hk.1, h3⟩
  | some t :: is, n :: ns, k, hv, hk, ht => by
    simp only [keep] at hk
    simp only [ValidIndices] at hv
    obtain ⟨vs, h1, h2, h3⟩ := source_mix b is ns k hv.2 hk (fun t h => ht t (by simp only [List.filterMap_cons, id, List.mem_cons]; exact Or.inr h))
    obtain ⟨v, e1, e2, e3⟩ := hv.1 _ (ht t (by simp))
    refine ⟨v :: vs, by simpa using ⟨e1, h1⟩, ?_, ?_⟩
    · simp only [source, e1, h2, mix]
    · simp only [mix, inRange, Bool.and_eq_true, decide_eq_true_eq]
      refine ⟨?_, h3⟩
      unfold fromEnd
      by_cases h : 0 ≤ v
      · rw [if_pos h]; omega
      · rw [if_neg h]; omega

theorem makePositive_eq (v n : Int) : makePositive v n = fromEnd v n := by
  unfold makePositive fromEnd
  by_cases h : v < 0
  · rw [if_pos h, if_neg (by omega)]; omega
  · rw [if_neg h, if_pos (by omega)]

theorem mixedIndices_nil (bcRank : Nat) (out : List Int) : ∀ (ns : List Int) (i u : Nat) (k : List Int), k.length = ns.length →
    (∀ j < k.length, out.getD (bcRank + u + j) 0 = k.getD j 0) → mixedIndices bcRank out [] [] ns i u = k
  | [], i, u, k, h, _ => by rw [List.length_eq_zero_iff.1 h]; rfl
  | n :: ns, i, u, [], h, _ => by simp at h
  | n :: ns, i, u, a :: k, h, hk => by
    have h0 := hk 0 (by simp)
    have ih := mixedIndices_nil bcRank out ns (i + 1) (u + 1) k (by simpa using h) (fun j hj => by
      have := hk (j + 1) (by simpa using hj)
      rw [show bcRank + (u + 1) + j = bcRank + u + (j + 1) by omega, this]
      rfl)
    unfold mixedIndices
    rw [ih]
    simp only [Nat.add_zero] at h0
    rw [h0]
    rfl

theorem mixedIndices_eq {A : Type} (bcRank : Nat) (out : List Int) : ∀ (ns : List Int) (is : List (Option A)) (vs k : List Int) (i u : Nat),
    is.length ≤ ns.length → vs.length = (is.filterMap id).length → k.length = (keep is ns).length →
    (∀ j < k.length, out.getD (bcRank + u + j) 0 = k.getD j 0) →
    mixedIndices bcRank out (positions is i) vs ns i u = mix is vs ns k
  | ns, [], vs, k, i, u, _, hv, hk, ho => by
    have : vs = [] := List.length_eq_zero_iff.1 (by simpa using hv)
    subst this
    simp only [positions, mix]
    exact mixedIndices_nil bcRank out ns i u k (by simpa [keep] using hk) ho
  | [], _ :: _, _, _, _, _, h, _, _, _ => by simp at h
  | n :: ns, none :: is, vs, [], i, u, h, hv, hk, ho => by simp [keep] at hk
  | n :: ns, none :: is, vs, a :: k, i, u, h, hv, hk, ho => by
    have h0 := ho 0 (by simp)
    simp only [Nat.add_zero] at h0
    have ih := mixedIndices_eq bcRank out ns is vs k (i + 1) (u + 1) (by simpa using h) (by simpa using hv) (by simpa [keep] using hk)
      (fun j hj => by
        have := ho (j + 1) (by simpa using hj)
        rw [show bcRank + (u + 1) + j = bcRank + u + (j + 1) by omega, this]
        rfl)
    simp only [positions, mix]
    have hl := positions_length is (i + 1)
    have hv' : vs.length = (is.filterMap id).length := by simpa using hv
    cases hp : positions is (i + 1) with
    | nil =>
      rw [hp] at ih hl
      have : vs = [] := List.length_eq_zero_iff.1 (by rw [hv', ← hl]; rfl)
      subst this
      unfold mixedIndices
      rw [ih, h0]
      rfl
    | cons d ds =>
      have hd := positions_ge is (i + 1) d (by rw [hp]; simp)
      cases vs with
      | nil =>
        rw [hp, ← hv'] at hl
        simp at hl
      | cons v vs =>
        rw [hp] at ih
        rw [mixedIndices, if_neg (by omega), ih, h0]
        rfl
  | n :: ns, some t :: is, [], k, i, u, h, hv, hk, ho => by simp at hv
  | n :: ns, some t :: is, v :: vs, k, i, u, h, hv, hk, ho => by
    simp only [positions, mix]
    rw [mixedIndices, if_pos rfl, makePositive_eq]
    rw [mixedIndices_eq bcRank out ns is vs k (i + 1) u (by simpa using h) (by simpa using hv) (by simpa [keep] using hk) ho]

theorem mix_nones {A : Type} : ∀ (b : Nat) (ns k : List Int), b ≤ ns.length → k.length = ns.length → mix (List.replicate b (none : Option A)) [] ns k = k
  | 0, ns, k, _, _ => by simp [mix]
  | b + 1, [], k, h, _ => by simp at h
  | b + 1, n :: ns, [], _, h => by simp at h
  | b + 1, n :: ns, i :: k, h, hk => by
    rw [List.replicate_succ, mix, mix_nones b ns k (by simpa using h) (by simpa using hk)]

theorem mix_somes {A : Type} (b : Nat) : ∀ (ts : List A) (vs ns k : List Int), vs.length = ts.length → ts.length + b ≤ ns.length →
    k.length = ns.length - ts.length →
    mix (ts.map some ++ List.replicate b none) vs ns k = List.zipWith fromEnd vs ns ++ k
  | [], vs, ns, k, hv, h, hk => by
    have : vs = [] := List.length_eq_zero_iff.1 (by simpa using hv)
    subst this
    simpa using mix_nones b ns k (by simpa using h) (by simpa using hk)
  | t :: ts, [], ns, k, hv, h, hk => by simp at hv
  | t :: ts, v :: vs, [], k, hv, h, hk => by simp at h
  | t :: ts, v :: vs, n :: ns, k, hv, h, hk => by
    simp only [List.length_cons] at h hk hv
    simp only [List.map_cons, List.cons_append, mix, List.zipWith_cons_cons]
    rw [mix_somes b ts vs ns k (by omega) (by omega) (by omega)]

theorem mix_adjacent {A : Type} (ts : List A) (b : Nat) : ∀ (f : Nat) (vs ns k : List Int), vs.length = ts.length → f + ts.length + b ≤ ns.length →
    k.length = ns.length - ts.length →
    mix (List.replicate f none ++ ts.map some ++ List.replicate b none) vs ns k = k.take f ++ List.zipWith fromEnd vs (ns.drop f) ++ k.drop f
  | 0, vs, ns, k, hv, h, hk => by simpa using mix_somes b ts vs ns k hv (by omega) hk
  | f + 1, vs, [], k, hv, h, hk => by simp at h
  | f + 1, vs, n :: ns, [], hv, h, hk => by simp only [List.length_cons, List.length_nil] at hk h; omega
  | f + 1, vs, n :: ns, i :: k, hv, h, hk => by
    simp only [List.length_cons] at h hk
    rw [List.replicate_succ, List.cons_append, List.cons_append, mix, mix_adjacent ts b f vs ns k hv (by omega) (by omega)]
    simp

end Verif.Ind
