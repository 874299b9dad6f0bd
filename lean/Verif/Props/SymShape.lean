import Verif.Props.SymExpr
import Mathlib.Tactic.Tauto

/-!
# C16, C17: symbolic ranges and symbolic shape bindings

C17: in each emitted symbolic-shape binding, substituting the listed symbol operands into the affine
map's positional symbols gives, for each dimension, the value of that dimension's expression.

C16: the integer range emitted for a symbol contains every integer the tracer's range constraint
allows (infinite bounds becoming the int64 extremes).
-/

namespace Verif

open SymExpr

namespace SymExpr

theorem keyOrder_nodup {l seen : List String} (h : (seen ++ l).Nodup) :
    keyOrder l seen = seen ++ l := by
  induction l generalizing seen with
  | nil => simp [keyOrder]
  | cons k ks ih =>
    have hk : k ∉ seen := by
      intro hm
      have := (List.nodup_append.mp h).2.2 k hm k (by simp)
      exact this rfl
    unfold keyOrder
    rw [if_neg hk, ih (by simpa using h)]
    simp

theorem mem_keyOrder {l seen : List String} {k : String} :
    k ∈ keyOrder l seen ↔ k ∈ seen ∨ k ∈ l := by
  induction l generalizing seen with
  | nil => simp [keyOrder]
  | cons x xs ih =>
    unfold keyOrder
    split
    · rename_i hx
      rw [ih]
      constructor
      · rintro (h | h)
        · exact Or.inl h
        · exact Or.inr (List.mem_cons_of_mem _ h)
      · rintro (h | h)
        · exact Or.inl h
        · rcases List.mem_cons.mp h with rfl | h
          · exact Or.inl hx
          · exact Or.inr h
    · rw [ih]
      simp only [List.mem_append, List.mem_singleton, List.mem_cons]
      tauto

theorem nodup_keyOrder {l seen : List String} (h : seen.Nodup) : (keyOrder l seen).Nodup := by
  induction l generalizing seen with
  | nil => simpa [keyOrder] using h
  | cons x xs ih =>
    unfold keyOrder
    split
    · exact ih h
    · rename_i hx
      apply ih
      rw [List.nodup_append]
      refine ⟨h, by simp, ?_⟩
      intro a ha b hb
      simp at hb
      rintro rfl
      exact hx (hb ▸ ha)

theorem symbolsMap_get {l : List Symbol} {i j : Nat} {d : List (String × Nat)} {n : String}
    (h : dictGet (symbolsMap l i d) n = some j) :
    (∃ k s, j = i + k ∧ l[k]? = some s ∧ s.name = n) ∨ dictGet d n = some j := by
  induction l generalizing i d with
  | nil => exact Or.inr h
  | cons s ss ih =>
    rcases ih h with ⟨k, t, hj, ht, hn⟩ | h'
    · exact Or.inl ⟨k + 1, t, by omega, by simpa using ht, hn⟩
    · rw [dictGet_set] at h'
      split at h'
      · cases h'
        exact Or.inl ⟨0, s, rfl, rfl, ‹_›⟩
      · exact Or.inr h'

theorem symbolsMap_mem {l : List Symbol} {i : Nat} {d : List (String × Nat)} {n : String}
    (h : (∃ s ∈ l, s.name = n) ∨ ∃ j, dictGet d n = some j) :
    ∃ j, dictGet (symbolsMap l i d) n = some j := by
  induction l generalizing i d with
  | nil =>
    rcases h with ⟨s, hs, -⟩ | h
    · cases hs
    · exact h
  | cons s ss ih =>
    apply ih
    by_cases hn : s.name = n
    · exact Or.inr ⟨i, by simp [dictGet_set, hn]⟩
    · rcases h with ⟨t, ht, htn⟩ | ⟨j, hj⟩
      · rcases List.mem_cons.mp ht with rfl | ht
        · exact absurd htn hn
        · exact Or.inl ⟨t, ht, htn⟩
      · exact Or.inr ⟨j, by simp [dictGet_set, hn, hj]⟩

theorem affineExprs_forall {m : List (String × Nat)} {l : List Sym} {as : List Aff}
    (h : affineExprs m l = .ok as) :
    as.length = l.length ∧ ∀ (k : Nat) (e : Sym) (a : Aff), l[k]? = some e → as[k]? = some a → toAffine m e = .ok a := by
  induction l generalizing as with
  | nil =>
    unfold affineExprs at h
    cases h
    exact ⟨rfl, by simp⟩
  | cons x xs ih =>
    unfold affineExprs at h
    split at h
    · cases h
    · rename_i a ha
      split at h
      · cases h
      · rename_i as' has
        cases h
        obtain ⟨hl, hall⟩ := ih has
        refine ⟨by simp [hl], ?_⟩
        intro k e b he hb
        cases k with
        | zero => simp at he hb; subst he hb; exact ha
        | succ k => exact hall k e b (by simpa using he) (by simpa using hb)

theorem affineExprs_ok {m : List (String × Nat)} {l : List Sym}
    (h : ∀ e ∈ l, Supported (fun n => ∃ i, dictGet m n = some i) e) :
    ∃ as, affineExprs m l = .ok as := by
  induction l with
  | nil => exact ⟨[], rfl⟩
  | cons x xs ih =>
    obtain ⟨a, ha⟩ := (h x (by simp)).toAffine
    obtain ⟨as, has⟩ := ih (fun e he => h e (List.mem_cons_of_mem _ he))
    exact ⟨a :: as, by simp [affineExprs, ha, has]⟩

abbrev sortSyms (set : List Symbol) : List Symbol :=
  sortBy (fun a b : Symbol => decide (a.name ≤ b.name)) set

theorem nodup_sorted {set : List Symbol} (h : (set.map Symbol.name).Nodup) :
    ((sortSyms set).map Symbol.name).Nodup :=
  ((sortBy_perm set).map Symbol.name).nodup_iff.mpr h

end SymExpr

/-- The binding of a shape whose free symbols have distinct names: as many operands as map symbols,
one result per dimension, and, whatever values the operands have at run time, each result is worth
its dimension's expression.  `set` is the Python set in any iteration order. -/
theorem C17_partial (opq : Sym → Rat) (bound : String → Bool) (set : List Symbol) (dims : List Sym)
    (op : BindOp) (h : bindShape bound set dims = .ok op)
    (hfree : ∀ e ∈ dims, ∀ s ∈ e.free, s ∈ set) (hnames : (set.map Symbol.name).Nodup) :
    op.numSymbols = op.operands.length ∧ op.results.length = dims.length ∧
    (∀ n, n ∈ op.operands ↔ ∃ s ∈ set, s.name = n) ∧
    ∀ (ρ : Symbol → Int) (σ : Nat → Int),
      (∀ (i : Nat) (n : String), op.operands[i]? = some n → ∀ s ∈ set, s.name = n → σ i = ρ s) →
      ∀ (k : Nat) (e : Sym) (a : Aff), dims[k]? = some e → op.results[k]? = some a →
        (∀ v, a.value σ = some v → (v : Rat) = e.value opq ρ) ∧
        (e.ModsOk opq ρ → ∃ v, a.value σ = some v) := by
  unfold bindShape at h
  dsimp only at h
  split at h
  · cases h
  · rename_i as has
    split at h
    · cases h
      have hk := keyOrder_nodup (l := (sortSyms set).map Symbol.name) (seen := [])
        (by simpa using nodup_sorted hnames)
      dsimp only
      rw [hk]
      obtain ⟨hl, hall⟩ := affineExprs_forall has
      refine ⟨by simp, hl, ?_, ?_⟩
      · intro n
        simp only [List.nil_append, List.mem_map, mem_sortBy]
      · intro ρ σ hσ k e a he ha
        have haff := hall k e a he ha
        have hag : Agree (symbolsMap (sortSyms set) 0 []) σ ρ e.free := by
          intro s hs i hi
          rcases symbolsMap_get hi with ⟨j, t, hj, ht, hn⟩ | h'
          · have hs' := hfree e (List.mem_of_getElem? he) s hs
            apply hσ i s.name _ s hs' rfl
            simp [hj, ht, hn]
          · simp at h'
        exact ⟨fun v hv => toAffine_value e hag haff hv, fun hm => toAffine_defined e hag haff hm⟩
    · cases h

/-- The binding is created whenever the dimensions are in the supported fragment and the symbols are
in the importer's symbol table. -/
theorem C17_created (bound : String → Bool) (set : List Symbol) (dims : List Sym)
    (hsup : ∀ e ∈ dims, Supported (fun n => ∃ s ∈ set, s.name = n) e)
    (hbound : ∀ s ∈ set, bound s.name = true) : ∃ op, bindShape bound set dims = .ok op := by
  have hm : (fun n => ∃ i, dictGet (symbolsMap (sortSyms set) 0 []) n = some i) =
      (fun n => ∃ s ∈ set, s.name = n) := by
    funext n
    apply propext
    constructor
    · rintro ⟨i, hi⟩
      rcases symbolsMap_get hi with ⟨j, t, -, ht, hn⟩ | h'
      · exact ⟨t, mem_sortBy.mp (List.mem_of_getElem? ht), hn⟩
      · simp at h'
    · rintro ⟨s, hs, hn⟩
      exact symbolsMap_mem (Or.inl ⟨s, mem_sortBy.mpr hs, hn⟩)
  obtain ⟨as, has⟩ := affineExprs_ok (m := symbolsMap (sortSyms set) 0 []) (l := dims)
    (by rw [hm]; exact hsup)
  refine ⟨⟨(sortSyms set).length, as, keyOrder ((sortSyms set).map Symbol.name) []⟩, ?_⟩
  unfold bindShape
  dsimp only
  rw [has]
  dsimp only
  rw [if_pos]
  rw [List.all_eq_true]
  intro n hn
  rcases mem_keyOrder.mp hn with h | h
  · cases h
  · obtain ⟨s, hs, rfl⟩ := List.mem_map.mp h
    exact hbound s (mem_sortBy.mp hs)

/-- Two different sympy symbols of the same name: the map has two symbols and one operand. -/
theorem C17_violated : ∃ (set : List Symbol) (dims : List Sym) (op : BindOp),
    (∀ s, s ∈ set ↔ ∃ e ∈ dims, s ∈ e.free) ∧ set.Nodup ∧
    bindShape (fun _ => true) set dims = .ok op ∧ op.numSymbols ≠ op.operands.length := by
  refine ⟨[⟨"s0", 0⟩, ⟨"s0", 1⟩], [.sym ⟨"s0", 0⟩, .sym ⟨"s0", 1⟩],
    ⟨2, [.sym 1, .sym 1], ["s0"]⟩, ?_, by decide, by decide +kernel, by decide⟩
  intro s
  simp [Sym.free]

open SymExprDemo in
/-- Shape `[s1, s0*2, 4]`, the set iterated with `s1` first: the operands are sorted by name. -/
example : bindShape (fun n => n == "s0" || n == "s1") [s1, s0]
      [.sym s1, .mul [.sym s0, .int 2], .int 4] =
    .ok ⟨2, [.sym 1, .mul (.mul (.const 1) (.sym 0)) (.const 2), .const 4], ["s0", "s1"]⟩ := by
  decide +kernel

/-! ## C16 -/

namespace SymExpr

theorem guardOf_contains {r : Range} {g : Guard} (h : guardOf r = .ok g) {n : Int}
    (hn : IsInt64 n) (ha : r.allows n) : g.minVal ≤ n ∧ n ≤ g.maxVal := by
  unfold guardOf at h
  split at h
  · cases h
  · rename_i lo hlo
    split at h
    · cases h
    · rename_i hi hhi
      cases h
      obtain ⟨h1, h2⟩ := ha
      constructor
      · show lo ≤ n
        cases hb : r.lower <;> rw [hb] at hlo h1 <;> simp only [symInt, Bound.below] at hlo h1
        · cases hlo; exact h1
        · cases hlo; exact Rat.ceil_le_iff.mpr h1
        · cases hlo; exact hn.1
        · cases hlo; exact hn.1
      · show n ≤ hi
        cases hb : r.upper <;> rw [hb] at hhi h2 <;> simp only [symInt, Bound.above] at hhi h2
        · cases hhi; exact h2
        · cases hhi; exact Int.le_floor.mpr h2
        · cases hhi; exact hn.2
        · cases hhi; exact hn.2

theorem guardOf_tight {r : Range} {g : Guard} (h : guardOf r = .ok g) (hp : r.Proper) {n : Int}
    (hn : g.minVal ≤ n ∧ n ≤ g.maxVal) : r.allows n := by
  unfold guardOf at h
  split at h
  · cases h
  · rename_i lo hlo
    split at h
    · cases h
    · rename_i hi hhi
      cases h
      obtain ⟨p1, p2, p3, p4⟩ := hp
      obtain ⟨h1, h2⟩ := hn
      dsimp only at h1 h2
      constructor
      · cases hb : r.lower <;> rw [hb] at hlo p1 p2 <;> simp only [symInt, Bound.below] at hlo ⊢
        · cases hlo; exact h1
        · cases hlo; exact Rat.ceil_le_iff.mp h1
        · exact absurd rfl p1
        · exact absurd rfl p2
        · cases hlo
      · cases hb : r.upper <;> rw [hb] at hhi p3 p4 <;> simp only [symInt, Bound.above] at hhi ⊢
        · cases hhi; exact h2
        · cases hhi; exact Int.le_floor.mp h2
        · exact absurd rfl p3
        · exact absurd rfl p4
        · cases hhi

theorem guardsOf_get {l : List (Symbol × Range)} {d d' : List (String × Guard)}
    (h : guardsOf l d = .ok d') {k : String} {g : Guard} (hg : dictGet d' k = some g) :
    (∃ s r, (s, r) ∈ l ∧ s.name = k ∧ guardOf r = .ok g) ∨ dictGet d k = some g := by
  induction l generalizing d with
  | nil => cases h; exact Or.inr hg
  | cons x xs ih =>
    obtain ⟨s, r⟩ := x
    unfold guardsOf at h
    split at h
    · cases h
    · rename_i g' hg'
      rcases ih h with ⟨s', r', hm, hn, hr⟩ | h'
      · exact Or.inl ⟨s', r', List.mem_cons_of_mem _ hm, hn, hr⟩
      · rw [dictGet_set] at h'
        split at h'
        · cases h'
          exact Or.inl ⟨s, r, by simp, ‹_›, hg'⟩
        · exact Or.inr h'

theorem guardsOf_keys {l : List (Symbol × Range)} {d d' : List (String × Guard)}
    (h : guardsOf l d = .ok d') :
    d'.map Prod.fst = (l.map (fun x => x.1.name)).reverse ++ d.map Prod.fst := by
  induction l generalizing d with
  | nil => cases h; rfl
  | cons x xs ih =>
    obtain ⟨s, r⟩ := x
    unfold guardsOf at h
    split at h
    · cases h
    · rw [ih h]; simp [dictSet]

theorem symbolicInts_spec {d : List (String × Guard)} {ks : List String} {ops : List SymbolicInt}
    (h : symbolicInts d ks = .ok ops) :
    ops.map SymbolicInt.name = ks ∧ ∀ op ∈ ops, dictGet d op.name = some ⟨op.minVal, op.maxVal⟩ ∧
      IsInt64 op.minVal ∧ IsInt64 op.maxVal := by
  induction ks generalizing ops with
  | nil => cases h; exact ⟨rfl, by simp⟩
  | cons k ks ih =>
    unfold symbolicInts at h
    split at h
    · cases h
    · rename_i g hg
      split at h
      · rename_i hf
        rw [Bool.and_eq_true, fitsInt64_iff, fitsInt64_iff] at hf
        split at h
        · cases h
        · rename_i ops' hops
          cases h
          obtain ⟨h1, h2⟩ := ih hops
          refine ⟨by simp [h1], ?_⟩
          intro op hop
          rcases List.mem_cons.mp hop with rfl | hop
          · exact ⟨hg, hf⟩
          · exact h2 op hop
      · cases h

end SymExpr

/-- The ranges emitted for a program when the importer is fresh or the program has an integer range.
Every operation belongs to a range constraint of the program, and its interval holds every int64 that
constraint allows. -/
theorem C16_partial (old guards : List (String × Guard)) (ranges : List (Symbol × Range))
    (ops : List SymbolicInt) (h : importRanges old ranges = .ok (ops, guards))
    (hnames : (ranges.map (fun x => x.1.name)).Nodup)
    (hfresh : old = [] ∨ ∃ x ∈ ranges, x.2.isInt = true) :
    ∀ op ∈ ops, ∃ s r, (s, r) ∈ ranges ∧ s.name = op.name ∧
      ∀ s' r', (s', r') ∈ ranges → s'.name = op.name →
        (∀ n, IsInt64 n → r'.allows n → op.minVal ≤ n ∧ n ≤ op.maxVal) ∧
        (r'.Proper → ∀ n, op.minVal ≤ n → n ≤ op.maxVal → r'.allows n) := by
  intro op hop
  unfold importRanges at h
  split at h
  · cases h
  · rename_i d hd
    split at h
    · cases h
    · rename_i ops' hops
      cases h
      obtain ⟨-, hspec⟩ := symbolicInts_spec hops
      obtain ⟨hg, -⟩ := hspec op hop
      unfold setGuards at hd
      split at hd
      · rcases guardsOf_get hd hg with ⟨s, r, hm, hn, hr⟩ | h'
        · refine ⟨s, r, hm, hn, ?_⟩
          intro s' r' hm' hn'
          have hinj := (List.inj_on_of_nodup_map hnames) hm hm' (by simp [hn, hn'])
          cases hinj
          exact ⟨fun n h64 ha => guardOf_contains hr h64 ha,
            fun hp n h1 h2 => guardOf_tight hr hp ⟨h1, h2⟩⟩
        · simp at h'
      · rename_i hnone
        rcases hfresh with rfl | ⟨x, hx, hxi⟩
        · cases hd
          simp at hg
        · exact absurd (List.any_eq_true.mpr ⟨x, hx, hxi⟩) hnone

/-- With an integer range in the program, every constrained symbol gets exactly one operation, in the
order of the constraints. -/
theorem C16_complete (old guards : List (String × Guard)) (ranges : List (Symbol × Range))
    (ops : List SymbolicInt) (h : importRanges old ranges = .ok (ops, guards))
    (hnames : (ranges.map (fun x => x.1.name)).Nodup)
    (hint : ∃ x ∈ ranges, x.2.isInt = true) :
    ops.map SymbolicInt.name = ranges.map (fun x => x.1.name) := by
  unfold importRanges at h
  split at h
  · cases h
  · rename_i d hd
    split at h
    · cases h
    · rename_i ops' hops
      cases h
      obtain ⟨hk, -⟩ := symbolicInts_spec hops
      rw [hk]
      unfold setGuards at hd
      obtain ⟨x, hx, hxi⟩ := hint
      rw [if_pos (List.any_eq_true.mpr ⟨x, hx, hxi⟩)] at hd
      have hkeys := guardsOf_keys hd
      unfold keysOf
      rw [List.map_reverse, hkeys]
      simp only [List.map_nil, List.append_nil, List.reverse_reverse]
      rw [keyOrder_nodup (by simpa using hnames)]
      rfl

/-- The guards of an earlier program survive: the second program imported by the same importer allows
`s0 = 100` (its upper bound is `sympy.oo`), but the range emitted is the first program's `[2, 10]`. -/
theorem C16_violated :
    ∃ (first second : List (Symbol × Range)) (ops₁ ops₂ : List SymbolicInt)
      (d₁ d₂ : List (String × Guard)) (op : SymbolicInt) (s : Symbol) (r : Range) (n : Int),
      importRanges [] first = .ok (ops₁, d₁) ∧ importRanges d₁ second = .ok (ops₂, d₂) ∧
      op ∈ ops₂ ∧ (s, r) ∈ second ∧ s.name = op.name ∧ IsInt64 n ∧ r.allows n ∧
      ¬ (op.minVal ≤ n ∧ n ≤ op.maxVal) := by
  refine ⟨[(⟨"s0", 0⟩, ⟨.int 2, .int 10, false⟩)], [(⟨"s0", 0⟩, ⟨.int 2, .oo, false⟩)],
    [⟨"s0", 2, 10⟩], [⟨"s0", 2, 10⟩], [("s0", ⟨2, 10⟩)], [("s0", ⟨2, 10⟩)], ⟨"s0", 2, 10⟩,
    ⟨"s0", 0⟩, ⟨.int 2, .oo, false⟩, 100, by decide +kernel, by decide +kernel, by simp, by simp, rfl,
    ⟨by decide, by decide⟩, ⟨?_, ?_⟩, by decide⟩
  · show (2 : Int) ≤ 100
    decide
  · trivial

/-- `s0 ∈ [2, int_oo]` and `s1 ∈ [3/2, 17/2]`: the fractional range becomes `[2, 8]`. -/
example : importRanges [] [(⟨"s0", 0⟩, ⟨.int 2, .intOo, false⟩),
      (⟨"s1", 0⟩, ⟨.rat (mkRat 3 2), .rat (mkRat 17 2), false⟩)] =
    .ok ([⟨"s0", 2, 9223372036854775807⟩, ⟨"s1", 2, 8⟩],
      [("s1", ⟨2, 8⟩), ("s0", ⟨2, 9223372036854775807⟩)]) := by decide +kernel

end Verif
