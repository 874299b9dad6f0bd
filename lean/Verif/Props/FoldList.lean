import Verif.Lemmas.FoldList

/-!
# C74: operators on list literals

A folder or pattern that replaces an operator on a list literal must give what the operator computes from the contents
of the list when it runs.
-/

namespace Verif
open Fold

/-! ## Lists nothing mutates -/

/-- The length. -/
theorem C74_len (g : LCtx) (ρ : V → Int) (σ : V → List Int) (h : LHolds g ρ σ) (l : V) :
    ∀ r, foldLenT g l = r → r = .none ∨ r = .attr (σ l).length := by
  intro r hr
  unfold foldLenT at hr
  cases hf : g.fixed l with
  | none => rw [hf] at hr; exact Or.inl hr.symm
  | some es =>
    rw [hf] at hr
    obtain ⟨h1, h2⟩ := fixed_eq hf
    right
    rw [h.list l es h1 h2, List.length_map]
    exact hr.symm

/-- An element: the index is legal, and the value is the element at it. -/
theorem C74_get (g : LCtx) (ρ : V → Int) (σ : V → List Int) (h : LHolds g ρ σ) (l idx v : V)
    (hv : canonGetitem g l idx = some v) : ∃ i, IsIndex (σ l).length (ρ idx) i ∧ (σ l)[i]? = some (ρ v) := by
  unfold canonGetitem at hv
  cases hf : g.fixed l with
  | none => rw [hf] at hv; cases hv
  | some es =>
    rw [hf] at hv
    dsimp only at hv
    obtain ⟨h1, h2⟩ := fixed_eq hf
    cases hi : legalIndex g idx es.length with
    | none => rw [hi] at hv; cases hv
    | some i =>
      rw [hi] at hv
      dsimp only at hv
      unfold legalIndex at hi
      cases hk : g.k idx with
      | none => rw [hk] at hi; cases hi
      | some d =>
        rw [hk] at hi
        dsimp only at hi
        have hr := h.const idx d hk
        have hi' : i < es.length ∧ (d = i ∨ d = (i : Int) - es.length) := by
          by_cases h0 : d ≥ 0
          · rw [if_pos h0] at hi
            by_cases hb : d ≥ 0 ∧ d < es.length
            · rw [if_pos hb] at hi; injection hi with hi; omega
            · rw [if_neg hb] at hi; cases hi
          · rw [if_neg h0] at hi
            by_cases hb : d + es.length ≥ 0 ∧ d + es.length < es.length
            · rw [if_pos hb] at hi; injection hi with hi; omega
            · rw [if_neg hb] at hi; cases hi
        refine ⟨i, ?_, by rw [h.list l es h1 h2, List.getElem?_map, hv]; rfl⟩
        unfold IsIndex
        rw [h.list l es h1 h2, List.length_map, hr]
        exact hi'

/-- … and every legal constant index is replaced. -/
theorem C74_get_applies (g : LCtx) (ρ : V → Int) (σ : V → List Int) (h : LHolds g ρ σ) (l idx : V) (es : List V)
    (hl : g.fixed l = some es) (hk : (g.k idx).isSome) (i : Nat) (hi : IsIndex (σ l).length (ρ idx) i) :
    canonGetitem g l idx = es[i]? ∧ i < es.length := by
  obtain ⟨h1, h2⟩ := fixed_eq hl
  obtain ⟨d, hd⟩ := Option.isSome_iff_exists.1 hk
  have hr := h.const idx d hd
  unfold IsIndex at hi
  rw [h.list l es h1 h2, List.length_map, hr] at hi
  have : legalIndex g idx es.length = some i := by
    unfold legalIndex
    rw [hd]
    dsimp only
    by_cases h0 : d ≥ 0
    · rw [if_pos h0, if_pos (by omega)]; congr 1; omega
    · rw [if_neg h0, if_pos (by omega)]; congr 1; omega
  refine ⟨?_, hi.1⟩
  unfold canonGetitem
  rw [hl]
  dsimp only
  rw [this]

/-- Membership. -/
theorem C74_contains (g : LCtx) (ρ : V → Int) (σ : V → List Int) (h : LHolds g ρ σ) (l item : V) :
    Tells (ρ item ∈ σ l) (foldContainsInt g l item) := by
  unfold foldContainsInt
  cases hc : g.onlyContains l with
  | false => exact trivial
  | true =>
    rw [show (!true) = false from rfl, if_neg (by decide)]
    cases hk : g.k item with
    | none => exact trivial
    | some x =>
      cases hx : g.constInts l with
      | none => exact trivial
      | some xs =>
        unfold LCtx.constInts at hx
        cases hl : g.list l with
        | none => rw [hl] at hx; cases hx
        | some es =>
          rw [hl] at hx
          have e : σ l = xs := by rw [h.list l es hl (h.contains l hc), mapM_const h.const hx]
          rw [e, h.const item x hk]
          show _ ∨ _
          by_cases hm : x ∈ xs
          · left; exact ⟨by simp [i1, hm], hm⟩
          · right; exact ⟨by simp [i1, hm], hm⟩

/-- `any` of truth values. -/
theorem C74_any (g : LCtx) (β : V → Bool) (σ : V → List Bool) (h : BHolds g β σ) (l : V) :
    Tells (true ∈ σ l) (foldAnyBool g l) := by
  unfold foldAnyBool
  cases hf : g.fixed l with
  | none => exact trivial
  | some es =>
    obtain ⟨h1, h2⟩ := fixed_eq hf
    dsimp only
    split
    · rename_i ha
      left
      refine ⟨rfl, ?_⟩
      obtain ⟨e, he, hb⟩ := List.any_eq_true.1 ha
      rw [h.list l es h1 h2]
      exact List.mem_map.2 ⟨e, he, h.const e true (by simpa using hb)⟩
    · exact trivial

/-- `all` of truth values. -/
theorem C74_all (g : LCtx) (β : V → Bool) (σ : V → List Bool) (h : BHolds g β σ) (l : V) :
    Tells (∀ b ∈ σ l, b = true) (foldAllBool g l) := by
  unfold foldAllBool
  cases hf : g.fixed l with
  | none => exact trivial
  | some es =>
    obtain ⟨h1, h2⟩ := fixed_eq hf
    dsimp only
    cases hr : allBoolLoop g.kb es true with
    | none => exact trivial
    | some b =>
      have := (allBoolLoop_spec h.const es true).1 b hr
      rw [← h.list l es h1 h2] at this
      cases b with
      | true => left; exact ⟨rfl, fun b hb => by simpa using List.all_eq_true.1 this.symm b hb⟩
      | false =>
        right
        refine ⟨rfl, fun hn => ?_⟩
        rw [List.all_eq_true.2 (fun b hb => by simpa using hn b hb)] at this
        cases this

/-- … it is folded whenever all are constants, or one is a constant false. -/
theorem C74_all_applies (g : LCtx) (l : V) (es : List V) (hl : g.fixed l = some es)
    (h : (∀ e ∈ es, (g.kb e).isSome) ∨ ∃ e ∈ es, g.kb e = some false) : ∃ c, foldAllBool g l = .attr c := by
  have hs := allBoolLoop_spec (kb := g.kb) (β := fun v => (g.kb v).getD false) (fun v c e => by simp [e]) es true
  unfold foldAllBool
  rw [hl]
  dsimp only
  rcases h with h | h
  · obtain ⟨b, hb⟩ := Option.isSome_iff_exists.1 (hs.2.1 rfl h)
    exact ⟨_, by rw [hb]⟩
  · exact ⟨_, by rw [hs.2.2 h]⟩

/-- Concatenation. -/
theorem C74_concat (g : LCtx) (ρ : V → Int) (σ : V → List Int) (h : LHolds g ρ σ) (a b : V) :
    Makes ρ (σ a ++ σ b) (canonAddT g a b) := by
  unfold canonAddT
  cases ha : g.fixed a with
  | none => exact trivial
  | some es =>
    cases hb : g.fixed b with
    | none => exact trivial
    | some fs =>
      show (es ++ fs).map ρ = _
      rw [List.map_append, h.list a es (fixed_eq ha).1 (fixed_eq ha).2, h.list b fs (fixed_eq hb).1 (fixed_eq hb).2]

/-- Repetition: negative numbers of repetitions give the empty list. -/
theorem C74_repeat (g : LCtx) (ρ : V → Int) (σ : V → List Int) (h : LHolds g ρ σ) (l n : V) :
    Makes ρ (List.replicate (ρ n).toNat (σ l)).flatten (canonMulLeftT g l n) := by
  unfold canonMulLeftT
  cases hl : g.fixed l with
  | none => exact trivial
  | some es =>
    cases hn : g.k n with
    | none => exact trivial
    | some c =>
      show (repeatLoop es c.toNat).map ρ = _
      rw [repeatLoop_map, h.list l es (fixed_eq hl).1 (fixed_eq hl).2, h.const n c hn]

theorem bound_get {g : LCtx} {ρ : V → Int} {σ : V → List Int} (h : LHolds g ρ σ) {b : Bound} {d x : Int}
    (hb : b.get g d = some x) : (b.denotes ρ = none ∧ x = d) ∨ b.denotes ρ = some x := by
  cases b with
  | none => left; exact ⟨rfl, by simpa [Bound.get] using hb.symm⟩
  | value v => right; show some (ρ v) = _; rw [h.const v x hb]

/-- Slices with a positive step, of lists that are not empty. -/
theorem C74_slice_partial (g : LCtx) (ρ : V → Int) (σ : V → List Int) (h : LHolds g ρ σ) (l step : V)
    (start end_ : Bound) (hs : 0 < ρ step) (hne : σ l ≠ []) :
    Makes ρ (sliceOf (σ l) (start.denotes ρ) (end_.denotes ρ) (ρ step)) (canonSliceT g l start end_ step) := by
  unfold canonSliceT
  cases hl : g.fixed l with
  | none => exact trivial
  | some es =>
    dsimp only
    cases ha : start.get g 0 with
    | none => exact trivial
    | some s =>
      cases hb : end_.get g es.length with
      | none => exact trivial
      | some e =>
        cases hk : g.k step with
        | none => exact trivial
        | some st =>
          dsimp only
          have hst := h.const step st hk
          have hσ := h.list l es (fixed_eq hl).1 (fixed_eq hl).2
          have hn : es.length ≠ 0 := by
            intro e0
            exact hne (by rw [hσ, List.length_eq_zero_iff.1 e0]; rfl)
          rw [sliceLoop_eq es _ _ _ (sliceStart_nonneg _ _) (sliceEnd_le _ _) (by omega)]
          dsimp only
          rw [if_neg hn]
          show List.map ρ _ = _
          unfold sliceOf
          rw [hσ, filterMap_map, List.length_map, hst]
          congr 2
          apply List.filter_congr
          intro j hj
          have hj := List.mem_range.1 hj
          simp only [from_, Shape.selected, decide_eq_decide]
          have hE : (j : Int) < sliceEnd es.length e ↔
              (j : Int) < (end_.denotes ρ).elim (es.length : Int) (Shape.position es.length) := by
            rcases bound_get h hb with ⟨h2, rfl⟩ | h2
            · rw [h2, lt_sliceEnd]; simp only [Option.elim, Shape.position]; split <;> omega
            · rw [h2, lt_sliceEnd]; rfl
          have hS : sliceStart es.length s = (start.denotes ρ).elim 0 (Shape.position es.length) ∨
              (es.length : Int) ≤ sliceStart es.length s ∧
                (es.length : Int) ≤ (start.denotes ρ).elim 0 (Shape.position es.length) := by
            rcases bound_get h ha with ⟨h2, rfl⟩ | h2
            · rw [h2]; left; rfl
            · rw [h2]; exact sliceStart_position _ _
          rw [hE]
          rcases hS with hS | hS
          · rw [hS]
          · constructor
            · rintro ⟨a1, _⟩; omega
            · rintro ⟨a1, _⟩; omega

/-! ## Violations -/

/-- Values 0, 1, 2 are the constants 10, 20, 30; values 3 to 6 are the constants 2, 0, -1 and 1; value 8 is the list
`[v0, v1, v2]`, value 9 the list `[v0, v1]`, value 10 the empty list, and value 11 is `[v0, v1, v2]`, mutated before the
operator. -/
def listCtx : LCtx where
  k := fun v => [some 10, some 20, some 30, some 2, some 0, some (-1), some 1][v]?.join
  kb := fun _ => none
  list := fun v => if v = 8 ∨ v = 11 then some [0, 1, 2] else if v = 9 then some [0, 1] else if v = 10 then some []
    else none
  mutated := fun v => v == 11
  onlyContains := fun v => v == 9

/-- The integers of an execution. -/
def listRho : V → Int := fun v => [10, 20, 30, 2, 0, -1, 1][v]?.getD 0

/-- The contents of the lists: `5` was appended to list 11. -/
def listSigma : V → List Int := fun v =>
  if v = 8 then [10, 20, 30] else if v = 9 then [10, 20] else if v = 11 then [10, 20, 30, 5] else []

theorem listHolds : LHolds listCtx listRho listSigma := by
  refine ⟨fun v c hc => ?_, fun l es hl hm => ?_, fun l hl => ?_⟩
  · by_cases hv : v < 7
    · have : v = 0 ∨ v = 1 ∨ v = 2 ∨ v = 3 ∨ v = 4 ∨ v = 5 ∨ v = 6 := by
        revert hv; show (v : Nat) < 7 → _; intro hv
        have : ∀ n : Nat, n < 7 → n = 0 ∨ n = 1 ∨ n = 2 ∨ n = 3 ∨ n = 4 ∨ n = 5 ∨ n = 6 := by omega
        exact this v hv
      rcases this with rfl | rfl | rfl | rfl | rfl | rfl | rfl <;>
        first | (simp [listCtx] at hc; subst hc; rfl)
    · have : ([some 10, some 20, some 30, some 2, some 0, some (-1), some 1] : List (Option Int))[v]? = none :=
        List.getElem?_eq_none (by simpa using Nat.le_of_not_lt hv)
      rw [listCtx] at hc
      simp only [this] at hc
      cases hc
  · simp only [listCtx] at hl hm
    split at hl
    · rename_i h
      injection hl with hl
      rcases h with rfl | rfl
      · rw [← hl]; rfl
      · simp at hm
    · split at hl
      · rename_i h; subst h; injection hl with hl; rw [← hl]; rfl
      · split at hl
        · rename_i h; subst h; injection hl with hl; rw [← hl]; rfl
        · cases hl
  · simp only [listCtx, beq_iff_eq] at hl ⊢
    subst hl
    rfl

/-- A slice with a negative step: Python gives `[30, 20]`, the pattern the empty list (and undefined behaviour when the
start is before the end); slicing the empty list is undefined behaviour. -/
theorem C74_slice_violated :
    ∃ (g : LCtx) (ρ : V → Int) (σ : V → List Int), LHolds g ρ σ ∧
      (canonSliceT g 8 (.value 3) (.value 4) 5 = .list [] ∧ sliceDownOf (σ 8) (ρ 3) (ρ 4) (ρ 5) = [30, 20]) ∧
      canonSliceT g 8 (.value 4) (.value 3) 5 = .undef ∧
      canonSliceT g 10 .none .none 6 = .undef := by
  refine ⟨listCtx, listRho, listSigma, listHolds, ⟨?_, ?_⟩, ?_, ?_⟩
  · simp [canonSliceT, LCtx.fixed, listCtx, Bound.get, sliceStart, sliceEnd, sliceLoop]
  · decide +kernel
  · simp [canonSliceT, LCtx.fixed, listCtx, Bound.get, sliceStart, sliceEnd, sliceLoop]
  · simp [canonSliceT, LCtx.fixed, listCtx, Bound.get, sliceStart, sliceEnd, sliceLoop]

/-- Equality of lists, neither of which is mutated. -/
theorem C74_eq_partial (g : LCtx) (ρ : V → Int) (σ : V → List Int) (h : LHolds g ρ σ) (a b : V)
    (ha : g.mutated a = false) (hb : g.mutated b = false) : Tells (σ a = σ b) (foldEqIntList g a b) := by
  unfold foldEqIntList
  cases hl : g.list a with
  | none => exact trivial
  | some es =>
    cases hr : g.list b with
    | none => exact trivial
    | some fs =>
      dsimp only
      rw [h.list a es hl ha, h.list b fs hr hb]
      split
      · rename_i hn
        right
        exact ⟨rfl, fun e => hn (by simpa using congrArg List.length e)⟩
      · rename_i hn
        split
        · rename_i hall
          left
          refine ⟨rfl, ?_⟩
          have : es = fs := by
            apply List.ext_getElem (by omega)
            intro i h1 h2
            have := List.all_eq_true.1 hall (es[i], fs[i]) (by
              rw [List.mem_iff_getElem]
              exact ⟨i, by simp; omega, by simp⟩)
            simpa using this
          rw [this]
        · exact trivial

/-- Nothing asks whether they are mutated: two literals with the same elements, one of which has had an element appended,
are told to be equal. -/
theorem C74_eq_violated :
    ∃ (g : LCtx) (ρ : V → Int) (σ : V → List Int), LHolds g ρ σ ∧ ¬Tells (σ 8 = σ 11) (foldEqIntList g 8 11) := by
  refine ⟨listCtx, listRho, listSigma, listHolds, ?_⟩
  have e : foldEqIntList listCtx 8 11 = .attr 1 := by decide +kernel
  rw [e]
  rintro (⟨_, h⟩ | ⟨h, _⟩)
  · revert h; decide +kernel
  · cases h

/-- The least element of a list that is not mutated. -/
theorem C74_min_partial (g : LCtx) (ρ : V → Int) (σ : V → List Int) (h : LHolds g ρ σ) (l : V)
    (hm : g.mutated l = false) :
    foldMinSelf g l = .none ∨ ∃ c, foldMinSelf g l = .attr c ∧ c ∈ σ l ∧ ∀ x ∈ σ l, c ≤ x := by
  unfold foldMinSelf
  cases hl : g.list l with
  | none => exact Or.inl rfl
  | some es =>
    dsimp only
    split
    · exact Or.inl rfl
    · rename_i hn
      cases hx : g.consts es with
      | none => exact Or.inl rfl
      | some xs =>
        right
        have e : σ l = xs := by rw [h.list l es hl hm]; exact (mapM_const h.const hx).symm
        have hlen : xs.length = es.length := by rw [← e, h.list l es hl hm, List.length_map]
        cases xs with
        | nil => exact absurd hlen.symm hn
        | cons x xs =>
          obtain ⟨h1, h2⟩ := minElement_spec x xs
          exact ⟨_, rfl, by rw [e]; exact h1, by rw [e]; exact h2⟩

/-- Nothing asks whether it is mutated: `5` was appended to `[10, 20, 30]`, and the least element is said to be 10. -/
theorem C74_min_violated :
    ∃ (g : LCtx) (ρ : V → Int) (σ : V → List Int), LHolds g ρ σ ∧ foldMinSelf g 11 = .attr 10 ∧ 5 ∈ σ 11 := by
  refine ⟨listCtx, listRho, listSigma, listHolds, ?_, ?_⟩ <;> decide +kernel

/-! ## Cases -/

example : foldLenT listCtx 8 = .attr 3 ∧ foldLenT listCtx 11 = .none := by decide +kernel
example : canonGetitem listCtx 8 3 = some 2 ∧ canonGetitem listCtx 8 5 = some 2 ∧ canonGetitem listCtx 8 0 = none := by
  decide +kernel
example : foldContainsInt listCtx 9 1 = .attr 1 ∧ foldContainsInt listCtx 9 2 = .attr 0 ∧ foldContainsInt listCtx 8 1 = .none := by
  decide +kernel
example : canonAddT listCtx 8 9 = .list [0, 1, 2, 0, 1] := by decide +kernel
example : canonMulLeftT listCtx 9 3 = .list [0, 1, 0, 1] ∧ canonMulLeftT listCtx 9 5 = .list [] := by decide +kernel
example : canonSliceT listCtx 8 .none .none 3 = .list [0, 2] := by
  simp [canonSliceT, LCtx.fixed, listCtx, Bound.get, sliceStart, sliceEnd, sliceLoop]
example : sliceOf (listSigma 8) none none 2 = [10, 30] := by decide +kernel
example : foldMinSelf listCtx 8 = .attr 10 := by decide +kernel
example : foldEqIntList listCtx 8 8 = .attr 1 ∧ foldEqIntList listCtx 8 9 = .attr 0 := by decide +kernel
example : foldAllBool { listCtx with kb := fun v => some (v == 0) } 8 = .attr 0
    ∧ foldAnyBool { listCtx with kb := fun v => some (v == 0) } 8 = .attr 1 := by decide +kernel

end Verif
