import Verif.Spec.TmTensor
import Mathlib.Data.List.InsertIdx
import Mathlib.Data.List.Nodup
import Mathlib.Tactic.Ring

namespace Verif.Tm

/-! ## The loop nest -/

theorem loops_box {S : Type} (body : List Nat → S → S) : ∀ (ns ivs : List Nat) (s : S),
    loops body ns ivs s = (box ns).foldl (fun s j => body (ivs ++ j) s) s
  | [], ivs, s => by simp [loops, box]
  | n :: ns, ivs, s => by
    rw [loops, box, List.foldl_flatMap]
    congr 1
    funext s i
    rw [loops_box body ns, List.foldl_map]
    simp

theorem lower_box {S : Type} (sizes : List Nat) (body : List Nat → S → S) (s : S) :
    lower sizes body s = (box sizes).foldl (fun s j => body j s) s := by
  rw [lower, loops_box]; rfl

theorem mem_box : ∀ {sizes idx : List Nat}, idx ∈ box sizes ↔ InBox sizes idx
  | [], idx => by
    rw [box, List.mem_singleton, InBox, List.forall₂_nil_right_iff]
  | n :: ns, idx => by
    rw [box, List.mem_flatMap, InBox]
    constructor
    · rintro ⟨i, hi, h⟩
      obtain ⟨j, hj, rfl⟩ := List.mem_map.1 h
      exact .cons (List.mem_range.1 hi) (mem_box.1 hj)
    · intro h
      cases h with
      | cons h1 h2 => exact ⟨_, List.mem_range.2 h1, List.mem_map.2 ⟨_, mem_box.2 h2, rfl⟩⟩

theorem InBox.length {sizes idx : List Nat} (h : InBox sizes idx) : idx.length = sizes.length := List.Forall₂.length_eq h

theorem box_nodup : ∀ sizes : List Nat, (box sizes).Nodup
  | [] => by simp [box]
  | n :: ns => by
    rw [box, List.nodup_flatMap]
    refine ⟨fun i _ => (box_nodup ns).map fun a b h => (List.cons.inj h).2, ?_⟩
    refine List.Pairwise.imp_of_mem ?_ List.nodup_range
    intro a b _ _ hab x hx hy
    obtain ⟨j, _, rfl⟩ := List.mem_map.1 hx
    obtain ⟨k, _, h⟩ := List.mem_map.1 hy
    exact hab (List.cons.inj h).1.symm

theorem filter_eq_self {L : List (List Nat)} (h : L.Nodup) {o : List Nat} (ho : o ∈ L) :
    L.filter (fun j => decide (j = o)) = [o] := by
  induction L with
  | nil => simp at ho
  | cons a L ih =>
    obtain ⟨h1, h2⟩ := List.nodup_cons.1 h
    rw [List.filter_cons]
    by_cases e : a = o
    · subst e
      rw [if_pos (by simp), List.filter_eq_nil_iff.2 (fun b hb => by simp; rintro rfl; exact h1 hb)]
    · rw [if_neg (by simpa using e)]
      exact ih h2 ((List.mem_cons.1 ho).resolve_left fun h => e h.symm)

theorem flatMap_only {T : Type} {i0 : Nat} {L : Nat → List T} : ∀ {n : Nat}, i0 < n → (∀ i, i ≠ i0 → L i = []) →
    (List.range n).flatMap L = L i0
  | 0, h, _ => absurd h (Nat.not_lt_zero _)
  | n + 1, h, hL => by
    rw [List.range_succ, List.flatMap_append]
    by_cases e : i0 = n
    · subst e
      have : (List.range i0).flatMap L = [] := List.flatMap_eq_nil_iff.2 fun i hi => hL i (by
        have := List.mem_range.1 hi; omega)
      rw [this]; simp
    · rw [flatMap_only (by omega) hL]
      simp [hL n (Ne.symm e)]

/-- The positions of a lane, in the order they are visited. -/
theorem filter_lane : ∀ {sizes : List Nat} {d n : Nat} {o : List Nat}, sizes[d]? = some n → InBox (sizes.eraseIdx d) o →
    (box sizes).filter (fun j => decide (j.eraseIdx d = o)) = (List.range n).map (o.insertIdx d ·)
  | [], d, n, o, h, _ => by simp at h
  | s :: ss, 0, n, o, h, ho => by
    have : s = n := by simpa using h
    subst this
    rw [box, List.filter_flatMap]
    have : ∀ i, ((box ss).map (i :: ·)).filter (fun j => decide (j.eraseIdx 0 = o)) = [i :: o] := by
      intro i
      rw [List.filter_map]
      have : ((fun j : List Nat => decide (j.eraseIdx 0 = o)) ∘ fun x => i :: x) = fun j => decide (j = o) := by
        funext j; exact decide_eq_decide.2 (by simp)
      rw [this, filter_eq_self (box_nodup ss) (mem_box.2 ho)]
      rfl
    simp only [this, List.insertIdx_zero]
    exact List.map_eq_flatMap.symm
  | s :: ss, d + 1, n, o, h, ho => by
    have h' : ss[d]? = some n := by simpa using h
    rw [List.eraseIdx_cons_succ, InBox] at ho
    cases ho with
    | @cons i0 _ o' _ h1 h2 =>
      rw [box, List.filter_flatMap]
      have : ∀ i, ((box ss).map (i :: ·)).filter (fun j => decide (j.eraseIdx (d + 1) = i0 :: o'))
          = if i = i0 then ((List.range n).map (o'.insertIdx d ·)).map (i0 :: ·) else [] := by
        intro i
        rw [List.filter_map]
        by_cases e : i = i0
        · subst e
          have : ((fun j : List Nat => decide (j.eraseIdx (d + 1) = i :: o')) ∘ fun x => i :: x)
              = fun j => decide (j.eraseIdx d = o') := by
            funext j; simp
          rw [this, filter_lane h' h2, if_pos rfl]
        · have : ((fun j : List Nat => decide (j.eraseIdx (d + 1) = i0 :: o')) ∘ fun x => i :: x) = fun _ => false := by
            funext j; simp [e]
          rw [this, if_neg e]
          simp
      simp only [this]
      rw [flatMap_only h1 (fun i hi => if_neg hi), if_pos rfl, List.map_map]
      rfl

/-- A body that works on one lane at a time does so position by position. -/
theorem lower_lane {S T : Type} (view : S → List Nat → T) (body : List Nat → S → S) (h : List Nat → Nat → T → T) {sizes : List Nat}
    {d n : Nat} (hn : sizes[d]? = some n)
    (hstep : ∀ ivs s o, InBox sizes ivs → InBox (sizes.eraseIdx d) o →
      view (body ivs s) o = if ivs.eraseIdx d = o then h o (ivs[d]?.getD 0) (view s o) else view s o)
    (s : S) (o : List Nat) (ho : InBox (sizes.eraseIdx d) o) :
    view (lower sizes body s) o = (List.range n).foldl (fun t k => h o k t) (view s o) := by
  have gen : ∀ (L : List (List Nat)) (s : S), (∀ j ∈ L, InBox sizes j) →
      view (L.foldl (fun s j => body j s) s) o
        = (L.filter fun j => decide (j.eraseIdx d = o)).foldl (fun t j => h o (j[d]?.getD 0) t) (view s o) := by
    intro L
    induction L with
    | nil => intro s _; rfl
    | cons j L ih =>
      intro s hL
      rw [List.foldl_cons, ih _ (fun k hk => hL k (List.mem_cons_of_mem _ hk)), hstep j s o (hL j (by simp)) ho,
        List.filter_cons]
      by_cases e : j.eraseIdx d = o
      · rw [if_pos e, if_pos (by simpa using e), List.foldl_cons]
      · rw [if_neg e, if_neg (by simpa using e)]
  rw [lower_box, gen _ _ (fun j hj => mem_box.1 hj), filter_lane hn ho, List.foldl_map]
  have hl : d ≤ o.length := by
    have := (List.getElem?_eq_some_iff.1 hn).1
    have := ho.length
    rw [List.length_eraseIdx_of_lt (by assumption)] at this
    omega
  congr 1
  funext t k
  rw [List.getElem?_insertIdx_self, if_pos (by omega)]
  rfl

/-! ## Positions -/

theorem set_eq_insert : ∀ {ivs : List Nat} {d : Nat} (k : Nat), d < ivs.length → ivs.set d k = (ivs.eraseIdx d).insertIdx d k
  | [], d, k, h => absurd h (Nat.not_lt_zero _)
  | i :: is, 0, k, _ => by simp
  | i :: is, d + 1, k, h => by
    simp only [List.set_cons_succ, List.eraseIdx_cons_succ, List.insertIdx_succ_cons]
    rw [set_eq_insert k (by simpa using h)]

theorem insert_inj {o o' : List Nat} {d k k' : Nat} (h : d ≤ o.length) (h' : d ≤ o'.length)
    (e : o.insertIdx d k = o'.insertIdx d k') : o = o' ∧ k = k' := by
  have e1 := congrArg (·.eraseIdx d) e
  simp only [List.eraseIdx_insertIdx_self] at e1
  have e2 := congrArg (·[d]?) e
  simp only [List.getElem?_insertIdx_self, if_pos h, if_pos h'] at e2
  exact ⟨e1, Option.some.inj e2⟩

theorem InBox.erase {sizes ivs : List Nat} (d : Nat) (h : InBox sizes ivs) : InBox (sizes.eraseIdx d) (ivs.eraseIdx d) := by
  unfold InBox at *
  induction h generalizing d with
  | nil => exact .nil
  | cons h1 h2 ih =>
    cases d with
    | zero => exact h2
    | succ d => exact .cons h1 (ih d)

theorem InBox.le {sizes o : List Nat} {d n : Nat} (hn : sizes[d]? = some n) (ho : InBox (sizes.eraseIdx d) o) : d ≤ o.length := by
  have := (List.getElem?_eq_some_iff.1 hn).1
  have := ho.length
  rw [List.length_eraseIdx_of_lt (by assumption)] at this
  omega

theorem InBox.lt {sizes ivs : List Nat} {d n : Nat} (hn : sizes[d]? = some n) (h : InBox sizes ivs) : d < ivs.length := by
  rw [h.length]; exact (List.getElem?_eq_some_iff.1 hn).1

theorem InBox.get {sizes ivs : List Nat} {d n : Nat} (hn : sizes[d]? = some n) (h : InBox sizes ivs) : ivs[d]?.getD 0 < n := by
  unfold InBox at h
  induction h generalizing d with
  | nil => simp at hn
  | cons h1 h2 ih =>
    cases d with
    | zero => simp at hn ⊢; omega
    | succ d => simpa using ih (by simpa using hn)

end Verif.Tm
