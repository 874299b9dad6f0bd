/-!
# Python's `sorted`

Python specifies `sorted` up to its result: a permutation of the input, ordered by key, equal keys
in input order (also with `reverse=True`).  An insertion sort with these properties stands for it.
-/

namespace Verif

/-- Insert before the first element that is not smaller. -/
def insertBy {α : Type} (le : α → α → Bool) (x : α) : List α → List α
  | [] => [x]
  | y :: ys => if le x y then x :: y :: ys else y :: insertBy le x ys

/-- `sorted`, `le` being the comparison of keys. -/
def sortBy {α : Type} (le : α → α → Bool) : List α → List α
  | [] => []
  | x :: xs => insertBy le x (sortBy le xs)

variable {α : Type} {le : α → α → Bool}

theorem insertBy_perm (x : α) (l : List α) : (insertBy le x l).Perm (x :: l) := by
  induction l with
  | nil => exact List.Perm.refl _
  | cons y ys ih =>
    unfold insertBy
    split
    · exact List.Perm.refl _
    · exact (List.Perm.cons y ih).trans (List.Perm.swap x y ys)

theorem sortBy_perm (l : List α) : (sortBy le l).Perm l := by
  induction l with
  | nil => exact List.Perm.refl _
  | cons x xs ih => exact (insertBy_perm x _).trans (List.Perm.cons x ih)

theorem mem_sortBy {a : α} {l : List α} : a ∈ sortBy le l ↔ a ∈ l := (sortBy_perm l).mem_iff

@[simp] theorem length_sortBy (l : List α) : (sortBy le l).length = l.length :=
  (sortBy_perm l).length_eq

theorem insertBy_pairwise (trans : ∀ a b c, le a b → le b c → le a c)
    (total : ∀ a b, le a b || le b a) (x : α) {l : List α}
    (h : l.Pairwise (fun a b => le a b = true)) :
    (insertBy le x l).Pairwise (fun a b => le a b = true) := by
  induction l with
  | nil => simp [insertBy]
  | cons y ys ih =>
    have hc := List.pairwise_cons.mp h
    unfold insertBy
    split
    · rename_i hxy
      rw [List.pairwise_cons]
      refine ⟨?_, h⟩
      intro z hz
      rcases List.mem_cons.mp hz with rfl | hz
      · exact hxy
      · exact trans _ _ _ hxy (hc.1 z hz)
    · rename_i hxy
      rw [List.pairwise_cons]
      refine ⟨?_, ih hc.2⟩
      intro z hz
      have hz' := (insertBy_perm x ys).mem_iff.mp hz
      rcases List.mem_cons.mp hz' with rfl | hz'
      · have := total z y; simp [hxy] at this; exact this
      · exact hc.1 z hz'

theorem sortBy_pairwise (trans : ∀ a b c, le a b → le b c → le a c)
    (total : ∀ a b, le a b || le b a) (l : List α) :
    (sortBy le l).Pairwise (fun a b => le a b = true) := by
  induction l with
  | nil => simp [sortBy]
  | cons x xs ih => exact insertBy_pairwise trans total x ih

theorem sublist_insertBy (x : α) (l : List α) : l.Sublist (insertBy le x l) := by
  induction l with
  | nil => simp
  | cons y ys ih =>
    unfold insertBy
    split
    · exact List.sublist_cons_self _ _
    · exact List.Sublist.cons_cons _ ih

theorem pair_sublist_insertBy (trans : ∀ a b c, le a b → le b c → le a c)
    {x b : α} (hxb : le x b = true) {l : List α}
    (hl : l.Pairwise (fun a b => le a b = true)) (hb : b ∈ l) : [x, b].Sublist (insertBy le x l) := by
  induction l with
  | nil => simp at hb
  | cons y ys ih =>
    have hc := List.pairwise_cons.mp hl
    unfold insertBy
    split
    · exact List.Sublist.cons_cons _ (List.singleton_sublist.mpr hb)
    · rename_i hxy
      rcases List.mem_cons.mp hb with rfl | hb
      · exact absurd hxb hxy
      · exact List.Sublist.cons _ (ih hc.2 hb)

/-- Stability. -/
theorem pair_sublist_sortBy (trans : ∀ a b c, le a b → le b c → le a c)
    (total : ∀ a b, le a b || le b a) {a b : α} {l : List α} (hab : le a b = true)
    (h : [a, b].Sublist l) : [a, b].Sublist (sortBy le l) := by
  induction l with
  | nil => simp at h
  | cons x xs ih =>
    unfold sortBy
    cases h with
    | cons _ h => exact (ih h).trans (sublist_insertBy x _)
    | cons_cons _ h =>
      exact pair_sublist_insertBy trans hab (sortBy_pairwise trans total xs)
        (mem_sortBy.mpr (List.singleton_sublist.mp h))

end Verif
