/-!
# Splitting and joining Python strings

Strings are lists of characters.
-/

namespace Verif

/-- `s.split(c)` for a separator of one character. -/
def pySplit (c : Char) : List Char → List (List Char)
  | [] => [[]]
  | x :: xs =>
    if x = c then [] :: pySplit c xs
    else match pySplit c xs with
      | [] => [[x]]
      | t :: ts => (x :: t) :: ts

/-- `sep.join(l)` -/
def pyJoin (sep : List Char) : List (List Char) → List Char
  | [] => []
  | [t] => t
  | t :: ts => t ++ sep ++ pyJoin sep ts

theorem pySplit_plain {c : Char} {t : List Char} (h : c ∉ t) : pySplit c t = [t] := by
  induction t with
  | nil => rfl
  | cons x xs ih =>
    have hc : x ≠ c := fun e => h (by simp [e])
    rw [pySplit, if_neg hc, ih fun h' => h (by simp [h'])]

theorem pySplit_append {c : Char} {t : List Char} (h : c ∉ t) (r : List Char) :
    pySplit c (t ++ c :: r) = t :: pySplit c r := by
  induction t with
  | nil => simp [pySplit]
  | cons x xs ih =>
    have hc : x ≠ c := fun e => h (by simp [e])
    rw [List.cons_append, pySplit, if_neg hc, ih fun h' => h (by simp [h'])]

theorem pySplit_ne_nil (c : Char) (t : List Char) : pySplit c t ≠ [] := by
  cases t with
  | nil => simp [pySplit]
  | cons x xs =>
    unfold pySplit
    split
    · simp
    · split <;> simp

/-- Joining with a character and splitting at it gives the parts back. -/
theorem pySplit_pyJoin (c : Char) {l : List (List Char)} (hne : l ≠ []) (h : ∀ t ∈ l, c ∉ t) :
    pySplit c (pyJoin [c] l) = l := by
  induction l with
  | nil => exact absurd rfl hne
  | cons t ts ih =>
    cases ts with
    | nil => exact pySplit_plain (h t (by simp))
    | cons u us =>
      show pySplit c (t ++ [c] ++ pyJoin [c] (u :: us)) = _
      rw [List.append_assoc, List.singleton_append, pySplit_append (h t (by simp)),
        ih (by simp) fun s hs => h s (by simp at hs ⊢; exact Or.inr hs)]

/-- Splitting and joining again gives the string back. -/
theorem pyJoin_pySplit (c : Char) (t : List Char) : pyJoin [c] (pySplit c t) = t := by
  induction t with
  | nil => rfl
  | cons x xs ih =>
    unfold pySplit
    split
    · rename_i e
      cases hs : pySplit c xs with
      | nil => exact absurd hs (pySplit_ne_nil c xs)
      | cons u us => rw [hs] at ih; show [] ++ [c] ++ pyJoin [c] (u :: us) = _; rw [ih, e]; rfl
    · cases hs : pySplit c xs with
      | nil => exact absurd hs (pySplit_ne_nil c xs)
      | cons u us =>
        rw [hs] at ih
        cases us with
        | nil => exact congrArg (x :: ·) ih
        | cons v vs => exact congrArg (x :: ·) ih

/-- The parts do not contain the separator. -/
theorem not_mem_of_mem_pySplit {c : Char} {s t : List Char} (h : t ∈ pySplit c s) : c ∉ t := by
  induction s generalizing t with
  | nil => simp [pySplit] at h; subst h; simp
  | cons x xs ih =>
    unfold pySplit at h
    split at h
    · rcases List.mem_cons.mp h with rfl | h
      · simp
      · exact ih h
    · rename_i hx
      cases hs : pySplit c xs with
      | nil => exact absurd hs (pySplit_ne_nil c xs)
      | cons u us =>
        rw [hs] at h ih
        simp only at h
        rcases List.mem_cons.mp h with rfl | h
        · have := ih (t := u) (by simp)
          simp [this, Ne.symm hx]
        · exact ih (by simp [h])

/-- A character of a part is a character of the string. -/
theorem mem_of_mem_pySplit {c x : Char} {s t : List Char} (h : t ∈ pySplit c s) (hx : x ∈ t) :
    x ∈ s := by
  induction s generalizing t with
  | nil => simp [pySplit] at h; subst h; simp at hx
  | cons y ys ih =>
    unfold pySplit at h
    split at h
    · rcases List.mem_cons.mp h with rfl | h
      · simp at hx
      · exact List.mem_cons_of_mem _ (ih h hx)
    · cases hs : pySplit c ys with
      | nil => exact absurd hs (pySplit_ne_nil c ys)
      | cons u us =>
        rw [hs] at h ih
        simp only at h
        rcases List.mem_cons.mp h with rfl | h
        · rcases List.mem_cons.mp hx with rfl | hx
          · simp
          · exact List.mem_cons_of_mem _ (ih (t := u) (by simp) hx)
        · exact List.mem_cons_of_mem _ (ih (by simp [h]) hx)

end Verif
