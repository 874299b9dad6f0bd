import Verif.Py.Basic

/-!
# Python loops over lists

`pyMap` is a loop that appends one value per item; `pyFold` a loop that updates a state.  Both stop at
the first exception.
-/

namespace Verif

/-- `for x in l: out.append(f(x))` -/
def pyMap {α β : Type} (f : α → Py β) : List α → Py (List β)
  | [] => .ok []
  | x :: xs => match f x with
    | .error e => .error e
    | .ok y => match pyMap f xs with
      | .error e => .error e
      | .ok ys => .ok (y :: ys)

/-- `for x in l: s = f(s, x)` -/
def pyFold {α σ : Type} (f : σ → α → Py σ) : σ → List α → Py σ
  | s, [] => .ok s
  | s, x :: xs => match f s x with
    | .error e => .error e
    | .ok s' => pyFold f s' xs

/-- `range(n)` for a possibly negative `n`. -/
def pyRange (n : Int) : List Nat := List.range n.toNat

theorem pyMap_ok_iff {α β : Type} {f : α → Py β} {l : List α} {r : List β} :
    pyMap f l = .ok r ↔ r.length = l.length ∧
      ∀ i (h : i < l.length) (h' : i < r.length), f l[i] = .ok r[i] := by
  induction l generalizing r with
  | nil =>
    cases r <;> simp [pyMap]
  | cons x xs ih =>
    unfold pyMap
    cases hx : f x with
    | error e =>
      simp only [reduceCtorEq, false_iff, not_and]
      intro hl h
      have := h 0 (by simp) (by rw [hl]; simp)
      simp [hx] at this
    | ok y =>
      cases hxs : pyMap f xs with
      | error e =>
        simp only [reduceCtorEq, false_iff, not_and]
        intro hl h
        cases r with
        | nil => simp at hl
        | cons y' ys =>
          have : pyMap f xs = .ok ys := by
            rw [ih]
            refine ⟨by simpa using hl, fun i h1 h2 => ?_⟩
            have := h (i + 1) (by simpa using h1) (by simpa using h2)
            simpa using this
          rw [hxs] at this; cases this
      | ok ys =>
        simp only [Except.ok.injEq]
        constructor
        · rintro rfl
          have := (ih (r := ys)).mp hxs
          refine ⟨by simp [this.1], fun i h1 h2 => ?_⟩
          cases i with
          | zero => simpa using hx
          | succ i => simpa using this.2 i (by simpa using h1) (by simpa using h2)
        · rintro ⟨hl, h⟩
          cases r with
          | nil => simp at hl
          | cons y' ys' =>
            have h0 := h 0 (by simp) (by simp)
            simp only [List.getElem_cons_zero, hx, Except.ok.injEq] at h0
            have : pyMap f xs = .ok ys' := by
              rw [ih]
              refine ⟨by simpa using hl, fun i h1 h2 => ?_⟩
              have := h (i + 1) (by simpa using h1) (by simpa using h2)
              simpa using this
            rw [hxs] at this
            cases this
            rw [h0]

theorem pyMap_error {α β : Type} {f : α → Py β} {l : List α} {e : PyErr}
    (h : pyMap f l = .error e) : ∃ x ∈ l, f x = .error e := by
  induction l with
  | nil => cases h
  | cons x xs ih =>
    unfold pyMap at h
    cases hx : f x with
    | error e' => rw [hx] at h; cases h; exact ⟨x, by simp, hx⟩
    | ok y =>
      rw [hx] at h
      cases hxs : pyMap f xs with
      | error e' =>
        rw [hxs] at h
        cases h
        obtain ⟨x', hm, hx'⟩ := ih hxs
        exact ⟨x', List.mem_cons_of_mem _ hm, hx'⟩
      | ok ys => rw [hxs] at h; cases h

theorem pyMap_exists_iff {α β : Type} {f : α → Py β} {l : List α} :
    (∃ r, pyMap f l = .ok r) ↔ ∀ x ∈ l, ∃ y, f x = .ok y := by
  induction l with
  | nil => simp [pyMap]
  | cons x xs ih =>
    unfold pyMap
    cases hx : f x with
    | error e => simp [hx]
    | ok y =>
      cases hxs : pyMap f xs with
      | error e =>
        rw [hxs] at ih
        simp only [reduceCtorEq, exists_false, false_iff] at ih
        simp [ih]
      | ok ys =>
        rw [hxs] at ih
        simp only [Except.ok.injEq, exists_eq', true_iff] at ih
        simp only [List.mem_cons, forall_eq_or_imp, hx, Except.ok.injEq, exists_eq', true_and, true_iff]
        exact ih

/-- A loop whose body never raises. -/
theorem pyMap_pure {α β : Type} {f : α → Py β} {g : α → β} {l : List α}
    (h : ∀ x ∈ l, f x = .ok (g x)) : pyMap f l = .ok (l.map g) := by
  rw [pyMap_ok_iff]
  refine ⟨by simp, fun i h1 h2 => ?_⟩
  rw [h _ (List.getElem_mem h1)]
  simp

theorem pyMap_congr {α β : Type} {f g : α → Py β} {l : List α}
    (h : ∀ x ∈ l, f x = g x) : pyMap f l = pyMap g l := by
  induction l with
  | nil => rfl
  | cons x xs ih =>
    unfold pyMap
    rw [h x (by simp), ih (fun y hy => h y (List.mem_cons_of_mem _ hy))]

/-- `[l[i] for i in range(len(l))]` copies. -/
theorem pyMap_range_get {α : Type} (l : List α) :
    pyMap (fun i : Nat => pyGet l (i : Int)) (List.range l.length) = .ok l := by
  rw [pyMap_ok_iff]
  refine ⟨by simp, fun i h1 h2 => ?_⟩
  simp only [List.getElem_range]
  exact pyGet_nonneg l i h2

/-- A fold whose body never raises. -/
theorem pyFold_pure {α σ : Type} {f : σ → α → Py σ} {g : σ → α → σ} {l : List α} {s : σ}
    (h : ∀ s, ∀ x ∈ l, f s x = .ok (g s x)) : pyFold f s l = .ok (l.foldl g s) := by
  induction l generalizing s with
  | nil => rfl
  | cons x xs ih =>
    unfold pyFold
    rw [h s x (by simp)]
    exact ih (fun s y hy => h s y (List.mem_cons_of_mem _ hy))

/-- Invariant rule for a fold. -/
theorem pyFold_inv {α σ : Type} {f : σ → α → Py σ} {P : σ → Prop} {l : List α} {s r : σ}
    (h0 : P s) (hs : ∀ s, ∀ x ∈ l, ∀ s', P s → f s x = .ok s' → P s') (h : pyFold f s l = .ok r) :
    P r := by
  induction l generalizing s with
  | nil => cases h; exact h0
  | cons x xs ih =>
    unfold pyFold at h
    cases hx : f s x with
    | error e => rw [hx] at h; cases h
    | ok s' =>
      rw [hx] at h
      exact ih (hs s x (by simp) s' h0 hx)
        (fun s y hy => hs s y (List.mem_cons_of_mem _ hy)) h

theorem pyFold_append {α σ : Type} {f : σ → α → Py σ} {l₁ l₂ : List α} {s : σ} :
    pyFold f s (l₁ ++ l₂) = match pyFold f s l₁ with
      | .error e => .error e
      | .ok s' => pyFold f s' l₂ := by
  induction l₁ generalizing s with
  | nil => rfl
  | cons x xs ih =>
    simp only [List.cons_append, pyFold]
    cases f s x with
    | error e => rfl
    | ok s' => exact ih

end Verif
