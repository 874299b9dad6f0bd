/-!
# Python primitives used by the models

Python exceptions are values of `PyErr`; a function that may raise returns `Py α`.
Only the exception *class* is modelled, not the message.
-/

namespace Verif

/-- Exception classes that occur in the modelled code. -/
inductive PyErr where
  | assertion
  | keyError
  | indexError
  | valueError
  | typeError
  | attributeError
  | notImplemented
  | nameError
  | unboundLocal
  | zeroDivision
  | overflow
  | runtimeError
  | onnxImport
  deriving DecidableEq, Repr

deriving instance DecidableEq for Except

/-- A Python computation that either returns or raises. -/
abbrev Py (α : Type) := Except PyErr α

/-- `assert b` -/
def pyAssert (b : Bool) : Py Unit :=
  if b then .ok () else .error .assertion

/-- `raise e` unless `b` -/
def pyGuard (b : Bool) (e : PyErr) : Py Unit :=
  if b then .ok () else .error e

/-- `l[i]` for a Python list and a possibly negative int. -/
def pyGet {α : Type} (l : List α) (i : Int) : Py α :=
  let j : Int := if i < 0 then i + (l.length : Int) else i
  if j < 0 then .error .indexError
  else match l[j.toNat]? with
    | some x => .ok x
    | none => .error .indexError

/-- `l[i] = v` for a Python list and a possibly negative int. -/
def pySet {α : Type} (l : List α) (i : Int) (v : α) : Py (List α) :=
  let j : Int := if i < 0 then i + (l.length : Int) else i
  if j < 0 then .error .indexError
  else if j.toNat < l.length then .ok (l.set j.toNat v)
  else .error .indexError

/-- Clamp a Python slice bound into `[0, n]` (step 1). -/
def pySliceBound (n : Nat) (i : Int) : Nat :=
  let j : Int := if i < 0 then i + (n : Int) else i
  if j < 0 then 0 else min j.toNat n

/-- `l[:i]` -/
def pyTake {α : Type} (l : List α) (i : Int) : List α := l.take (pySliceBound l.length i)

/-- `l[i:]` -/
def pyDrop {α : Type} (l : List α) (i : Int) : List α := l.drop (pySliceBound l.length i)

/-- `l[i:j]` -/
def pySlice {α : Type} (l : List α) (i j : Int) : List α :=
  (l.take (pySliceBound l.length j)).drop (pySliceBound l.length i)

/-- Python dict as an association list: newest binding first; look-up finds the newest. -/
def dictGet {κ ν : Type} [DecidableEq κ] (d : List (κ × ν)) (k : κ) : Option ν :=
  match d with
  | [] => none
  | (k', v) :: rest => if k' = k then some v else dictGet rest k

/-- `d[k] = v` -/
def dictSet {κ ν : Type} (d : List (κ × ν)) (k : κ) (v : ν) : List (κ × ν) := (k, v) :: d

/-- `k in d` -/
def dictMem {κ ν : Type} [DecidableEq κ] (d : List (κ × ν)) (k : κ) : Bool :=
  (dictGet d k).isSome

@[simp] theorem dictGet_nil {κ ν : Type} [DecidableEq κ] (k : κ) :
    dictGet ([] : List (κ × ν)) k = none := rfl

@[simp] theorem dictGet_set_self {κ ν : Type} [DecidableEq κ] (d : List (κ × ν)) (k : κ) (v : ν) :
    dictGet (dictSet d k v) k = some v := by
  simp [dictSet, dictGet]

theorem dictGet_set_ne {κ ν : Type} [DecidableEq κ] (d : List (κ × ν)) {k k' : κ} (v : ν)
    (h : k ≠ k') : dictGet (dictSet d k v) k' = dictGet d k' := by
  simp [dictSet, dictGet, h]

theorem dictGet_set {κ ν : Type} [DecidableEq κ] (d : List (κ × ν)) (k k' : κ) (v : ν) :
    dictGet (dictSet d k v) k' = if k = k' then some v else dictGet d k' := by
  simp [dictSet, dictGet]

theorem dictGet_mem {κ ν : Type} [DecidableEq κ] {d : List (κ × ν)} {k : κ} {v : ν}
    (h : dictGet d k = some v) : (k, v) ∈ d := by
  induction d with
  | nil => simp at h
  | cons a d ih =>
    obtain ⟨k', v'⟩ := a
    unfold dictGet at h
    split at h
    · simp_all
    · exact List.mem_cons_of_mem _ (ih h)

theorem pyAssert_ok {b : Bool} {u : Unit} : pyAssert b = .ok u ↔ b = true := by
  unfold pyAssert; split <;> simp_all

theorem pyGuard_ok {b : Bool} {e : PyErr} {u : Unit} : pyGuard b e = .ok u ↔ b = true := by
  unfold pyGuard; split <;> simp_all

@[simp] theorem pyAssert_true : pyAssert true = .ok () := rfl
@[simp] theorem pyAssert_false : pyAssert false = .error .assertion := rfl
@[simp] theorem pyGuard_true (e : PyErr) : pyGuard true e = .ok () := rfl
@[simp] theorem pyGuard_false (e : PyErr) : pyGuard false e = .error e := rfl

/-- Inversion for a successful bind of two Python computations. -/
theorem bind_ok {α β : Type} {x : Py α} {f : α → Py β} {b : β} :
    (x >>= f) = .ok b ↔ ∃ a, x = .ok a ∧ f a = .ok b := by
  cases x with
  | error e => simp [bind, Except.bind]
  | ok a => simp [bind, Except.bind]

theorem pyGet_nonneg {α : Type} (l : List α) (n : Nat) (h : n < l.length) :
    pyGet l (n : Int) = .ok l[n] := by
  unfold pyGet
  have h1 : ¬ ((n : Int) < 0) := by omega
  simp [h1, h]

theorem pyGet_neg {α : Type} (l : List α) (n : Nat) (h1 : 0 < n) (h : n ≤ l.length) :
    pyGet l (-(n : Int)) = .ok (l[l.length - n]'(by omega)) := by
  unfold pyGet
  have h2 : (-(n : Int)) < 0 := by omega
  have h3 : ¬ (-(n : Int) + (l.length : Int) < 0) := by omega
  have h4 : (-(n : Int) + (l.length : Int)).toNat = l.length - n := by omega
  simp only [h2, if_true, h3, if_false, h4]
  rw [List.getElem?_eq_getElem (by omega)]

theorem pyGet_ok_iff {α : Type} {l : List α} {i : Int} {x : α} :
    pyGet l i = .ok x ↔
      ∃ n : Nat, l[n]? = some x ∧ ((i = (n : Int)) ∨ (i < 0 ∧ i + (l.length : Int) = (n : Int))) := by
  unfold pyGet
  constructor
  · intro h
    by_cases hi : i < 0
    · simp only [hi, if_true] at h
      by_cases hj : i + (l.length : Int) < 0
      · simp [hj] at h
      · simp only [hj, if_false] at h
        split at h
        · rename_i y hy
          cases h
          exact ⟨_, hy, Or.inr ⟨hi, by omega⟩⟩
        · cases h
    · simp only [hi, if_false] at h
      split at h
      · rename_i y hy
        cases h
        exact ⟨_, hy, Or.inl (by omega)⟩
      · cases h
  · rintro ⟨n, hn, h | ⟨h1, h2⟩⟩
    · subst h
      have : ¬ ((n : Int) < 0) := by omega
      simp [this, hn]
    · have h4 : ¬ (i + (l.length : Int) < 0) := by omega
      have h5 : (i + (l.length : Int)).toNat = n := by omega
      simp [h1, h4, h5, hn]

end Verif
