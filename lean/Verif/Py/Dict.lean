import Verif.Py.Basic

/-!
# Python dicts with their iteration order

`{k: v for …}`: a key keeps the place of its first assignment and the value of its last.
-/

namespace Verif

variable {α : Type}

/-- `d[k] = v` -/
def ordSet (d : List (String × α)) (k : String) (v : α) : List (String × α) :=
  match d with
  | [] => [(k, v)]
  | (k', v') :: rest => if k' = k then (k, v) :: rest else (k', v') :: ordSet rest k v

/-- `{k: v for k, v in l}` -/
def ordOf (l : List (String × α)) : List (String × α) := l.foldl (fun d p => ordSet d p.1 p.2) []

/-- `d.get(k)` -/
def ordGet (d : List (String × α)) (k : String) : Option α := dictGet d k

theorem keys_ordSet (d : List (String × α)) (k : String) (v : α) :
    (ordSet d k v).map Prod.fst =
      if k ∈ d.map Prod.fst then d.map Prod.fst else d.map Prod.fst ++ [k] := by
  induction d with
  | nil => simp [ordSet]
  | cons p d ih =>
    obtain ⟨k', v'⟩ := p
    unfold ordSet
    by_cases h : k' = k
    · simp [h]
    · simp only [if_neg h, List.map_cons, ih, List.mem_cons, Ne.symm h, false_or]
      split <;> simp

theorem dictGet_ordSet (d : List (String × α)) (k k' : String) (v : α) :
    dictGet (ordSet d k v) k' = if k = k' then some v else dictGet d k' := by
  induction d with
  | nil => simp [ordSet, dictGet]
  | cons p d ih =>
    obtain ⟨a, b⟩ := p
    unfold ordSet
    by_cases h : a = k
    · subst h
      simp only [if_true, dictGet]
      by_cases h' : a = k' <;> simp [h']
    · simp only [if_neg h, dictGet, ih]
      by_cases h' : a = k'
      · subst h'; simp [Ne.symm h]
      · simp [h']

theorem nodup_ordSet {d : List (String × α)} (h : (d.map Prod.fst).Nodup) (k : String) (v : α) :
    ((ordSet d k v).map Prod.fst).Nodup := by
  rw [keys_ordSet]
  split
  · exact h
  · rename_i hk
    rw [List.nodup_append]
    refine ⟨h, by simp, ?_⟩
    intro a ha b hb
    simp only [List.mem_singleton] at hb
    subst hb
    intro hab
    subst hab
    exact hk ha

theorem foldl_ordSet_nodup (l : List (String × α)) (d : List (String × α))
    (h : (d.map Prod.fst).Nodup) :
    ((l.foldl (fun d p => ordSet d p.1 p.2) d).map Prod.fst).Nodup := by
  induction l generalizing d with
  | nil => exact h
  | cons p l ih => exact ih _ (nodup_ordSet h _ _)

/-- A dict has each key once. -/
theorem nodup_ordOf (l : List (String × α)) : ((ordOf l).map Prod.fst).Nodup :=
  foldl_ordSet_nodup l [] (by simp)

theorem ordSet_new {d : List (String × α)} {k : String} (v : α) (h : k ∉ d.map Prod.fst) :
    ordSet d k v = d ++ [(k, v)] := by
  induction d with
  | nil => rfl
  | cons p d ih =>
    obtain ⟨k', v'⟩ := p
    simp only [List.map_cons, List.mem_cons, not_or] at h
    unfold ordSet
    rw [if_neg (Ne.symm h.1), ih h.2, List.cons_append]

theorem foldl_ordSet_of_nodup (l d : List (String × α)) (h : ((d ++ l).map Prod.fst).Nodup) :
    l.foldl (fun d p => ordSet d p.1 p.2) d = d ++ l := by
  induction l generalizing d with
  | nil => simp
  | cons p l ih =>
    have hk : p.1 ∉ d.map Prod.fst := by
      rw [List.map_append, List.nodup_append] at h
      intro hm
      exact h.2.2 _ hm _ (by simp) rfl
    simp only [List.foldl_cons, ordSet_new p.2 hk]
    rw [ih]
    · simp
    · simpa using h

/-- With distinct keys the dict has the pairs of the list, in order. -/
theorem ordOf_of_nodup {l : List (String × α)} (h : (l.map Prod.fst).Nodup) : ordOf l = l := by
  have := foldl_ordSet_of_nodup l [] (by simpa using h)
  simpa [ordOf] using this

/-- `d[k]` in a dict of a list: the last pair with that key. -/
theorem dictGet_foldl_ordSet (l d : List (String × α)) (k : String) :
    dictGet (l.foldl (fun d p => ordSet d p.1 p.2) d) k =
      match (l.reverse.find? (fun p => p.1 == k)) with
      | some p => some p.2
      | none => dictGet d k := by
  induction l generalizing d with
  | nil => simp
  | cons p l ih =>
    simp only [List.foldl_cons, ih, List.reverse_cons, List.find?_append, dictGet_ordSet]
    cases h : l.reverse.find? (fun p => p.1 == k) with
    | some q => simp
    | none =>
      by_cases hk : p.1 = k
      · simp [hk]
      · simp [hk]

theorem dictGet_ordOf (l : List (String × α)) (k : String) :
    dictGet (ordOf l) k = (l.reverse.find? (fun p => p.1 == k)).map Prod.snd := by
  have := dictGet_foldl_ordSet l [] k
  unfold ordOf
  rw [this]
  cases l.reverse.find? (fun p => p.1 == k) <;> simp

theorem dictGet_isSome_iff {d : List (String × α)} {k : String} :
    (dictGet d k).isSome ↔ k ∈ d.map Prod.fst := by
  induction d with
  | nil => simp
  | cons p d ih =>
    obtain ⟨k', v'⟩ := p
    unfold dictGet
    by_cases h : k' = k
    · simp [h]
    · simp [h, ih, Ne.symm h]

theorem mem_keys_ordOf {l : List (String × α)} {k : String} :
    k ∈ (ordOf l).map Prod.fst ↔ k ∈ l.map Prod.fst := by
  rw [← dictGet_isSome_iff, dictGet_ordOf]
  simp only [Option.isSome_map, List.find?_isSome, List.mem_reverse, beq_iff_eq, List.mem_map]

theorem mem_ordSet {d : List (String × α)} {k : String} {v : α} {p : String × α}
    (h : p ∈ ordSet d k v) : p = (k, v) ∨ p ∈ d := by
  induction d with
  | nil => simpa [ordSet] using h
  | cons q d ih =>
    obtain ⟨k', v'⟩ := q
    unfold ordSet at h
    split at h
    · rcases List.mem_cons.mp h with h | h
      · exact Or.inl h
      · exact Or.inr (List.mem_cons_of_mem _ h)
    · rcases List.mem_cons.mp h with h | h
      · exact Or.inr (by rw [h]; exact List.mem_cons_self)
      · rcases ih h with h | h
        · exact Or.inl h
        · exact Or.inr (List.mem_cons_of_mem _ h)

theorem mem_of_mem_ordOf {l : List (String × α)} {p : String × α} (h : p ∈ ordOf l) : p ∈ l := by
  have key : ∀ (l d : List (String × α)), p ∈ l.foldl (fun d p => ordSet d p.1 p.2) d →
      p ∈ d ∨ p ∈ l := by
    intro l
    induction l with
    | nil => intro d h; exact Or.inl h
    | cons q l ih =>
      intro d h
      rcases ih _ h with h | h
      · rcases mem_ordSet h with h | h
        · exact Or.inr (by rw [h]; exact List.mem_cons_self)
        · exact Or.inl h
      · exact Or.inr (List.mem_cons_of_mem _ h)
  rcases key l [] h with h | h
  · cases h
  · exact h

end Verif
