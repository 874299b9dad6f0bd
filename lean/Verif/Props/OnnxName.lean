import Verif.Model.OnnxName
import Verif.Spec.OnnxName

/-!
# C29: sanitized ONNX names

For names in ASCII the result is a valid identifier, whatever the name.  A name with a dot is changed
again each time it is sanitized (a dot is no part of a Python identifier, so `_` is put in front), and letters
outside ASCII, which `\w` keeps, give a text that is no MLIR identifier.
-/

namespace Verif

open Verif.Onnx

theorem sub_ascii {U : Unicode} {c : Char} (h : c.toNat < 128) :
    ((if U.word c || c == '.' then c else '_') : Char).isAlphanum = true ∨
      (if U.word c || c == '.' then c else '_') = '_' ∨
      (if U.word c || c == '.' then c else '_') = '.' := by
  rw [U.word_ascii c h]
  by_cases h1 : c.isAlphanum = true
  · left; simp [h1]
  · by_cases h2 : c = '_'
    · right; left; simp [h2]
    · by_cases h3 : c = '.'
      · right; right; simp [h3]
      · right; left; simp [h1, h2, h3]

theorem word_underscore (U : Unicode) : U.word '_' = true := by
  rw [U.word_ascii '_' (by decide)]; decide

theorem alpha_alphanum {c : Char} (h : c.isAlpha = true) : c.isAlphanum = true := by
  simp [Char.isAlphanum, h]

/-- Sanitizing a name in ASCII gives a valid identifier. -/
theorem C29_valid_partial (U : Unicode) (s : List Char) (h : IsAscii s) :
    IsBareId (sanitizeName U s) := by
  have tail : ∀ l : List Char, IsAscii l → ∀ d ∈ subInvalid U l,
      d.isAlphanum = true ∨ d = '_' ∨ d = '$' ∨ d = '.' := by
    intro l hl d hd
    obtain ⟨c, hc, rfl⟩ := List.mem_map.mp hd
    rcases sub_ascii (U := U) (hl c hc) with h | h | h
    · exact Or.inl h
    · exact Or.inr (Or.inl h)
    · exact Or.inr (Or.inr (Or.inr h))
  unfold sanitizeName
  split
  · rename_i hid
    cases s with
    | nil => simp [isIdentifier] at hid
    | cons c cs =>
      simp only [isIdentifier, Bool.and_eq_true] at hid
      have hc : c.toNat < 128 := h c (by simp)
      rw [U.idStart_ascii c hc] at hid
      have hstart : c.isAlpha = true ∨ c = '_' := by simpa using hid.1
      have hw : U.word c = true := by
        rw [U.word_ascii c hc]
        rcases hstart with h | h
        · simp [alpha_alphanum h]
        · simp [h]
      refine ⟨c, subInvalid U cs, by simp [subInvalid, hw], hstart, ?_⟩
      exact tail cs (fun d hd => h d (List.mem_cons_of_mem _ hd))
  · refine ⟨'_', subInvalid U s, by simp [subInvalid, word_underscore], Or.inr rfl, tail s h⟩

/-- The empty name too: the result is never empty. -/
theorem C29_nonempty (U : Unicode) (s : List Char) : sanitizeName U s ≠ [] := by
  unfold sanitizeName
  split
  · rename_i h
    cases s with
    | nil => simp [isIdentifier] at h
    | cons c cs => simp [subInvalid]
  · simp [subInvalid]

/-- A Python identifier in ASCII (letters, digits, underscores, not starting with a digit) is left as it
is. -/
theorem C29_unchanged_partial (U : Unicode) (c : Char) (cs : List Char) (h : IsAscii (c :: cs))
    (hc : c.isAlpha = true ∨ c = '_') (hcs : ∀ d ∈ cs, d.isAlphanum = true ∨ d = '_') :
    sanitizeName U (c :: cs) = c :: cs := by
  have hid : isIdentifier U (c :: cs) = true := by
    simp only [isIdentifier, Bool.and_eq_true, List.all_eq_true]
    refine ⟨?_, fun d hd => ?_⟩
    · rw [U.idStart_ascii c (h c (by simp))]; simpa using hc
    · rw [U.idCont_ascii d (h d (List.mem_cons_of_mem _ hd))]; simpa using hcs d hd
  have hw : ∀ d ∈ c :: cs, (if U.word d || d == '.' then d else '_') = d := by
    intro d hd
    rw [U.word_ascii d (h d hd)]
    rcases List.mem_cons.mp hd with rfl | hd
    · rcases hc with hc | hc
      · simp [alpha_alphanum hc]
      · simp [hc]
    · rcases hcs d hd with h | h <;> simp [h]
  unfold sanitizeName
  rw [if_pos hid]
  unfold subInvalid
  conv => rhs; rw [← List.map_id (c :: cs)]
  exact List.map_congr_left hw

theorem mem_dot {U : Unicode} {s : List Char} : '.' ∈ subInvalid U s ↔ '.' ∈ s := by
  unfold subInvalid
  rw [List.mem_map]
  constructor
  · rintro ⟨c, hc, h⟩
    split at h
    · rw [← h]; exact hc
    · cases h
  · intro h
    exact ⟨'.', h, by simp⟩

/-- For names in ASCII, sanitizing twice is sanitizing once exactly if the name has no dot. -/
theorem C29_idempotent_partial (U : Unicode) (s : List Char) (h : IsAscii s) :
    sanitizeName U (sanitizeName U s) = sanitizeName U s ↔ '.' ∉ s := by
  have hdot : '.' ∈ sanitizeName U s ↔ '.' ∈ s := by
    unfold sanitizeName
    split
    · exact mem_dot
    · rw [mem_dot]; simp
  have hnid : '.' ∈ s → isIdentifier U (sanitizeName U s) = false := by
    intro hd
    have hd' := hdot.mpr hd
    cases hs : sanitizeName U s with
    | nil => rfl
    | cons c cs =>
      rw [hs] at hd'
      have h1 : U.idStart '.' = false := by rw [U.idStart_ascii _ (by decide)]; decide
      have h2 : U.idCont '.' = false := by rw [U.idCont_ascii _ (by decide)]; decide
      show (U.idStart c && cs.all U.idCont) = false
      rcases List.mem_cons.mp hd' with h | h
      · rw [← h, h1]; rfl
      · have : cs.all U.idCont = false := by
          rw [List.all_eq_false]
          exact ⟨'.', h, by simp [h2]⟩
        rw [this, Bool.and_false]
  constructor
  · intro heq hd
    have h1 := hnid hd
    have h2 : sanitizeName U (sanitizeName U s) = subInvalid U ('_' :: sanitizeName U s) := by
      show (if isIdentifier U (sanitizeName U s) then _ else _) = _
      rw [h1]; rfl
    rw [h2] at heq
    have := congrArg List.length heq
    simp [subInvalid] at this
  · intro hd
    obtain ⟨c, cs, heq, hc, hcs⟩ := C29_valid_partial U s h
    rw [heq]
    have hnd : '.' ∉ c :: cs := by rw [← heq, hdot]; exact hd
    have hmem : ∀ x ∈ sanitizeName U s, x.isAlphanum = true ∨ x = '_' ∨ x = '.' := by
      intro x hx
      have key : ∀ l : List Char, IsAscii l → x ∈ subInvalid U l →
          x.isAlphanum = true ∨ x = '_' ∨ x = '.' := by
        intro l hl hx
        obtain ⟨y, hy, rfl⟩ := List.mem_map.mp hx
        exact sub_ascii (hl y hy)
      unfold sanitizeName at hx
      split at hx
      · exact key s h hx
      · refine key ('_' :: s) ?_ hx
        intro y hy
        rcases List.mem_cons.mp hy with rfl | hy
        · decide
        · exact h y hy
    have hclean : ∀ x ∈ c :: cs, x.isAlphanum = true ∨ x = '_' := by
      intro x hx
      rcases hmem x (heq ▸ hx) with h | h | h
      · exact Or.inl h
      · exact Or.inr h
      · exact absurd (h ▸ hx) hnd
    refine C29_unchanged_partial U c cs ?_ hc (fun d hd => hclean d (List.mem_cons_of_mem _ hd))
    intro x hx
    rcases hclean x hx with h | h
    · simp only [Char.isAlphanum, Char.isAlpha, Char.isUpper, Char.isLower, Char.isDigit, Bool.or_eq_true,
        Bool.and_eq_true, decide_eq_true_eq] at h
      simp only [Char.toNat, UInt32.le_iff_toNat_le, ge_iff_le] at h ⊢
      simp only [show 'A'.val.toNat = 65 from rfl, show 'Z'.val.toNat = 90 from rfl,
        show 'a'.val.toNat = 97 from rfl, show 'z'.val.toNat = 122 from rfl,
        show '0'.val.toNat = 48 from rfl, show '9'.val.toNat = 57 from rfl] at h
      omega
    · rw [h]; decide

/-- Sanitizing `a.b` gives `_a.b`, sanitizing that gives `__a.b`: valid identifiers are changed, and the
operation is not idempotent. -/
theorem C29_violated (U : Unicode) :
    IsBareId ['a', '.', 'b'] ∧ sanitizeName U ['a', '.', 'b'] = ['_', 'a', '.', 'b'] ∧
      sanitizeName U (sanitizeName U ['a', '.', 'b']) = ['_', '_', 'a', '.', 'b'] := by
  have hdot : U.idCont '.' = false := by rw [U.idCont_ascii _ (by decide)]; decide
  have hdot' : U.word '.' = false := by rw [U.word_ascii _ (by decide)]; decide
  have hu : U.idStart '_' = true := by rw [U.idStart_ascii _ (by decide)]; decide
  have ha : U.word 'a' = true := by rw [U.word_ascii _ (by decide)]; decide
  have hb : U.word 'b' = true := by rw [U.word_ascii _ (by decide)]; decide
  refine ⟨⟨'a', ['.', 'b'], rfl, Or.inl (by decide), by decide⟩, ?_, ?_⟩
  · simp [sanitizeName, isIdentifier, hdot, subInvalid, ha, hb, word_underscore]
  · simp [sanitizeName, isIdentifier, hdot, subInvalid, ha, hb, word_underscore]

/-- A letter outside ASCII stays, and the result is no MLIR identifier. -/
theorem C29_unicode_violated (U : Unicode) (hw : U.word 'é' = true) :
    ¬ IsBareId (sanitizeName U ['é']) := by
  intro ⟨c, cs, heq, hc, hcs⟩
  have : 'é' ∈ c :: cs := by
    rw [← heq]
    unfold sanitizeName subInvalid
    split <;> simp [hw]
  rcases List.mem_cons.mp this with h | h
  · rw [← h] at hc; revert hc; decide
  · rcases hcs _ h with h | h | h | h <;> revert h <;> decide

/-- Python's classes restricted to ASCII. -/
def asciiOnly : Unicode where
  idStart c := decide (c.toNat < 128) && (c.isAlpha || c == '_')
  idCont c := decide (c.toNat < 128) && (c.isAlphanum || c == '_')
  word c := decide (c.toNat < 128) && (c.isAlphanum || c == '_')
  idStart_ascii := by intro c h; simp [h]
  idCont_ascii := by intro c h; simp [h]
  word_ascii := by intro c h; simp [h]

/-- With `é` a letter. -/
def withAccent : Unicode where
  idStart c := c == 'é' || asciiOnly.idStart c
  idCont c := c == 'é' || asciiOnly.idCont c
  word c := c == 'é' || asciiOnly.word c
  idStart_ascii := by
    intro c h
    have : c ≠ 'é' := by rintro rfl; revert h; decide
    simp [asciiOnly, h, this]
  idCont_ascii := by
    intro c h
    have : c ≠ 'é' := by rintro rfl; revert h; decide
    simp [asciiOnly, h, this]
  word_ascii := by
    intro c h
    have : c ≠ 'é' := by rintro rfl; revert h; decide
    simp [asciiOnly, h, this]

example : sanitizeName withAccent ['é'] = ['é'] := by decide
example : sanitizeName asciiOnly "/conv1/Weight:0".toList = "__conv1_Weight_0".toList := by decide
example : sanitizeName asciiOnly "x_1".toList = "x_1".toList := by decide
example : sanitizeName asciiOnly "".toList = "_".toList := by decide
example : IsAscii "/conv1/Weight:0".toList := by unfold IsAscii; decide

end Verif
