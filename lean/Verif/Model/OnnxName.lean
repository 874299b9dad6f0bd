import Verif.Py.Basic

/-!
# `ContextCache._sanitize_name`

Strings are lists of characters.  What Python's Unicode database says about characters outside ASCII
is a parameter.
-/

namespace Verif.Onnx

/-- Python's character classes: `idStart`, `idCont` are those of `str.isidentifier`, `word` that of
`\w` in `re`.  Only their values on ASCII are fixed. -/
structure Unicode where
  idStart : Char → Bool
  idCont : Char → Bool
  word : Char → Bool
  idStart_ascii : ∀ c : Char, c.toNat < 128 → idStart c = (c.isAlpha || c == '_')
  idCont_ascii : ∀ c : Char, c.toNat < 128 → idCont c = (c.isAlphanum || c == '_')
  word_ascii : ∀ c : Char, c.toNat < 128 → word c = (c.isAlphanum || c == '_')

/-- `name.isidentifier()` -/
def isIdentifier (U : Unicode) : List Char → Bool
  | [] => false
  | c :: cs => U.idStart c && cs.all U.idCont

/-- `re.sub(r"[^\w\.]", "_", name)` -/
def subInvalid (U : Unicode) (s : List Char) : List Char :=
  s.map (fun c => if U.word c || c == '.' then c else '_')

/-- `_sanitize_name` (onnx_importer.py:750–756). -/
def sanitizeName (U : Unicode) (name : List Char) : List Char :=
  if isIdentifier U name then subInvalid U name else subInvalid U ('_' :: name)

end Verif.Onnx
