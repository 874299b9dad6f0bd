import Verif.Model.Registry

/-!
# What generated names should be
-/

namespace Verif.Reg

/-- A qualified operator name: a namespace and a name around `::`, without dots or further colons. -/
def Qualified (s : Text) : Prop :=
  ∃ a b : Text, s = a ++ ':' :: ':' :: b ∧ ('.' ∉ a ∧ ':' ∉ a) ∧ '.' ∉ b

/-- Characters of C++ identifiers (ASCII). -/
def identChar (c : Char) : Bool := c.isAlphanum || c = '_'

/-- A C++ identifier that does not start with an underscore. -/
def GoodClassName (s : Text) : Prop :=
  (∀ c ∈ s, identChar c = true) ∧ s.head? ≠ some '_' ∧ ∃ r, s = r ++ ['O', 'p']

/-- Text without the separators of the unique key. -/
def PlainName (s : Text) : Prop := '.' ∉ s ∧ ':' ∉ s ∧ ' ' ∉ s

/-- Text without the separators of library function names. -/
def PlainAtom (s : Text) : Prop := '.' ∉ s ∧ '〇' ∉ s ∧ '〡' ∉ s

/-- No argument or result carries alias information. -/
def NoAlias (o : Op) : Prop := ∀ p ∈ o.args ++ o.rets, p.alias = none

/-- No argument or result is written to. -/
def NoWrite (o : Op) : Prop := ∀ p ∈ o.args ++ o.rets, p.alias ≠ some true

end Verif.Reg
