import Verif.Model.OnnxFunctions

/-!
# Which function definition an ONNX operator has, when it may be used, and what its attributes are
-/

namespace Verif.Onnx

/-- `op` is among the operators given for `domain`. -/
def Listed (lists : List (String × List String)) (domain op : String) : Prop :=
  ∃ ops, dictGet lists domain = some ops ∧ op ∈ ops

/-- The policy: not denied, and allowed if there is a list of allowed operators. -/
def MayExpand (c : Config) (domain op : String) : Prop :=
  (∀ lists, c.allow = some lists → Listed lists domain op) ∧ ¬ Listed c.deny domain op

/-- `s` has a function body for version `v`, `cd` saying of which kind. -/
def Schema.HasBody (s : Schema) (v : Int) (cd : Bool) : Prop :=
  if cd then v ∈ s.contextVersions else v ∈ s.plainVersions

/-- An operator has one schema per version.  The bodies of a schema are valid from a version not before the
schema's own, and before the next schema of the operator. -/
def WellVersioned (registry : List Schema) : Prop :=
  (∀ s ∈ registry, ∀ s' ∈ registry, s'.name = s.name → s'.domain = s.domain → s'.since = s.since → s' = s) ∧
  ∀ s ∈ registry, ∀ v cd, s.HasBody v cd → s.since ≤ v ∧
    ∀ s' ∈ registry, s'.name = s.name → s'.domain = s.domain → s.since < s'.since → v < s'.since

/-- The value of an attribute of a function body, for a caller: a reference stands for the caller's attribute,
else for the default, else for nothing. -/
def Bound (caller : List Attr) (defaults : List (String × Option Attr)) (a : Attr) (r : Option Attr) :
    Prop :=
  if a.ref = "" then r = some a
  else (∃ pre c post, caller = pre ++ c :: post ∧ (∀ x ∈ pre, x.name ≠ a.ref) ∧ c.name = a.ref ∧
      r = some (c.rename a.name)) ∨
    ((∀ x ∈ caller, x.name ≠ a.ref) ∧
      ((∃ d, dictGet defaults a.ref = some (some d) ∧ d.type ≠ 0 ∧ r = some (d.rename a.name)) ∨
        ((dictGet defaults a.ref = some none ∨
          ∃ d, dictGet defaults a.ref = some (some d) ∧ d.type = 0) ∧ r = none)))

/-- A reference to an attribute left in a node of the graph. -/
def HasRef (g : Graph) : Prop := ∃ n ∈ g.nodes, ∃ a ∈ n.attrs, a.ref ≠ ""

end Verif.Onnx
