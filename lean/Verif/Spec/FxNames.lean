import Verif.Model.FxNames

/-!
# What function names should satisfy
-/

namespace Verif.Names

mutual

/-- The identities of a graph module and its descendants. -/
def GM.ids : GM → List Nat
  | .mk id children => id :: childrenIds children

def childrenIds : List (String × GM) → List Nat
  | [] => []
  | (_, g) :: rest => g.ids ++ childrenIds rest

end

mutual

/-- The names under which the descendants of a graph module are imported. -/
def GM.childNames : GM → List String
  | .mk _ children => childrenNames children

def childrenNames : List (String × GM) → List String
  | [] => []
  | (name, g) :: rest => name :: g.childNames ++ childrenNames rest

end

def Call.ids : Call → List Nat
  | .graphModule g _ => g.ids
  | .program children _ => childrenIds children

/-- Names asked for graph modules. -/
def Call.moduleNames : Call → List String
  | .graphModule g name => name :: g.childNames
  | .program children _ => childrenNames children

/-- Names asked for programs. -/
def Call.programNames : Call → List String
  | .graphModule _ _ => []
  | .program _ name => [name]

/-- `a` is `b` followed by an underscore and a number. -/
def LooksGenerated (a b : String) : Prop := ∃ k : Nat, a = b ++ "_" ++ toString k

/-- The function the symbol `s` refers to. -/
def State.resolve (st : State) (s : String) : Option Owner := dictGet st.symbols s

/-- The symbol by which other functions refer to the graph module `id`
(`_graph_module_to_func_name[id]`, used by the higher-order operations). -/
def State.reference (st : State) (id : Nat) : Option String := dictGet st.names id

end Verif.Names
