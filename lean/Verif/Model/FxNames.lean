import Verif.Py.Basic

/-!
# Function symbols of imported graph modules

`FxImporter.import_graph_module` (python/torch_mlir/extras/fx_importer.py:1007–1044),
`_import_all_child_modules` (881–902), the ends of `import_stateless_graph` (1046–1090) and
`import_program` (860–879), as far as function names are concerned.  A graph module is its identity
(`id(gm)`; modules are assumed to stay alive while the importer is in use) and the list that
`named_children()` gives, restricted to graph modules.  The graphs themselves are in
`Verif.Model.Fx`.
-/

namespace Verif.Names

/-- A graph module: identity and named children. -/
inductive GM where
  | mk (id : Nat) (children : List (String × GM))

/-- Who a function of the MLIR module was generated from: a graph module or an entry program. -/
inductive Owner where
  | graphModule (id : Nat)
  | program
  deriving DecidableEq, Repr

/-- `_graph_module_to_func_name`, `_func_name_counter` (fx_importer.py:591–594), and MLIR's symbol
table: symbols with the function they name, and its `uniquingCounter`. -/
structure State where
  names : List (Nat × String)
  counter : Nat
  symbols : List (String × Owner)
  uniq : Nat
  deriving DecidableEq, Repr

/-- `f"{name}_{counter}"` (fx_importer.py:1030) -/
def gen (name : String) (k : Nat) : String := name ++ "_" ++ toString k

/-- MLIR `generateSymbolName`: try suffixes until one is unused (at most `fuel` attempts). -/
def generateSymbol (taken : List String) (base : String) (c : Nat) : Nat → String × Nat
  | 0 => (gen base c, c + 1)
  | fuel + 1 =>
    if gen base c ∈ taken then generateSymbol taken base (c + 1) fuel else (gen base c, c + 1)

/-- `self.symbol_table.insert(func)` (fx_importer.py:877, 1089): MLIR's `SymbolTable::insert` keeps
the function's name if it is unused and renames the function otherwise. -/
def insertSymbol (st : State) (name : String) (o : Owner) : State :=
  let taken := st.symbols.map Prod.fst
  if name ∈ taken then
    let (s, c) := generateSymbol taken name st.uniq (taken.length + 1)
    { st with symbols := (s, o) :: st.symbols, uniq := c }
  else { st with symbols := (name, o) :: st.symbols }

/-- Choice of the function name of a graph module (fx_importer.py:1024–1035): the name and the
updated importer. -/
def chooseName (st : State) (id : Nat) (name : String) : String × State :=
  match dictGet st.names id with
  | some n => (n, st)
  | none =>
    if name ∈ st.names.map Prod.snd then
      let n := gen name st.counter
      (n, { st with names := dictSet st.names id n, counter := st.counter + 1 })
    else (name, { st with names := dictSet st.names id name })

mutual

/-- `import_graph_module` (fx_importer.py:1007–1044): name, children, then the module itself. -/
def importGM (st : State) : GM → String → State
  | .mk id children, name =>
    let (n, st) := chooseName st id name
    let st := importChildren st children
    insertSymbol st n (.graphModule id)

/-- `_import_all_child_modules` (fx_importer.py:881–902) -/
def importChildren (st : State) : List (String × GM) → State
  | [] => st
  | (name, g) :: rest => importChildren (importGM st g name) rest

end

/-- A call of one of the importer's entry points. -/
inductive Call where
  /-- `import_graph_module(gm, func_name=name)` -/
  | graphModule (g : GM) (name : String)
  /-- `import_program(prog, func_name=name)`: the children of the program's graph module and then
  the program itself, whose name is not registered in the importer. -/
  | program (children : List (String × GM)) (name : String)

def call (st : State) : Call → State
  | .graphModule g name => importGM st g name
  | .program children name => insertSymbol (importChildren st children) name .program

/-- A sequence of calls on a new importer with an empty module. -/
def run (calls : List Call) : State := calls.foldl call ⟨[], 0, [], 0⟩

end Verif.Names
