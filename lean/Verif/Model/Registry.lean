import Verif.Py.Basic
import Verif.Py.Text

/-!
# Model of the operator registry and its names

Source: `projects/pt1/python/torch_mlir/jit_ir_importer/build_tools/registry.py` lines 111-200, 202-224,
363-449, `library_generator.py` lines 196-228 and `torch_ods_gen.py` lines 237-268.

Strings are lists of characters; `upper` is that of ASCII letters.  Of a parameter only the type and the
alias information are kept.  Not modelled: the printed signatures of parameters and results.
-/

namespace Verif.Reg

abbrev Text := List Char

/-- An argument or a return: its type, and `alias_info["is_write"]` if it has alias information. -/
structure Param where
  type : Text
  alias : Option Bool
  deriving DecidableEq, Repr

/-- `JitOperator` (lines 114-129) -/
structure Op where
  ns : Text
  name : Text
  overload : Text
  isVararg : Bool
  isVarret : Bool
  args : List Param
  rets : List Param
  deriving DecidableEq, Repr

/-- `s.partition("::")` without the middle part (line 118) -/
def partitionColons : Text → Text × Text
  | [] => ([], [])
  | [c] => ([c], [])
  | c :: d :: r =>
    if c = ':' ∧ d = ':' then ([], r)
    else (c :: (partitionColons (d :: r)).1, (partitionColons (d :: r)).2)

/-- `JitOperator.__init__` (lines 114-129): `qualified` is `op_info["name"][0]`. -/
def Op.ofInfo (qualified overload : Text) (isVararg isVarret : Bool) (args rets : List Param) : Op :=
  ⟨(partitionColons qualified).1, (partitionColons qualified).2, overload, isVararg, isVarret, args, rets⟩

/-- `triple` (lines 164-171) -/
def Op.triple (o : Op) : Text × Text × Text := (o.ns, o.name, o.overload)

/-- `op_name_atoms` (lines 186-188) -/
def Op.atoms (o : Op) : List Text :=
  [o.ns, o.name] ++ (if o.overload = [] then [] else [o.overload])

/-- The MLIR op name (line 189) -/
def Op.opName (o : Op) : Text := pyJoin ['.'] o.atoms

/-- `uppercase_first_letter` (lines 181-184) -/
def upperFirst : Text → Text
  | [] => []
  | c :: s => c.toUpper :: s

/-- `s if s else "_"` (line 194) -/
def orUnder (s : Text) : Text := if s = [] then ['_'] else s

/-- `op_class_name_atoms` (lines 191-194) -/
def Op.classAtoms (o : Op) : List Text := ((o.atoms.map (pySplit '_')).flatten).map orUnder

/-- The C++ class name (lines 195-199) -/
def Op.className (o : Op) : Text :=
  ((o.classAtoms.map upperFirst).flatten ++ ['O', 'p']).dropWhile (· = '_')

/-- `", ".join(…["type"])` or `"..."` (lines 153-160) -/
def typeList (isVar : Bool) (ps : List Param) : Text :=
  if isVar then ['.', '.', '.'] else pyJoin [',', ' '] (ps.map (·.type))

/-- `create_unique_key` (lines 131-161) -/
def Op.uniqueKey (o : Op) : Text :=
  o.ns ++ [':', ':'] ++ o.name ++ (if o.overload = [] then [] else '.' :: o.overload)
    ++ " : (".toList ++ typeList o.isVararg o.args ++ ") -> (".toList ++ typeList o.isVarret o.rets
    ++ [')']

/-- The name of the library function (lines 208-212) -/
def Op.defName (o : Op) (kind : Text) : Text :=
  pyJoin ['〇'] (pySplit '.' o.opName) ++ '〡' :: kind

/-- `tuple(atoms)` used as a key (library_generator.py lines 208-212); other lengths match no triple. -/
def tripleOf : List Text → Option (Text × Text × Text)
  | [a, b] => some (a, b, [])
  | [a, b, c] => some (a, b, c)
  | _ => none

/-- `Registry` (lines 417-425) -/
structure Registry where
  byUniqueKey : List (Text × Op)
  byTriple : List ((Text × Text × Text) × Op)

/-- Body of the loop of lines 423-425. -/
def Registry.add (r : Registry) (o : Op) : Registry :=
  ⟨dictSet r.byUniqueKey o.uniqueKey o, dictSet r.byTriple o.triple o⟩

/-- `Registry.__init__` (lines 420-425) -/
def Registry.ofOps (ops : List Op) : Registry := ops.foldl Registry.add ⟨[], []⟩

/-- Lines 207-214 of library_generator.py: the operator a library function is for, and the kind. -/
def operatorOf (r : Registry) (fname : Text) : Py (Op × Text) :=
  match pySplit '〡' fname with
  | [functionName, kind] =>
    match (tripleOf (pySplit '〇' functionName)).bind (dictGet r.byTriple) with
    | some o => .ok (o, kind)
    | none => .error .valueError
  | _ => .error .valueError

/-- `is_readonly` (lines 397-414) -/
def Op.isReadonly (o : Op) : Bool :=
  (o.args ++ o.rets).all fun p => p.alias != some true

/-- The keys excluded by name (lines 386-394) -/
def excludedKeys : List Text :=
  ["prim::unchecked_cast : (t) -> (t)".toList, "aten::__is__ : (t1, t2) -> (bool)".toList,
    "aten::__isnot__ : (t1, t2) -> (bool)".toList]

/-- `has_value_semantics` (lines 363-395) -/
def Op.hasValueSemantics (o : Op) : Bool :=
  if !o.isReadonly then false
  else if o.isVararg || o.isVarret then false
  else if (o.args ++ o.rets).any (fun p => p.alias.isSome) then false
  else if excludedKeys.contains o.uniqueKey then false
  else true

/-- The traits `emit_op` derives (torch_ods_gen.py lines 251-259), after the given ones. -/
def emitTraits (o : Op) (given : List String) : List String :=
  given ++ ["AllowsTypeRefinement"] ++ (if o.hasValueSemantics then ["HasValueSemantics"] else [])
    ++ (if o.isReadonly then ["ReadOnly"] else [])

end Verif.Reg
