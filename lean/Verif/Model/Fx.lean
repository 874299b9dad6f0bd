import Verif.Py.Basic

/-!
# Model of the FX graph importer: one function body

Source: `python/torch_mlir/extras/fx_importer.py` (class `GraphNodeImporter`, lines 1394-2514, and
the helpers it uses).

The MLIR block being filled is the list of emitted operations, oldest first.  SSA values are
numbered (`Nat`): the block arguments are `0 … n-1`, every op result gets the next free number.  Python
objects that only pass through (tensors, schemas, the module's attributes, user hooks) are
parameters collected in `Env`; all theorems quantify over them.
Not modelled: MLIR verification of the emitted ops, source locations, contents of tensors.
-/

namespace Verif.Fx


/-- Element of a torch list type (`PY_TYPE_TO_TORCH_LIST_TYPE`, lines 2793-2809). -/
inductive Elt where
  | int | float | str | bool | tensor | vtensor
  deriving DecidableEq, Repr

/-- The part of an MLIR value's type the importer looks at. -/
inductive VTy where
  | vtensor | tensor | int | float | bool | str | none | device
  | list (optional : Bool) (e : Elt)
  | other
  deriving DecidableEq, Repr

/-- JIT types of schema parameters. -/
inductive JitTy where
  | tensor | int | float | number | bool | str
  | list (t : JitTy)
  | optional (t : JitTy)
  | other
  deriving DecidableEq, Repr

/-- Python literals with a converter in `LITERAL_CONVERTER_MAP` (lines 2736-2798). Tensors are
identified by an object number; `enum` stands for `torch.dtype`, `torch.layout`,
`torch.memory_format`, converted through a table to an int (`none`: not in the table). -/
inductive Lit where
  | none
  | bool (b : Bool)
  | int (i : Int)
  | float (q : Rat)
  | str (s : String)
  | tensor (obj : Nat) (isBool : Bool)
  | device (s : String)
  | enum (code : Option Int)
  | unsupported
  deriving DecidableEq

/-- An FX node object: a node of the graph, or the temporary node created while importing graph
node `user` (`_promote_symbolic_scalar_int_float`, lines 1645-1658). -/
inductive Ref where
  | graph (i : Nat)
  | temp (user : Nat)
  deriving DecidableEq, Repr

/-- Elements of list and tuple arguments; `nested` is anything that is neither a node nor a
literal (e.g. a list inside a list). -/
inductive Elem where
  | node (r : Ref)
  | lit (l : Lit)
  | nested
  deriving DecidableEq

/-- FX node arguments. -/
inductive Arg where
  | node (r : Ref)
  | lit (l : Lit)
  | list (xs : List Elem)
  | tuple (xs : List Elem)
  deriving DecidableEq

/-- Default value of a schema parameter: a Python scalar or a list of scalars, never a graph node. -/
inductive Dflt where
  | lit (l : Lit)
  | list (ls : List Lit)
  deriving DecidableEq

/-- The default as an argument. -/
def Dflt.arg : Dflt → Arg
  | .lit l => .lit l
  | .list ls => .list (ls.map .lit)

/-- A schema parameter; a parameter without default has Python default `None`. -/
structure Param where
  name : String
  ty : JitTy
  default : Dflt
  deriving DecidableEq

/-- A function schema: MLIR op name (`_get_mlir_op_name_for_schema`, lines 2638-2646), parameters and
number of returns. -/
structure Schema where
  opName : String
  params : List Param
  nReturns : Nat
  deriving DecidableEq

/-- Python type of a symbolic scalar. -/
inductive PyTy where
  | int | float | other
  deriving DecidableEq, Repr

/-- Call targets, as dispatched by `import_nodes` (lines 1609-1627) and `_import_hop`
(lines 1727-1740). -/
inductive Target where
  | getitem
  | builtin (name : String)
  | symbolic (name : String)
  | overload (s : Schema)
  | whileLoop
  | autoFunctionalized (s : Schema)
  | flexAttention (lse maxScores : Bool)
  | unknownHop
  | unknown
  deriving DecidableEq

/-- `node.op` with its payload. -/
inductive NodeOp where
  | placeholder
  | getAttr (target : String)
  | call (t : Target) (args : List Arg) (kwargs : List (String × Arg))
  | output (args : List Arg)
  | other
  deriving DecidableEq

/-- An FX node. `valTy` is the type of `meta["val"]`, `valTys` the types of its entries if it is a
tuple or list, `pyTy` the Python type of a symbolic scalar, `scalarVal` whether `meta["val"]` is a
literal or symbolic scalar, `syms` the sorted shape symbols if it has symbolic sizes. -/
structure Node where
  name : String
  op : NodeOp
  valTy : VTy
  valTys : List VTy
  pyTy : PyTy
  scalarVal : Bool
  syms : Option (List String)
  deriving DecidableEq

/-- Kinds of emitted operations. A literal that stands for a lifted parameter or buffer carries the
placeholder it was imported for (ghost information, not in the IR). -/
inductive OpKind where
  | const (l : Lit) (origin : Option Nat)
  | load (input : Nat)
  | numToTensor
  | convert (name : String)
  | listConstruct
  | listUnpack
  | torchOp (name : String)
  | call (callee : String)
  | loop (cond body : String)
  | flexAttention (scoreMod maskMod : Option String)
  | copyToVTensor
  | overwrite
  | store (input : Nat)
  | symbolicInt (name : String)
  | bindSymbolicShape
  | ret
  deriving DecidableEq

/-- An emitted operation. -/
structure Op where
  kind : OpKind
  operands : List Nat
  results : List Nat
  deriving DecidableEq

/-- Keys of `_v`: `(node, index)`, or the `(string, index)` looked up at line 2225. -/
inductive Key where
  | ref (r : Ref) (i : Int)
  | str (s : String) (i : Int)
  deriving DecidableEq, Repr

/-- What `_v` maps to: a value, a callback importing the lifted input `n` (lines 1536-1541,
1550-1553), or `None` (line 1929). -/
inductive Binding where
  | val (x : Nat)
  | lazy (n : Nat) (l : Lit)
  | none
  deriving DecidableEq

/-- Entries of `_on_node_produced`: overwrite a mutable argument (lines 1516-1522), or store to the
buffer of placeholder `n` (lines 1562-1566). -/
inductive Hook where
  | overwrite (mutable : Nat)
  | store (n : Nat)
  deriving DecidableEq, Repr

/-- State of a `GraphNodeImporter`. `tys` are the types of all SSA values so far. -/
structure St where
  tys : List VTy
  ops : List Op
  v : List (Key × Binding)
  hooks : List (String × Hook)
  multi : List Ref
  unpack : List (Ref × List Nat)
  syms : List (String × Nat)
  deriving DecidableEq

/-- What the importer reads but never changes. -/
structure Env where
  /-- the nodes of the graph -/
  nodes : List Node
  /-- `getattr(gm, target)` if present -/
  attr : String → Option Lit
  /-- `node_canonicalize` (lines 2939-2942): `none` drops the node -/
  canon : Schema → List Arg → List (String × Arg) → Py (Option (Schema × List Arg × List (String × Arg)))
  /-- `TENSOR_SCALAR_OP_CONVERTER` composed with the schema look-up (lines 2106-2118) -/
  scalarSchema : String → Option Schema
  /-- `PY_BUILTIN_TO_TORCH_OP` composed with `getattr(torch_op, op_overload)` (lines 1712-1716) -/
  builtinOp : String → String → Option Schema
  /-- `SYMBOLIC_OP_TO_TORCH_OP` (lines 1717-1721) -/
  symbolicOp : String → Option Schema
  /-- `aten.Float.Scalar` (line 1646) -/
  floatScalar : Schema
  /-- function name of the graph module stored under an attribute; `none`: no such attribute,
  `some none`: the module was not imported -/
  funcOf : String → Option (Option String)
  /-- whether the `resolve_input` hook provides the lifted input -/
  loadsInput : Nat → Bool
  /-- whether the `store_produced_value` hook supports the buffer (default: raises) -/
  storesBuffer : Nat → Bool

/-- Computations of the importer. -/
abbrev M := StateT St Py

/-- `raise e` -/
def raise {α : Type} (e : PyErr) : M α := fun _ => .error e

/-- `assert b` / guarded raise. -/
def guardM (b : Bool) (e : PyErr) : M Unit := fun s => if b then .ok ((), s) else .error e

/-- `Operation.create` at the end of the block. -/
def emit (k : OpKind) (operands : List Nat) (resTys : List VTy) : M (List Nat) := fun s =>
  let results := List.range' s.tys.length resTys.length
  .ok (results, { s with tys := s.tys ++ resTys, ops := s.ops ++ [⟨k, operands, results⟩] })

/-- `Operation.create(...).result` for an op with one result. -/
def emit1 (k : OpKind) (operands : List Nat) (ty : VTy) : M Nat := fun s =>
  .ok (s.tys.length, { s with tys := s.tys ++ [ty], ops := s.ops ++ [⟨k, operands, [s.tys.length]⟩] })

/-- The node object behind a reference. -/
def nodeOf (env : Env) (r : Ref) : Option Node :=
  match r with
  | .graph i => env.nodes[i]?
  | .temp _ => none

/-- `node.name` of a temporary node: `f"{param}_as_float"`; of a graph node: its name. -/
def tempName (paramName : String) : String := paramName ++ "_as_float"

/-- Type of a scalar constant op. -/
def Lit.ty : Lit → VTy
  | .none => .none
  | .bool _ => .bool
  | .int _ => .int
  | .float _ => .float
  | .str _ => .str
  | .tensor _ _ => .vtensor
  | .device _ => .device
  | .enum _ => .int
  | .unsupported => .other

/-- The converter of `LITERAL_CONVERTER_MAP` for the literal (lines 2737-2798). -/
def convertLit (l : Lit) (origin : Option Nat) : M Nat :=
  match l with
  | .unsupported => raise .typeError
  | .enum none => raise .keyError
  | .enum (some c) => emit1 (.const (.int c) origin) [] .int
  | l => emit1 (.const l origin) [] l.ty

/-- `_import_literal` (lines 2291-2317) with the default `resolve_literal` hook: boolean tensors are
imported as `uint8` and converted. -/
def importLiteral (l : Lit) (origin : Option Nat) : M Nat :=
  match l with
  | .tensor obj true => do
    let x ← emit1 (.const (.tensor obj true) origin) [] .vtensor
    let c ← emit1 (.const (.int 11) none) [] .int
    emit1 (.convert "torch.prims.convert_element_type") [x, c] .vtensor
  | l => convertLit l origin

/-- `_import_input` (lines 2319-2331); `mutable_producer_node_name` is never set by the callers. -/
def importInput (env : Env) (n : Nat) (l : Lit) : M Nat :=
  if env.loadsInput n then emit1 (.load n) [] .vtensor else importLiteral l (some n)

/-- Run the producer callback (lines 1453-1455, 1516-1522, 1562-1566); a value that is not an MLIR
value (a lazy callback or `None`) makes `Operation.create` raise. -/
def runHook (env : Env) (h : Hook) (b : Binding) : M Unit :=
  match b with
  | .val x =>
    match h with
    | .overwrite m => do let _ ← emit .overwrite [x, m] []
    | .store n => do
      guardM (env.storesBuffer n) .notImplemented
      let _ ← emit (.store n) [x] []
  | _ => raise .typeError

/-- `bind_node_value` (lines 1438-1455). -/
def bindNodeValue (env : Env) (name : String) (r : Ref) (b : Binding) (i : Int) : M Unit := do
  let s ← get
  guardM (!dictMem s.v (.ref r i)) .assertion
  set { s with v := dictSet s.v (.ref r i) b }
  match dictGet s.hooks name with
  | none => pure ()
  | some h => runHook env h b

/-- `resolve_node_value` (lines 1457-1470). -/
def resolveNodeValue (env : Env) (r : Ref) (i : Int) : M Nat := do
  let s ← get
  match dictGet s.v (.ref r i) with
  | none => raise .keyError
  | some (.val x) => pure x
  | some .none => raise .typeError
  | some (.lazy n l) => do
    let x ← importInput env n l
    modify fun s => { s with v := dictSet s.v (.ref r i) (.val x) }
    pure x

/-- `if b: self._multi_result_nodes.add(node)` -/
def addMultiIf (b : Bool) (r : Ref) : M Unit := fun s =>
  .ok ((), if b then { s with multi := r :: s.multi } else s)

/-- `torch.symbolic_int` with its binding (lines 2150-2165, 1472-1481). -/
def importSymbol (name : String) : M Unit := do
  let x ← emit1 (.symbolicInt name) [] .int
  let s ← get
  guardM (!dictMem s.syms name) .assertion
  set { s with syms := dictSet s.syms name x }

/-- `resolve_symbol_value` (lines 1483-1492). -/
def resolveSymbol (name : String) : M Nat := do
  let s ← get
  match dictGet s.syms name with
  | none => raise .keyError
  | some x => pure x

/-- Left-to-right evaluation of a list of imports. -/
def mapM' {α β : Type} (f : α → M β) : List α → M (List β)
  | [] => pure []
  | x :: xs => do
    let y ← f x
    let ys ← mapM' f xs
    pure (y :: ys)

/-- `_create_bind_symbolic_shape_ops` (lines 2167-2211). -/
def bindSymbolicShape (env : Env) (i : Nat) (node : Node) : M Unit :=
  match node.syms with
  | none => pure ()
  | some names => do
    let x ← resolveNodeValue env (.graph i) 0
    let ys ← mapM' resolveSymbol names
    let _ ← emit .bindSymbolicShape (x :: ys) []

/-- Bind a `get_attr` node to the literal of the module attribute (lines 2226-2233, 2394-2402). -/
def bindAttr (env : Env) (r : Ref) (name target : String) : M Unit :=
  match env.attr target with
  | none => raise .assertion
  | some l => do
    let x ← importLiteral l none
    bindNodeValue env name r (.val x) 0

/-- Node arguments of `_import_argument` (lines 2217-2235). The membership test of line 2225 uses
the key `(arg.target, 0)`. -/
def importNodeArg (env : Env) (r : Ref) : M Nat := do
  let s ← get
  guardM (!(s.multi.contains r)) .runtimeError
  match nodeOf env r with
  | some node =>
    match node.op with
    | .getAttr target =>
      if dictMem s.v (.str target 0) then pure () else bindAttr env r node.name target
    | _ => pure ()
  | none => pure ()
  resolveNodeValue env r 0

/-- Node elements of `_import_list_argument` (lines 2390-2403): here the key is `(operand, 0)`. -/
def importNodeElem (env : Env) (r : Ref) : M Nat := do
  let s ← get
  guardM (!(s.multi.contains r)) .runtimeError
  match nodeOf env r with
  | some node =>
    match node.op with
    | .getAttr target =>
      if dictMem s.v (.ref r 0) then pure () else bindAttr env r node.name target
    | _ => pure ()
  | none => pure ()
  resolveNodeValue env r 0

/-- `TORCH_TYPE_TO_PY_TYPE` (lines 2800-2806); `KeyError` otherwise. -/
def eltOf : JitTy → Option Elt
  | .int => some .int
  | .float => some .float
  | .str => some .str
  | .bool => some .bool
  | .tensor => some .vtensor
  | _ => none

/-- Element type and optionality of the expected list type (lines 2356-2381); `none` where the code
raises. -/
def listElt : Option JitTy → Option (Bool × Elt)
  | none => none
  | some t =>
    let parse (e : JitTy) : Option (Bool × Elt) :=
      let e := match e with | .list e' => e' | e => e
      match e with
      | .optional e' => (eltOf e').map fun x => (true, x)
      | e => (eltOf e).map fun x => (false, x)
    match t with
    | .list e => parse e
    | .optional (.list e) => parse (.list e)
    | _ => none

/-- `element_type in val_type` for tensors, else equality of the scalar type (lines 2404-2409). -/
def eltMatches (e : Elt) (t : VTy) : Bool :=
  match e, t with
  | .vtensor, .vtensor => true
  | .vtensor, .list _ .vtensor => true
  | .int, .int => true
  | .float, .float => true
  | .str, .str => true
  | .bool, .bool => true
  | _, _ => false

/-- `element_type == operand_type` for literals (lines 2411-2413). -/
def eltMatchesLit (e : Elt) (l : Lit) : Bool :=
  match e, l with
  | .int, .int _ => true
  | .float, .float _ => true
  | .str, .str _ => true
  | .bool, .bool _ => true
  | _, _ => false

/-- One list operand (lines 2386-2420). -/
def importListElem (env : Env) (isOpt : Bool) (e : Elt) (x : Elem) : M Nat :=
  match x with
  | .node r => do
    let x ← importNodeElem env r
    let s ← get
    guardM (eltMatches e ((s.tys[x]?).getD .other)) .assertion
    pure x
  | .lit l => do
    guardM ((isOpt && decide (l = .none)) || eltMatchesLit e l) .assertion
    convertLit l none
  | .nested => raise .assertion

/-- `_import_list_argument` (lines 2353-2430). -/
def importListArg (env : Env) (xs : List Elem) (ty : Option JitTy) : M Nat :=
  match listElt ty with
  | none => raise .assertion
  | some (isOpt, e) => do
    let ys ← mapM' (importListElem env isOpt e) xs
    emit1 .listConstruct ys (.list isOpt e)

/-- `_import_scalar_as_tensor` (lines 2333-2344). -/
def importScalarAsTensor (l : Lit) : M Nat :=
  match l with
  | .int _ | .float _ | .bool _ => do
    let x ← convertLit l none
    emit1 .numToTensor [x] .vtensor
  | _ => raise .typeError

/-- `_convert_type` (lines 2252-2289) with only an expected type. -/
def convertType (x : Nat) (ty : Option JitTy) : M Nat := do
  let s ← get
  if (s.tys[x]?).getD .other = .bool then
    match ty with
    | some .float => emit1 (.convert "torch.aten.Float.bool") [x] .float
    | some .int => emit1 (.convert "torch.aten.Int.bool") [x] .int
    | some .number => emit1 (.convert "torch.aten.Int.bool") [x] .int
    | _ => pure x
  else pure x

/-- Whether a literal is a tensor. -/
def Lit.isTensor : Lit → Bool
  | .tensor _ _ => true
  | _ => false

/-- Literal arguments (lines 2240-2247): a non-tensor passed for a tensor becomes one. -/
def importLitArg (l : Lit) (ty : Option JitTy) : M Nat :=
  if ty = some .tensor && !l.isTensor then importScalarAsTensor l else importLiteral l none

/-- `_import_argument` (lines 2213-2250). A tuple gives a Python list, on which `_convert_type` or
the caller raises; only `while_loop` carries handle tuples, see `importCarry`. -/
def importArgument (env : Env) (a : Arg) (ty : Option JitTy) : M Nat :=
  match a with
  | .node r => do
    let x ← importNodeArg env r
    convertType x ty
  | .list xs => do
    let x ← importListArg env xs ty
    convertType x ty
  | .tuple _ => raise .attributeError
  | .lit l => do
    let x ← importLitArg l ty
    convertType x ty

/-- `_import_default_value` (lines 2432-2444). -/
def importDefault (env : Env) (a : Arg) (ty : JitTy) : M Nat :=
  match a with
  | .list xs => importListArg env xs (some ty)
  | .lit l => convertLit l none
  | _ => raise .runtimeError

/-- The operand for one schema parameter (lines 2127-2144). -/
def importParam (env : Env) (args : List Arg) (kwargs : List (String × Arg)) (ip : Nat × Param) : M Nat :=
  match args[ip.1]? with
  | some a => importArgument env a (some ip.2.ty)
  | none =>
    match kwargs.lookup ip.2.name with
    | some a => importArgument env a (some ip.2.ty)
    | none => importDefault env ip.2.default.arg ip.2.ty

/-- `enumerate` -/
def enumFrom {α : Type} (n : Nat) : List α → List (Nat × α)
  | [] => []
  | x :: xs => (n, x) :: enumFrom (n + 1) xs

/-- Record the results of an op (lines 2146-2148). -/
def bindResults (env : Env) (name : String) (r : Ref) (off : Nat) (xs : List Nat) : M Unit := do
  let _ ← mapM' (fun (p : Nat × Nat) => bindNodeValue env name r (.val p.2) (p.1 : Int)) (enumFrom off xs)

/-- `is_scalar_arg` (lines 469-477). -/
def isScalarArg (env : Env) (a : Arg) : Bool :=
  match a with
  | .lit (.int _) => true
  | .lit (.float _) => true
  | .lit (.bool _) => true
  | .node r => match nodeOf env r with | some n => n.scalarVal | none => false
  | _ => false

/-- Choice of schema (lines 2104-2119): tensor ops applied to a scalar become scalar ops. -/
def pickSchema (env : Env) (s : Schema) (args : List Arg) : Py Schema :=
  match env.scalarSchema s.opName with
  | none => .ok s
  | some s' =>
    match args[1]? with
    | none => .error .indexError
    | some a => if isScalarArg env a then .ok s' else .ok s

/-- Lift a Python computation. -/
def liftPy {α : Type} (x : Py α) : M α := fun s =>
  match x with
  | .ok a => .ok (a, s)
  | .error e => .error e

/-- Result types (lines 2492-2514). -/
def resultTys (s : Schema) (valTy : VTy) (valTys : List VTy) : List VTy :=
  if s.nReturns = 1 then [valTy] else if s.nReturns = 0 then [] else valTys

/-- `_import_torch_op_overload` after canonicalisation (lines 2096-2148). -/
def importOp (env : Env) (name : String) (r : Ref) (valTy : VTy) (valTys : List VTy) (schema : Schema)
    (args : List Arg) (kwargs : List (String × Arg)) : M Unit := do
  guardM (decide (schema.opName ≠ "torch.aten.as_strided")) .notImplemented
  let schema ← liftPy (pickSchema env schema args)
  let tys := resultTys schema valTy valTys
  addMultiIf (decide (tys.length > 1)) r
  let operands ← mapM' (importParam env args kwargs) (enumFrom 0 schema.params)
  let results ← emit (.torchOp schema.opName) operands tys
  bindResults env name r 0 results

/-- `_import_torch_op_overload` without a concrete target (lines 2079-2148). -/
def importOverload (env : Env) (i : Nat) (node : Node) (schema : Schema) (args : List Arg)
    (kwargs : List (String × Arg)) : M Unit := do
  match ← liftPy (env.canon schema args kwargs) with
  | none => pure ()
  | some (schema, args, kwargs) =>
    importOp env node.name (.graph i) node.valTy node.valTys schema args kwargs

/-- Python type of an argument of a builtin (lines 1671-1674). -/
def argPyTy (env : Env) (a : Arg) : PyTy :=
  match a with
  | .node r => match nodeOf env r with | some n => n.pyTy | none => .other
  | .lit (.int _) => .int
  | .lit (.float _) => .float
  | _ => .other

/-- `_promote_symbolic_scalar_int_float` (lines 1645-1658). -/
def promoteToFloat (env : Env) (user : Nat) (r : Ref) : M Arg := do
  let pname := match nodeOf env r with | some n => n.name | none => ""
  importOp env (tempName pname) (.temp user) .float [] env.floatScalar [.node r] []
  pure (.node (.temp user))

/-- Promote the int argument of a mixed int/float builtin (lines 1686-1705); anything but a node
or an int literal makes `float()` raise. -/
def promoteArg (env : Env) (user : Nat) (a : Arg) : M Arg :=
  match a with
  | .node r => promoteToFloat env user r
  | .lit (.int k) => pure (.lit (.float k))
  | _ => raise .typeError

/-- Overload name and argument order for a Python builtin (lines 1668-1709). -/
def builtinArgs (env : Env) (i : Nat) (name : String) (args : List Arg) : M (String × List Arg) :=
  let tys := args.map (argPyTy env)
  let isInt := tys.map fun t => decide (t = .int)
  if isInt.all id then pure ("int", args)
  else if isInt.any id then
    match args, tys with
    | [a0, a1], [_, t1] =>
      if ["add", "lt", "ge", "ne", "gt"].contains name then
        pure ("float_int", if t1 = .float then [a1, a0] else [a0, a1])
      else if (isInt.head?).getD false then do
        let a0 ← promoteArg env i a0
        pure ("float", [a0, a1])
      else do
        let a1 ← promoteArg env i a1
        pure ("float", [a0, a1])
    | _, _ => raise .valueError
  else pure ("float", args)

/-- `_import_symbolic_torch_op` (lines 1660-1725). -/
def importSymbolic (env : Env) (i : Nat) (node : Node) (t : Target) (args : List Arg)
    (kwargs : List (String × Arg)) : M Unit :=
  match t with
  | .builtin name => do
    let (overload, args) ← builtinArgs env i name args
    match env.builtinOp name overload with
    | none => raise .assertion
    | some schema => importOp env node.name (.graph i) node.valTy node.valTys schema args kwargs
  | .symbolic name =>
    match env.symbolicOp name with
    | none => raise .assertion
    | some schema => importOp env node.name (.graph i) node.valTy node.valTys schema args kwargs
  | _ => raise .assertion

/-- Unpack a list-valued node once (lines 2466-2480). -/
def unpackList (env : Env) (r : Ref) : M Unit := do
  let s ← get
  match dictGet s.unpack r with
  | some _ => pure ()
  | none => do
    let x ← resolveNodeValue env r 0
    let s ← get
    match (s.tys[x]?).getD .other with
    | .list _ _ => do
      let ys ← emit .listUnpack [x] (match nodeOf env r with | some n => n.valTys | none => [])
      modify fun s => { s with unpack := dictSet s.unpack r ys }
    | _ => pure ()

/-- Bind an entry of an unpacked list (lines 2482-2490). -/
def bindUnpacked (env : Env) (i : Nat) (name : String) (r : Ref) (k : Int) : M Unit := do
  let s ← get
  match dictGet s.unpack r with
  | none => raise .keyError
  | some ys =>
    match pyGet ys k with
    | .error _ => raise .runtimeError
    | .ok y => bindNodeValue env name (.graph i) (.val y) 0

/-- `_import_getitem` (lines 2446-2490). -/
def importGetitem (env : Env) (i : Nat) (node : Node) (args : List Arg) : M Unit :=
  match args with
  | [.node r, .lit (.int k)] => do
    let s ← get
    if s.multi.contains r then do
      let x ← resolveNodeValue env r k
      bindNodeValue env node.name (.graph i) (.val x) 0
    else do
      unpackList env r
      bindUnpacked env i node.name r k
  | _ => raise .valueError

/-- The name of the function an attribute node refers to (lines 1759-1772). -/
def hopFunc (env : Env) (a : Arg) : M String :=
  match a with
  | .node r =>
    match nodeOf env r with
    | some n =>
      match n.op with
      | .getAttr t => match env.funcOf t with | some (some f) => pure f | _ => raise .keyError
      | _ => raise .assertion
    | none => raise .assertion
  | _ => raise .attributeError

/-- One carried value of `while_loop` (lines 1774-1781). -/
def importCarry (env : Env) (a : Arg) : M (List Nat) :=
  match a with
  | .tuple xs => mapM' (fun (e : Elem) => match e with
      | .node r => importArgument env (.node r) none
      | .lit l => importArgument env (.lit l) none
      | .nested => raise .assertion) xs
  | a => do
    let x ← importArgument env a none
    pure [x]

/-- `_import_hop_while_loop` (lines 1742-1876), as seen from the enclosing block; the loop region is
modelled in `Verif.Model.While`. -/
def importWhile (env : Env) (i : Nat) (node : Node) (args : List Arg) : M Unit :=
  match args with
  | c :: b :: carries => do
    let cname ← hopFunc env c
    let bname ← hopFunc env b
    let xss ← mapM' (importCarry env) carries
    let xs := xss.flatten
    let tys := if node.valTys.length > 1 then node.valTys else [node.valTy]
    addMultiIf (decide (node.valTys.length > 1)) (.graph i)
    let c0 ← emit1 (.call cname) xs .vtensor
    let b0 ← emit1 (.torchOp "torch.aten.Bool.Tensor") [c0] .bool
    let m ← emit1 (.const (.int 9223372036854775807) none) [] .int
    let ys ← emit (.loop cname bname) (m :: b0 :: xs) tys
    bindResults env node.name (.graph i) 0 ys
  | _ => raise .valueError

/-- Result types of an auto-functionalized op (lines 1892-1906). -/
def autoTys (noRet : Bool) (valTys : List VTy) : M (List VTy) :=
  if noRet then
    match valTys with
    | .none :: rest => pure rest
    | _ => raise .assertion
  else pure valTys

/-- Bind the results of an auto-functionalized op (lines 1924-1933). -/
def autoBind (env : Env) (name : String) (r : Ref) (noRet : Bool) (results : List Nat) : M Unit :=
  if noRet then do
    bindNodeValue env name r .none 0
    bindResults env name r 1 results
  else bindResults env name r 0 results

/-- `_import_hop_auto_functionalized` (lines 1878-1933); `valTys` has an entry `none` in front when
the schema returns nothing. -/
def importAutoFunctionalized (env : Env) (i : Nat) (node : Node) (schema : Schema)
    (kwargs : List (String × Arg)) : M Unit := do
  let noRet := decide (schema.nReturns = 0)
  let tys ← autoTys noRet node.valTys
  let operands ← mapM' (fun (p : Param) => match kwargs.lookup p.name with
    | some a => importArgument env a (some p.ty)
    | none => raise .keyError) schema.params
  let results ← emit (.torchOp schema.opName) operands tys
  addMultiIf true (.graph i)
  autoBind env node.name (.graph i) noRet results

/-- Optional function reference of `flex_attention` (lines 1974-2008): `None` unless an attribute
node whose module exists. -/
def optFunc (env : Env) (r : Ref) : M (Option String) :=
  match nodeOf env r with
  | some n =>
    match n.op with
    | .getAttr t =>
      match env.funcOf t with
      | none => pure none
      | some (some f) => pure (some f)
      | some none => raise .keyError
    | _ => raise .assertion
  | none => raise .assertion

/-- The `scale` operand of `flex_attention` (lines 2010-2027). -/
def importScale (env : Env) (a : Arg) : M Nat :=
  match a with
  | .lit .none => emit1 (.const .none none) [] .none
  | .lit (.int n) => emit1 (.const (.float n) none) [] .float
  | .lit (.float f) => emit1 (.const (.float f) none) [] .float
  | .lit (.bool b) => emit1 (.const (.float (if b then 1 else 0)) none) [] .float
  | a => importArgument env a none

/-- The `score_mod` function reference (lines 1974-1987). -/
def scoreFunc (env : Env) (a : Arg) : M (Option String) :=
  match a with
  | .node r => optFunc env r
  | _ => pure none

/-- The `mask_mod` function reference: last entry of the block mask (lines 1989-2008). -/
def maskFunc (env : Env) (a : Arg) : M (Option String) :=
  match a with
  | .tuple xs =>
    match xs.getLast? with
    | none => raise .indexError
    | some (.node r) => optFunc env r
    | some _ => pure none
  | _ => pure none

/-- `_import_hop_flex_attention` (lines 1935-2077); the two flags are the values of
`kernel_options` (7th argument). -/
def importFlex (env : Env) (i : Nat) (node : Node) (lse mx : Bool) (args : List Arg) : M Unit :=
  match args with
  | q :: k :: v :: score :: mask :: scale :: _ :: _ => do
    let q ← importArgument env q none
    let k ← importArgument env k none
    let v ← importArgument env v none
    let sref ← scoreFunc env score
    let mref ← maskFunc env mask
    let sc ← importScale env scale
    let tys := if node.valTys.length ≥ 2 then node.valTys else [node.valTy]
    addMultiIf (decide (node.valTys.length ≥ 2)) (.graph i)
    let a ← emit1 (.const (.bool lse) none) [] .bool
    let b ← emit1 (.const (.bool mx) none) [] .bool
    let ys ← emit (.flexAttention sref mref) [q, k, v, sc, a, b] tys
    bindResults env node.name (.graph i) 0 ys
  | _ => raise .valueError

/-- Dispatch of `call_function` nodes (lines 1609-1627, 1727-1740). -/
def importCall (env : Env) (i : Nat) (node : Node) (t : Target) (args : List Arg)
    (kwargs : List (String × Arg)) : M Unit :=
  match t with
  | .getitem => importGetitem env i node args
  | .builtin _ => importSymbolic env i node t args kwargs
  | .symbolic _ => importSymbolic env i node t args kwargs
  | .overload s => importOverload env i node s args kwargs
  | .whileLoop => importWhile env i node args
  | .autoFunctionalized s => importAutoFunctionalized env i node s kwargs
  | .flexAttention lse mx => importFlex env i node lse mx args
  | .unknownHop => raise .notImplemented
  | .unknown => raise .notImplemented

/-- The dispatch on `node.op` (lines 1607-1640). Returns the number of placeholders seen. -/
def importNodeOp (env : Env) (skip : Bool) (nArgs : Nat) (ph : Nat) (i : Nat) (node : Node) : M Nat :=
  match node.op with
  | .placeholder =>
    if skip then pure ph
    else do
      guardM (decide (ph < nArgs)) .indexError
      bindNodeValue env node.name (.graph i) (.val ph) 0
      pure (ph + 1)
  | .call t args kwargs => do
    importCall env i node t args kwargs
    pure ph
  | .output args =>
    if skip then pure ph
    else do
      let xs ← mapM' (fun a => importArgument env a none) args
      let _ ← emit .ret xs []
      pure ph
  | _ => pure ph

/-- Loop body of `import_nodes` (lines 1600-1643). -/
def importNode (env : Env) (skip symShapes : Bool) (nArgs : Nat) (ph : Nat) (i : Nat) : M Nat :=
  match env.nodes[i]? with
  | none => pure ph
  | some node => do
    let ph ← importNodeOp env skip nArgs ph i node
    if symShapes then do
      bindSymbolicShape env i node
      pure ph
    else pure ph

/-- The loop of `import_nodes`. -/
def importNodesLoop (env : Env) (skip symShapes : Bool) (nArgs : Nat) : Nat → List Nat → M Unit
  | _, [] => pure ()
  | ph, i :: is => do
    let ph ← importNode env skip symShapes nArgs ph i
    importNodesLoop env skip symShapes nArgs ph is

/-- `import_nodes` (lines 1583-1643). -/
def importNodes (env : Env) (skip symShapes : Bool) (symbols : List String) (nArgs : Nat)
    (is : List Nat) : M Unit := do
  let _ ← mapM' importSymbol (if symShapes then symbols else [])
  importNodesLoop env skip symShapes nArgs 0 is

/-- A fresh importer for a block with arguments of the given types (lines 1412-1436). -/
def St.init (argTys : List VTy) : St :=
  { tys := argTys, ops := [], v := [], hooks := [], multi := [], unpack := [], syms := [] }

end Verif.Fx
