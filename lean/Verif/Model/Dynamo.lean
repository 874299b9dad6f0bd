import Verif.Py.Basic
import Verif.Py.Loop

/-!
# Model of the TorchDynamo graph importer

Source: `projects/pt1/python/torch_mlir/_dynamo_fx_importer.py`.

Nodes are numbers; operations are emitted into one list, and a value is a block argument or result `j` of
the `i`-th operation.  Floats are rationals.  A list inside a list is kept only as `nested` (it is always
rejected, lines 384-404).  Not modelled: the texts of tensor types (lines 129-175; only how many results a node
has), locations, and the wording of messages.
-/

namespace Verif.Dyn

/-- JIT types (lines 101-122); `other` is any type the conversion to text does not know. -/
inductive Ty where
  | list (t : Ty) | bool | int | float | string | tensor | number | device | optional (t : Ty) | other
  deriving DecidableEq, Repr

/-- FX arguments that are not lists. -/
inductive Elem where
  | node (n : Nat) | none | bool (b : Bool) | int (i : Int) | float (q : Rat) | str (s : String)
  | dtype (s : String) | device (type : String) (index : Option Nat) | memoryFormat (s : String)
  | layout (s : String) | nested | other
  deriving DecidableEq, Repr

/-- FX arguments -/
inductive Arg where
  | elem (e : Elem) | list (l : List Elem)
  deriving DecidableEq, Repr

/-- `node.meta["val"]`: one fake tensor, a sequence of that many, something else, or missing. -/
inductive MetaVal where
  | tensor | tensors (n : Nat) | invalid | missing
  deriving DecidableEq, Repr

/-- A formal parameter of a schema. -/
structure Param where
  name : String
  type : Ty
  kwargOnly : Bool
  default : Option Arg
  deriving DecidableEq, Repr

/-- `OpOverload._schema`; `returns` are the types of the results. -/
structure Schema where
  ns : String
  name : String
  overload : String
  params : List Param
  returns : List Ty
  deriving DecidableEq, Repr

/-- `node.op` with `node.target`, or the values returned by an output node. -/
inductive NodeOp where
  | placeholder | overload (s : Schema) | getitem | otherCall | output (outs : List Arg) | otherOp
  deriving DecidableEq, Repr

/-- `torch.fx.Node` -/
structure Node where
  id : Nat
  op : NodeOp
  args : List Arg
  kwargs : List (String × Arg)
  val : MetaVal
  deriving DecidableEq, Repr

/-- Constants of the torch dialect. -/
inductive Const where
  | none | bool (b : Bool) | int (i : Int) | float (q : Rat) | str (s : String) | device (s : String)
  deriving DecidableEq, Repr

/-- MLIR values: block arguments and results of operations. -/
inductive Value where
  | arg (k : Nat) | res (op idx : Nat)
  deriving DecidableEq, Repr

/-- The operations the importer creates. -/
inductive MOp where
  | const (c : Const) | list (els : List Value) | call (name : String) (operands : List Value) (nres : Nat)
  deriving DecidableEq, Repr

/-- State of `_FXGraphImporter`: the block so far, `_env` and the number of placeholders seen. -/
structure State where
  ops : List MOp
  env : List ((Nat × Int) × Value)
  seen : Nat
  returned : Option (List Value)

/-- Expected type of a literal: a JIT type, or an MLIR type (the elements of lists, lines 396-397). -/
inductive Expect where
  | jit (t : Ty) | mlir
  deriving DecidableEq, Repr

/-! ## The supported subset (lines 38-93) -/

/-- `_check_meta_val` (lines 52-58) -/
def checkMeta (n : Node) : Py Unit :=
  match n.val with
  | .tensor | .tensors _ => .ok ()
  | _ => .error .runtimeError

/-- Lines 78-89: parameters after the positional ones have a default or are passed by keyword. -/
def checkParam (n : Node) (p : Param) : Py Unit :=
  pyGuard (p.default.isSome || (dictGet n.kwargs p.name).isSome) .runtimeError

/-- Body of the loop of lines 60-93. -/
def verifyNode (_ : Unit) (n : Node) : Py Unit :=
  match n.op with
  | .placeholder => checkMeta n
  | .overload s => do
    checkMeta n
    pyGuard (s.returns.all (· == .tensor)) .runtimeError
    pyAssert (n.args.length ≤ s.params.length)
    pyFold (fun _ p => checkParam n p) () (s.params.drop n.args.length)
  | .getitem => checkMeta n
  | .output _ => .ok ()
  | .otherCall => do
    checkMeta n
    .error .runtimeError
  | .otherOp => .error .runtimeError

/-- `_verify_fx_graph_conforms_to_subset` (lines 50-93) -/
def verify (g : List Node) : Py Unit := pyFold verifyNode () g

/-! ## Literals (lines 336-405) -/

/-- `DTYPE_TO_INT` (lines 198-216) -/
def dtypeToInt : List (String × Int) :=
  [("uint8", 0), ("int8", 1), ("int16", 2), ("int32", 3), ("int64", 4), ("float16", 5), ("float32", 6),
    ("float64", 7), ("complex64", 9), ("complex128", 10), ("bool", 11), ("qint8", 12), ("quint8", 13),
    ("bfloat16", 15)]

/-- `MEMORY_FORMAT_TO_INT` (lines 218-224) -/
def memoryFormatToInt : List (String × Int) :=
  [("contiguous_format", 0), ("preserve_format", 1), ("channels_last", 2), ("channels_last_3d", 3)]

/-- `LAYOUT_TO_INT` (lines 226-234) -/
def layoutToInt : List (String × Int) :=
  [("strided", 0), ("sparse_coo", 1), ("sparse_csr", 2), ("sparse_csc", 3), ("sparse_bsr", 4),
    ("sparse_bsc", 5)]

/-- Whether `_torch_type_to_mlir_type_string` knows the type (lines 101-122). -/
def Ty.known : Ty → Bool
  | .list t => t.known
  | .optional t => t.known
  | .bool | .int | .float | .string | .tensor => true
  | .number | .device | .other => false

/-- The recursion through optional types (lines 358-359). -/
def Ty.strip : Ty → Ty
  | .optional t => t.strip
  | t => t

def Expect.strip : Expect → Expect
  | .jit t => .jit t.strip
  | .mlir => .mlir

/-- Append an operation; the value is its first result. -/
def State.emit (s : State) (op : MOp) : Value × State :=
  (.res s.ops.length 0, { s with ops := s.ops ++ [op] })

/-- `self._env[(n, i)]` -/
def State.lookup (s : State) (n : Nat) (i : Int) : Py Value :=
  match dictGet s.env (n, i) with
  | some v => .ok v
  | none => .error .keyError

/-- The integer constant a table gives (lines 372-374, 378-383). -/
def importCode (s : State) (table : List (String × Int)) (key : String) (x : Expect) :
    Py (Value × State) :=
  if x = .jit .int then
    match dictGet table key with
    | some i => .ok (s.emit (.const (.int i)))
    | none => .error .keyError
  else .error .assertion

/-- `_import_literal` of what is not a list (lines 355-383, 405), optional types already stripped. -/
def importLiteral (s : State) (e : Elem) (x : Expect) : Py (Value × State) :=
  match e with
  | .none => .ok (s.emit (.const .none))
  | .bool b => .ok (s.emit (.const (.bool b)))
  | .int i => .ok (s.emit (.const (.int i)))
  | .float q => .ok (s.emit (.const (.float q)))
  | .str t => .ok (s.emit (.const (.str t)))
  | .dtype d => importCode s dtypeToInt d x
  | .device t _ => .ok (s.emit (.const (.device t)))
  | .memoryFormat m => importCode s memoryFormatToInt m x
  | .layout l => importCode s layoutToInt l x
  | .nested => .error .assertion
  | .node _ => .error .runtimeError
  | .other => .error .runtimeError

/-- `_import_argument` of what is not a list (lines 336-353) -/
def importElem (s : State) (e : Elem) (x : Option Expect) : Py (Value × State) :=
  match e with
  | .node n => do
    let v ← s.lookup n 0
    .ok (v, s)
  | e =>
    match x with
    | none => .error .assertion
    | some x => importLiteral s e x.strip

/-- Body of the comprehension of line 397. -/
def importEl (st : List Value × State) (e : Elem) : Py (List Value × State) := do
  let r ← importElem st.2 e (some .mlir)
  .ok (st.1 ++ [r.1], r.2)

/-- Body of the comprehension of line 393 (and of the check of lines 388-392, which a verified node
passes). -/
def importTensorEl (s : State) (e : Elem) : Py Value :=
  match e with
  | .node n => s.lookup n 0
  | _ => .error .attributeError

/-- `_import_literal` of a list (lines 384-404) -/
def importList (s : State) (l : List Elem) (x : Expect) : Py (Value × State) :=
  match x.strip with
  | .jit (.list .tensor) => do
    let els ← pyMap (importTensorEl s) l
    .ok (s.emit (.list els))
  | .jit (.list t) => do
    pyGuard t.known .runtimeError
    let r ← pyFold importEl ([], s) l
    .ok (r.2.emit (.list r.1))
  | _ => .error .assertion

/-- `_import_argument` (lines 336-353) -/
def importArg (s : State) (a : Arg) (x : Option Expect) : Py (Value × State) :=
  match a with
  | .elem e => importElem s e x
  | .list l =>
    match x with
    | none => .error .assertion
    | some x => importList s l x

/-! ## Calls (lines 298-334) -/

/-- Lines 321-326: the argument used for the `i`-th parameter. -/
def pick (args : List Arg) (kwargs : List (String × Arg)) (i : Nat) (p : Param) : Arg :=
  if p.kwargOnly && (dictGet kwargs p.name).isSome then (dictGet kwargs p.name).getD (.elem .none)
  else if h : i < args.length then args[i]
  else p.default.getD (.elem .none)

/-- Body of the loop of lines 320-327. -/
def importParam (n : Node) (st : List Value × State) (ip : Nat × Param) : Py (List Value × State) := do
  let r ← importArg st.2 (pick n.args n.kwargs ip.1 ip.2) (some (.jit ip.2.type))
  .ok (st.1 ++ [r.1], r.2)

/-- `mlir_op_name` (lines 304-307) -/
def Schema.opName (s : Schema) : String :=
  let base := "torch." ++ s.ns ++ "." ++ s.name
  if s.overload = "" then base else base ++ "." ++ s.overload

/-- `len(_mlir_types_for_node(node))` (lines 172-175) -/
def Node.results (n : Node) : Nat :=
  match n.val with
  | .tensors k => k
  | _ => 1

/-- Body of the loop of lines 333-334. -/
def bindResult (id op : Nat) (env : List ((Nat × Int) × Value)) (j : Nat) : List ((Nat × Int) × Value) :=
  dictSet env (id, (j : Int)) (.res op j)

def enumerate {α : Type} (l : List α) : List (Nat × α) := (List.range l.length).zip l

/-- `_import_op_overload_call` (lines 298-334) -/
def importCall (reg : String → Bool) (s : State) (n : Node) (sch : Schema) : Py State := do
  pyAssert (reg sch.opName)
  let r ← pyFold (importParam n) ([], s) (enumerate sch.params)
  .ok { r.2 with
    ops := r.2.ops ++ [.call sch.opName r.1 n.results]
    env := (List.range n.results).foldl (bindResult n.id r.2.ops.length) r.2.env }

/-- The key of line 285: `True` and `1` are the same key. -/
def indexKey : Arg → Option Int
  | .elem (.int i) => some i
  | .elem (.bool b) => some (if b then 1 else 0)
  | _ => none

/-- Lines 283-286 -/
def importGetitem (s : State) (n : Node) : Py State :=
  match n.args with
  | .elem (.node m) :: i :: _ =>
    match indexKey i with
    | some i => do
      let v ← s.lookup m i
      .ok { s with env := dictSet s.env (n.id, 0) v }
    | none => .error .keyError
  | _ :: _ :: _ => .error .keyError
  | _ => .error .indexError

/-- Body of the comprehension of line 294. -/
def importOut (st : List Value × State) (a : Arg) : Py (List Value × State) := do
  let r ← importArg st.2 a none
  .ok (st.1 ++ [r.1], r.2)

/-- Body of the loop of lines 275-295. -/
def importNode (reg : String → Bool) (s : State) (n : Node) : Py State :=
  match n.op with
  | .placeholder => .ok { s with env := dictSet s.env (n.id, 0) (.arg s.seen), seen := s.seen + 1 }
  | .overload sch => importCall reg s n sch
  | .getitem => importGetitem s n
  | .otherCall => .error .assertion
  | .output outs => do
    let r ← pyFold importOut ([], s) outs
    .ok { r.2 with returned := some r.1 }
  | .otherOp => .ok s

/-- The function: its operations and the operands of `return`. -/
structure Func where
  ops : List MOp
  returned : Option (List Value)
  deriving DecidableEq, Repr

/-- `import_fx_graph_as_func` (lines 409-424) -/
def importGraph (reg : String → Bool) (g : List Node) : Py Func := do
  verify g
  let s ← pyFold (importNode reg) ⟨[], [], 0, none⟩ g
  .ok ⟨s.ops, s.returned⟩

end Verif.Dyn
