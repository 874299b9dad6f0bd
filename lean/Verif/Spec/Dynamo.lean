import Verif.Model.Dynamo

/-!
# What a graph computes, and what the imported function computes

Both are evaluated over an arbitrary domain `T` of tensors and an arbitrary interpretation of the operators.
-/

namespace Verif.Dyn

/-- Run-time values. -/
inductive V (T : Type) where
  | tensor (t : T) | none | bool (b : Bool) | int (i : Int) | float (q : Rat) | str (s : String)
  | device (s : String) | list (l : List (V T))

/-- Meaning of the operators, by full name, and of indexing a tensor. -/
structure Interp (T : Type) where
  call : String → List (V T) → List T
  index : T → Int → T

/-! ## Calls -/

/-- The value a call passes for a parameter: positionally, by keyword, or else its default. -/
def passed (args : List Arg) (kwargs : List (String × Arg)) (i : Nat) (p : Param) : Option Arg :=
  match args[i]? with
  | some a => some a
  | none =>
    match dictGet kwargs p.name with
    | some a => some a
    | none => p.default

/-- No parameter is passed both positionally and by keyword. -/
def ValidCall (args : List Arg) (kwargs : List (String × Arg)) (ps : List Param) : Prop :=
  ∀ (i : Nat) (p : Param), ps[i]? = some p → i < args.length → dictGet kwargs p.name = none

/-- Only keyword-only parameters are passed by keyword. -/
def KeywordOnly (kwargs : List (String × Arg)) (ps : List Param) : Prop :=
  ∀ p ∈ ps, (dictGet kwargs p.name).isSome → p.kwargOnly = true

/-! ## The graph -/

/-- What a node stands for. -/
inductive NV (T : Type) where
  | tensor (t : T) | tuple (l : List T)

/-- Code of a dtype: its place among PyTorch's scalar types. -/
def dtypeCode (d : String) : Option Int :=
  (["uint8", "int8", "int16", "int32", "int64", "float16", "float32", "float64", "complex32",
    "complex64", "complex128", "bool", "qint8", "quint8", "qint32", "bfloat16"].idxOf? d).map Int.ofNat

/-- Code of a memory format. -/
def memoryFormatCode (m : String) : Option Int :=
  (["contiguous_format", "preserve_format", "channels_last", "channels_last_3d"].idxOf? m).map Int.ofNat

/-- Code of a layout. -/
def layoutCode (l : String) : Option Int :=
  (["strided", "sparse_coo", "sparse_csr", "sparse_csc", "sparse_bsr", "sparse_bsc"].idxOf? l).map
    Int.ofNat

/-- Full name of a device. -/
def deviceName (type : String) : Option Nat → String
  | none => type
  | some i => type ++ ":" ++ toString i

/-- What an argument that is not a list means for a parameter of some type; undefined if it does not fit. -/
def meanElem {T : Type} (ρ : List (Nat × NV T)) : Ty → Elem → Option (V T)
  | _, .node n => match dictGet ρ n with
    | some (.tensor t) => some (.tensor t)
    | _ => none
  | .optional _, .none => some .none
  | .optional t, e => meanElem ρ t e
  | .bool, .bool b => some (.bool b)
  | .int, .bool b => some (.int (if b then 1 else 0))
  | .float, .bool b => some (.float (if b then 1 else 0))
  | .number, .bool b => some (.bool b)
  | .int, .int i => some (.int i)
  | .float, .int i => some (.float i)
  | .number, .int i => some (.int i)
  | .float, .float q => some (.float q)
  | .number, .float q => some (.float q)
  | .string, .str s => some (.str s)
  | .int, .dtype d => (dtypeCode d).map .int
  | .int, .memoryFormat m => (memoryFormatCode m).map .int
  | .int, .layout l => (layoutCode l).map .int
  | .device, .device t i => some (.device (deviceName t i))
  | _, _ => none

/-- What an argument means for a parameter of some type. -/
def meanArg {T : Type} (ρ : List (Nat × NV T)) : Ty → Arg → Option (V T)
  | ty, .elem e => meanElem ρ ty e
  | .list t, .list l => (l.mapM (meanElem ρ t)).map .list
  | .optional t, .list l => meanArg ρ t (.list l)
  | _, .list _ => none

/-- The meaning of the value passed for a parameter. -/
def meanParam {T : Type} (ρ : List (Nat × NV T)) (n : Node) (ip : Nat × Param) : Option (V T) :=
  (passed n.args n.kwargs ip.1 ip.2).bind (meanArg ρ ip.2.type)

/-- Full name of an operator. -/
def fullName (s : Schema) : String :=
  "torch" ++ String.join (([s.ns, s.name] ++ if s.overload = "" then [] else [s.overload]).map ("." ++ ·))

/-- The results of a node as its `val` describes them. -/
def asNode {T : Type} : MetaVal → List T → Option (NV T)
  | .tensor, [t] => some (.tensor t)
  | .tensors n, l => if l.length = n then some (.tuple l) else none
  | _, _ => none

/-- `x[i]` of a tuple (from the end if negative) or of a tensor. -/
def item {T : Type} (I : Interp T) : NV T → Int → Option T
  | .tuple l, i => if 0 ≤ i then l[i.toNat]? else if -i ≤ l.length then l[(l.length + i).toNat]? else none
  | .tensor t, i => some (I.index t i)

/-- Values of nodes, the inputs not yet used, and the outputs. -/
structure FxState (T : Type) where
  ρ : List (Nat × NV T)
  inputs : List T
  outs : Option (List T)

/-- The tensor an argument denotes. -/
def outTensor {T : Type} (ρ : List (Nat × NV T)) : Arg → Option T
  | .elem (.node n) => match dictGet ρ n with
    | some (.tensor t) => some t
    | _ => none
  | _ => none

/-- One node of the graph. -/
def fxStep {T : Type} (I : Interp T) (s : FxState T) (n : Node) : Option (FxState T) :=
  match n.op with
  | .placeholder => match s.inputs with
    | t :: r => some ⟨dictSet s.ρ n.id (.tensor t), r, s.outs⟩
    | [] => none
  | .overload sch => do
    let vs ← ((List.range sch.params.length).zip sch.params).mapM (meanParam s.ρ n)
    let nv ← asNode n.val (I.call (fullName sch) vs)
    some ⟨dictSet s.ρ n.id nv, s.inputs, s.outs⟩
  | .getitem => match n.args with
    | [.elem (.node m), .elem (.int i)] => do
      let nv ← dictGet s.ρ m
      let t ← item I nv i
      some ⟨dictSet s.ρ n.id (.tensor t), s.inputs, s.outs⟩
    | _ => none
  | .output outs => do
    let ts ← outs.mapM (outTensor s.ρ)
    some ⟨s.ρ, s.inputs, some ts⟩
  | _ => none

/-- All nodes. -/
def fxRun {T : Type} (I : Interp T) : FxState T → List Node → Option (FxState T)
  | s, [] => some s
  | s, n :: g => match fxStep I s n with
    | some s' => fxRun I s' g
    | none => none

/-- The outputs of a graph for given inputs. -/
def fxEval {T : Type} (I : Interp T) (g : List Node) (inputs : List T) : Option (List T) :=
  (fxRun I ⟨[], inputs, none⟩ g).bind (·.outs)

/-! ## The imported function -/

/-- Run-time value of a constant. -/
def Const.value {T : Type} : Const → V T
  | .none => .none
  | .bool b => .bool b
  | .int i => .int i
  | .float q => .float q
  | .str s => .str s
  | .device s => .device s

/-- Value of an operand, given the results of the operations before. -/
def evalValue {T : Type} (inputs : List T) (res : List (List (V T))) : Value → Option (V T)
  | .arg k => inputs[k]?.map .tensor
  | .res i j => res[i]?.bind (·[j]?)

/-- Results of one operation. -/
def evalOp {T : Type} (I : Interp T) (inputs : List T) (res : List (List (V T))) :
    MOp → Option (List (V T))
  | .const c => some [c.value]
  | .list els => (els.mapM (evalValue inputs res)).map fun l => [.list l]
  | .call name operands nres => do
    let vs ← operands.mapM (evalValue inputs res)
    if (I.call name vs).length = nres then some ((I.call name vs).map .tensor) else none

/-- Results of all operations, in order. -/
def evalOps {T : Type} (I : Interp T) (inputs : List T) :
    List (List (V T)) → List MOp → Option (List (List (V T)))
  | res, [] => some res
  | res, op :: ops => match evalOp I inputs res op with
    | some r => evalOps I inputs (res ++ [r]) ops
    | none => none

/-- The values the function returns. -/
def evalFunc {T : Type} (I : Interp T) (f : Func) (inputs : List T) : Option (List (V T)) := do
  let res ← evalOps I inputs [] f.ops
  let vs ← f.returned
  vs.mapM (evalValue inputs res)

/-! ## Restrictions -/

/-- No conversion is needed: no integer for a float, no boolean for a number type, no device index. -/
def ExactElem : Ty → Elem → Prop
  | .optional t, e => ExactElem t e
  | .int, .bool _ => False
  | .float, .bool _ => False
  | .float, .int _ => False
  | _, .device _ i => i = none
  | _, _ => True

def ExactArg : Ty → Arg → Prop
  | ty, .elem e => ExactElem ty e
  | .list t, .list l => ∀ e ∈ l, ExactElem t e
  | .optional t, .list l => ExactArg t (.list l)
  | _, .list _ => True

/-- The calls for which the importer does what the graph says. -/
def NodeOk (n : Node) : Prop :=
  match n.op with
  | .overload s => ValidCall n.args n.kwargs s.params ∧ KeywordOnly n.kwargs s.params ∧
      ∀ (i : Nat) (p : Param) (a : Arg), s.params[i]? = some p → passed n.args n.kwargs i p = some a →
        ExactArg p.type a
  | _ => True

/-- Items are taken only from nodes with several results. -/
def GetitemOk (g : List Node) : Prop :=
  ∀ n ∈ g, n.op = .getitem → ∀ (m : Nat) (i : Int), n.args = [.elem (.node m), .elem (.int i)] →
    ∀ k ∈ g, k.id = m → ∃ c, k.val = .tensors c ∧ ∃ s, k.op = .overload s

end Verif.Dyn
