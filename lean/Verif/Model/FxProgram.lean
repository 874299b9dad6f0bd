import Verif.Model.Fx

/-!
# Model of `FxImporter.import_program` and `import_stateless_graph`

Source: `python/torch_mlir/extras/fx_importer.py` lines 614-879, 1046-1143, 1494-1581.
The `as_strided` rewriting that runs first is modelled in `Verif.Model.AsStrided`; importing the
child modules does not touch this function's state.
-/

namespace Verif.Fx

/-- `prog.graph_signature.input_specs` entries, by `kind` and class of `arg` (lines 720-814).
Names are those of the placeholders. A value of `none` models a missing state-dict entry. -/
inductive InSpec where
  | user (name : String)
  | userConst (name : String) (l : Lit)
  | constTensor (name : String) (l : Lit)
  | param (name : String) (l : Option Lit) (persistent : Bool)
  | buffer (name target : String) (l : Option Lit)
  | unsupported
  deriving DecidableEq

/-- `output_specs` entries (lines 688-716). `userInputMutation` and everything in `other` is
skipped by that loop. -/
inductive OutSpec where
  | user (name : String)
  | userConst (l : Lit)
  | userUnsupported
  | bufferMutation (target producer : String)
  | userInputMutation (input producer : String)
  | other
  deriving DecidableEq

/-- The signature of an exported program. -/
structure Sig where
  ins : List InSpec
  outs : List OutSpec

/-- `placeholder_nodes[name]` (lines 645-658). -/
def placeholderIdx (nodes : List Node) (name : String) : Option Nat :=
  let j := nodes.findIdx fun n => decide (n.name = name) && decide (n.op = .placeholder)
  if j < nodes.length then some j else none

/-- Nodes kept in `all_producer_nodes` (lines 649-656). -/
def isProducer (n : Node) : Bool :=
  match n.op with
  | .placeholder => true
  | .call _ _ _ => true
  | _ => false

/-- `all_producer_nodes[name]`. -/
def producerIdx (nodes : List Node) (name : String) : Option Nat :=
  let j := nodes.findIdx fun n => decide (n.name = name) && isProducer n
  if j < nodes.length then some j else none

/-- `KeyError` on a missing name. -/
def need (o : Option Nat) : Py Nat :=
  match o with
  | some i => .ok i
  | none => .error .keyError

/-- `sig.user_inputs_to_mutate` (PyTorch): a dict from producer to input, built in output order. -/
def userInputsToMutate (outs : List OutSpec) : List (String × String) :=
  outs.foldl (fun d o => match o with
    | .userInputMutation input producer => dictSet d producer input
    | _ => d) []

/-- The items of a dict built by `dictSet`, oldest key first: Python keeps the position of the first
insertion and the value of the last. -/
def dictItems {κ ν : Type} [DecidableEq κ] (d : List (κ × ν)) : List (κ × ν) :=
  let keys := (d.reverse.map (·.1)).foldl (fun ks k => if ks.contains k then ks else ks ++ [k]) []
  keys.filterMap fun k => (dictGet d k).map fun v => (k, v)

/-- `mutated_user_inputs`: input name to producer name (lines 677-680). -/
def mutatedUserInputs (outs : List OutSpec) : List (String × String) :=
  (dictItems (userInputsToMutate outs)).foldl (fun d p => dictSet d p.2 p.1) []

/-- `mutable_buffer_target_producers` (lines 715-716). -/
def bufferProducers (outs : List OutSpec) : List (String × String) :=
  outs.foldl (fun d o => match o with
    | .bufferMutation target producer => dictSet d target producer
    | _ => d) []

/-- `user_outputs` (lines 690-714): the producer node or `None`. -/
def userOutputs (nodes : List Node) : List OutSpec → Py (List (Option Nat))
  | [] => .ok []
  | o :: os => do
    match o with
    | .user name => do
      let i ← need (producerIdx nodes name)
      let rest ← userOutputs nodes os
      .ok (some i :: rest)
    | .userConst _ => do
      let rest ← userOutputs nodes os
      .ok (none :: rest)
    | .userUnsupported => .error .notImplemented
    | _ => userOutputs nodes os

/-- `constant_output_values` (lines 708-710): keyed by the position in `output_specs`. -/
def constantOutputs (n : Nat) : List OutSpec → List (Nat × Lit)
  | [] => []
  | .userConst l :: os => (n, l) :: constantOutputs (n + 1) os
  | _ :: os => constantOutputs (n + 1) os

/-- The bindings collected from `input_specs` (lines 718-814), in order. -/
structure Inputs where
  users : List (Nat × Bool × String)   -- placeholder, mutable, producer name if mutable
  consts : List (Nat × Lit)            -- constant tensors
  constIns : List (Nat × Lit)          -- constant inputs
  params : List (Nat × Lit)
  buffers : List (Nat × Lit × Option String)

/-- The loop over `input_specs` (lines 720-814). -/
def collectInputs (nodes : List Node) (mutated bufs : List (String × String)) :
    List InSpec → Py Inputs
  | [] => .ok ⟨[], [], [], [], []⟩
  | sp :: sps =>
    match sp with
    | .user name => do
      let i ← need (placeholderIdx nodes name)
      let r ← collectInputs nodes mutated bufs sps
      .ok { r with users := (i, dictMem mutated name, (dictGet mutated name).getD "") :: r.users }
    | .userConst name l => do
      let i ← need (placeholderIdx nodes name)
      let r ← collectInputs nodes mutated bufs sps
      .ok { r with constIns := (i, l) :: r.constIns }
    | .constTensor name l => do
      let i ← need (placeholderIdx nodes name)
      let r ← collectInputs nodes mutated bufs sps
      .ok { r with consts := (i, l) :: r.consts }
    | .param name l persistent => do
      pyAssert (!persistent || l.isSome)
      let i ← need (placeholderIdx nodes name)
      let r ← collectInputs nodes mutated bufs sps
      .ok { r with params := (i, l.getD .none) :: r.params }
    | .buffer name target l => do
      pyAssert l.isSome
      let i ← need (placeholderIdx nodes name)
      let r ← collectInputs nodes mutated bufs sps
      .ok { r with buffers := (i, l.getD .none, dictGet bufs target) :: r.buffers }
    | .unsupported => .error .notImplemented

/-- Name and type of a graph node. -/
def nameOf (env : Env) (i : Nat) : String := match env.nodes[i]? with | some n => n.name | none => ""
def valTyOf (env : Env) (i : Nat) : VTy := match env.nodes[i]? with | some n => n.valTy | none => .other

/-- `import_constant` (lines 1527-1531). -/
def importConstant (env : Env) (p : Nat × Lit) : M Unit := do
  let x ← importLiteral p.2 none
  bindNodeValue env (nameOf env p.1) (.graph p.1) (.val x) 0

/-- `import_mutable_to_vtensor` (lines 1494-1525). -/
def importMutable (env : Env) (i : Nat) (arg : Nat) (producer : String) : M Unit := do
  let x ← emit1 .copyToVTensor [arg] (valTyOf env i)
  bindNodeValue env (nameOf env i) (.graph i) (.val x) 0
  modify fun s => { s with hooks := dictSet s.hooks producer (.overwrite arg) }

/-- Bind a user input to its block argument (lines 838-851). -/
def bindUserInput (env : Env) (p : Nat × (Nat × Bool × String)) : M Unit :=
  if p.2.2.1 then importMutable env p.2.1 p.1 p.2.2.2
  else bindNodeValue env (nameOf env p.2.1) (.graph p.2.1) (.val p.1) 0

/-- `lazy_import_parameter` (lines 1533-1541). -/
def lazyParameter (env : Env) (p : Nat × Lit) : M Unit :=
  bindNodeValue env (nameOf env p.1) (.graph p.1) (.lazy p.1 p.2) 0

/-- `lazy_import_buffer` (lines 1543-1568); `mutable_producer_node_name` is never set. -/
def lazyBuffer (env : Env) (p : Nat × Lit × Option String) : M Unit := do
  bindNodeValue env (nameOf env p.1) (.graph p.1) (.lazy p.1 p.2.1) 0
  match p.2.2 with
  | none => pure ()
  | some producer => modify fun s => { s with hooks := dictSet s.hooks producer (.store p.1) }

/-- One operand of the return (lines 1573-1580); `constants[index]` raises `KeyError`. -/
def returnOperand (env : Env) (constants : List (Nat × Lit)) (p : Nat × Option Nat) : M Nat :=
  match p.2 with
  | some n => resolveNodeValue env (.graph n) 0
  | none =>
    match constants.lookup p.1 with
    | none => raise .keyError
    | some l => importLiteral l none

/-- `return_node_values` (lines 1570-1581). -/
def returnNodeValues (env : Env) (outs : List (Option Nat)) (constants : List (Nat × Lit)) :
    M Unit := do
  let xs ← mapM' (returnOperand env constants) (enumFrom 0 outs)
  let _ ← emit .ret xs []

/-- Setting up the bindings before the nodes are imported (lines 830-857). -/
def setupInputs (env : Env) (ins : Inputs) : M Unit := do
  let _ ← mapM' (importConstant env) ins.consts
  let _ ← mapM' (importConstant env) ins.constIns
  let _ ← mapM' (bindUserInput env) (enumFrom 0 ins.users)
  let _ ← mapM' (lazyParameter env) ins.params
  let _ ← mapM' (lazyBuffer env) ins.buffers

/-- Type of a block argument (lines 736-741): `node_val_to_type(node, mutable=...)`. -/
def argTy (env : Env) (u : Nat × Bool × String) : VTy :=
  match u.2.1, valTyOf env u.1 with
  | true, .vtensor => .tensor
  | _, t => t

/-- Type of a returned value (lines 702-714). -/
def resTy (env : Env) (outs : List OutSpec) : List VTy :=
  outs.filterMap fun o => match o with
    | .user name => (producerIdx env.nodes name).map (valTyOf env)
    | .userConst l => some l.ty
    | _ => none

/-- An imported function. -/
structure Func where
  argTys : List VTy
  resTys : List VTy
  final : St

/-- Indices of the nodes that are imported (line 869). -/
def producers (nodes : List Node) : List Nat :=
  (enumFrom 0 nodes).filterMap fun p => if isProducer p.2 then some p.1 else none

/-- `import_program` (lines 614-879). -/
def importProgram (env : Env) (sig : Sig) (symShapes : Bool) (symbols : List String) : Py Func := do
  let outs ← userOutputs env.nodes sig.outs
  let ins ← collectInputs env.nodes (mutatedUserInputs sig.outs) (bufferProducers sig.outs) sig.ins
  let argTys := ins.users.map (argTy env)
  let body : M Unit := do
    setupInputs env ins
    importNodes env true symShapes symbols argTys.length (producers env.nodes)
    returnNodeValues env outs (constantOutputs 0 sig.outs)
  let r ← body (St.init argTys)
  .ok ⟨argTys, resTy env sig.outs, r.2⟩

/-- Placeholder types (lines 1109-1110). -/
def placeholderTys (nodes : List Node) : List VTy :=
  nodes.filterMap fun n => if n.op = .placeholder then some n.valTy else none

/-- Result types (lines 1111-1139). -/
def outputTys (env : Env) : List VTy :=
  env.nodes.flatMap fun n => match n.op with
    | .output args => args.map fun a => match a with
      | .lit l => l.ty
      | .node (.graph i) => valTyOf env i
      | _ => .other
    | _ => []

/-- `import_stateless_graph` (lines 1046-1090). -/
def importStateless (env : Env) (symShapes : Bool) (symbols : List String) : Py Func := do
  let argTys := placeholderTys env.nodes
  let r ← importNodes env false symShapes symbols argTys.length (List.range env.nodes.length)
    (St.init argTys)
  .ok ⟨argTys, outputTys env, r.2⟩

end Verif.Fx
