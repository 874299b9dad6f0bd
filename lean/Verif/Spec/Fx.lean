import Verif.Model.FxProgram
import Mathlib.Data.List.Forall2

/-!
# What an imported FX function has to look like

These definitions only speak about the emitted operations (`Op`), the table from FX node results to
values, and the FX program itself; none of the importer's functions occur in them.
-/

namespace Verif.Fx.Spec

/-- SSA form of a block with `nArgs` arguments: an operand is a block argument or a result of an
operation further up, and every result is a new value. -/
structure SSA (nArgs : Nat) (ops : List Op) : Prop where
  dominated : ∀ (j : Nat) (o : Op), ops[j]? = some o → ∀ x ∈ o.operands,
    x < nArgs ∨ ∃ (i : Nat) (o' : Op), i < j ∧ ops[i]? = some o' ∧ x ∈ o'.results
  distinct : (ops.flatMap (·.results)).Nodup
  fresh : ∀ o ∈ ops, ∀ x ∈ o.results, nArgs ≤ x

/-- `x` is the (only) result of an emitted operation. -/
def Defines (ops : List Op) (x : Nat) (k : OpKind) (operands : List Nat) : Prop :=
  ⟨k, operands, [x]⟩ ∈ ops

/-- `x` is the value of FX node `r`. -/
def NodeIs (s : St) (r : Ref) (x : Nat) : Prop := dictGet s.v (.ref r 0) = some (.val x)

/-- `x` is a constant op for the Python literal; dtypes, layouts and memory formats are ints. -/
def ScalarIs (ops : List Op) (l : Lit) (x : Nat) : Prop :=
  match l with
  | .enum (some c) => Defines ops x (.const (.int c) none) []
  | .enum none => False
  | .unsupported => False
  | l => Defines ops x (.const l none) []

/-- The literal that is emitted for a Python value: enumerations become ints. -/
def emitted : Lit → Lit
  | .enum (some c) => .int c
  | l => l

/-- `x` is the value of lifted input `n` with contents `l`: a load of its global, a literal built from
`l`, or for a boolean tensor the conversion of such a literal. -/
def InputIs (ops : List Op) (n : Nat) (l : Lit) (x : Nat) : Prop :=
  Defines ops x (.load n) [] ∨ Defines ops x (.const (emitted l) (some n)) [] ∨
  ∃ obj y c, l = .tensor obj true ∧ Defines ops y (.const (.tensor obj true) (some n)) [] ∧
    Defines ops c (.const (.int 11) none) [] ∧
    Defines ops x (.convert "torch.prims.convert_element_type") [y, c]

/-- `x` is the value of the Python literal; a boolean tensor goes through `uint8`. -/
def LitIs (ops : List Op) (l : Lit) (x : Nat) : Prop :=
  match l with
  | .tensor obj true => ∃ y c, Defines ops y (.const (.tensor obj true) none) [] ∧
      Defines ops c (.const (.int 11) none) [] ∧
      Defines ops x (.convert "torch.prims.convert_element_type") [y, c]
  | l => ScalarIs ops l x

/-- Values of list entries. -/
def ElemIs (s : St) (e : Elem) (x : Nat) : Prop :=
  match e with
  | .node r => NodeIs s r x
  | .lit l => ScalarIs s.ops l x
  | .nested => False

/-- Value of a Python argument before it is adapted to the type of the parameter: a number passed
for a tensor becomes a tensor. -/
def RawIs (s : St) (a : Arg) (ty : Option JitTy) (x : Nat) : Prop :=
  match a with
  | .node r => NodeIs s r x
  | .list es => ∃ ys, Defines s.ops x .listConstruct ys ∧ List.Forall₂ (ElemIs s) es ys
  | .tuple _ => False
  | .lit l =>
    if ty = some .tensor ∧ l.isTensor = false then
      ∃ y, ScalarIs s.ops l y ∧ Defines s.ops x .numToTensor [y]
    else LitIs s.ops l x

/-- A `bool` value passed for a number is converted; everything else is passed on as it is. -/
def AdaptIs (s : St) (y : Nat) (ty : Option JitTy) (x : Nat) : Prop :=
  match s.tys[y]?, ty with
  | some .bool, some .float => Defines s.ops x (.convert "torch.aten.Float.bool") [y]
  | some .bool, some .int => Defines s.ops x (.convert "torch.aten.Int.bool") [y]
  | some .bool, some .number => Defines s.ops x (.convert "torch.aten.Int.bool") [y]
  | _, _ => x = y

/-- Value of an explicitly passed argument. -/
def ArgIs (s : St) (a : Arg) (ty : Option JitTy) (x : Nat) : Prop :=
  ∃ y, RawIs s a ty y ∧ AdaptIs s y ty x

/-- Value of a schema default. -/
def DefaultIs (s : St) (a : Arg) (x : Nat) : Prop :=
  match a with
  | .list es => ∃ ys, Defines s.ops x .listConstruct ys ∧ List.Forall₂ (ElemIs s) es ys
  | .lit l => ScalarIs s.ops l x
  | _ => False

/-- Python's calling convention for parameter number `i`: positional, else keyword, else default. -/
inductive Passed (args : List Arg) (kwargs : List (String × Arg)) (i : Nat) (p : Param) :
    Arg → Bool → Prop
  | positional {a : Arg} : args[i]? = some a → Passed args kwargs i p a true
  | keyword {a : Arg} {pre post : List (String × Arg)} : args.length ≤ i →
      kwargs = pre ++ (p.name, a) :: post → (∀ q ∈ pre, q.1 ≠ p.name) → Passed args kwargs i p a true
  | default : args.length ≤ i → (∀ q ∈ kwargs, q.1 ≠ p.name) → Passed args kwargs i p p.default.arg false

/-- The operand for parameter number `i`. -/
def OperandIs (s : St) (args : List Arg) (kwargs : List (String × Arg)) (i : Nat) (p : Param)
    (x : Nat) : Prop :=
  ∃ a explicit, Passed args kwargs i p a explicit ∧
    if explicit = true then ArgIs s a (some p.ty) x else DefaultIs s a x

/-- `o` is an emitted op for a call of `sch`: one operand per schema parameter, each the value of the
argument passed for it, and the results are the results of FX node `r`. -/
structure OpFor (s : St) (r : Ref) (sch : Schema) (args : List Arg) (kwargs : List (String × Arg))
    (o : Op) : Prop where
  emitted : o ∈ s.ops
  kind : o.kind = .torchOp sch.opName
  arity : o.operands.length = sch.params.length
  operands : ∀ (i : Nat) (p : Param) (x : Nat), sch.params[i]? = some p → o.operands[i]? = some x →
    OperandIs s args kwargs i p x
  results : ∀ (i : Nat) (y : Nat), o.results[i]? = some y → dictGet s.v (.ref r i) = some (.val y)

/-- Types of the results of a call: from the node's metadata. -/
def resultTypes (sch : Schema) (n : Node) : List VTy :=
  match sch.nReturns with
  | 0 => []
  | 1 => [n.valTy]
  | _ => n.valTys

/-- Number and types of the results of `o`. -/
def ResultsAre (s : St) (tys : List VTy) (o : Op) : Prop :=
  List.Forall₂ (fun y ty => s.tys[y]? = some ty) o.results tys

/-- What `getitem(j, k)` denotes, at node `i`: if node `j` was imported as an op `o` with several
results, the `k`-th of them; if it has one result (a list), the `k`-th entry of the list, unpacked
into as many values as node `j`'s metadata has entries. -/
def ItemIs (s : St) (i j : Nat) (k : Int) (jn : Node) (o : Op) : Prop :=
  ∃ x, NodeIs s (.graph i) x ∧
    ((1 < o.results.length ∧ 0 ≤ k ∧ o.results[k.toNat]? = some x) ∨
     (o.results.length ≤ 1 ∧ ∃ y ys, NodeIs s (.graph j) y ∧ (⟨.listUnpack, [y], ys⟩ : Op) ∈ s.ops ∧
       ys.length = jn.valTys.length ∧ pyGet ys k = .ok x))

/-- A Python number, or a node whose value is one. -/
def IsScalar (env : Env) (a : Arg) : Prop :=
  (∃ z, a = .lit (.int z)) ∨ (∃ q, a = .lit (.float q)) ∨ (∃ b, a = .lit (.bool b)) ∨
  ∃ i n, a = .node (.graph i) ∧ env.nodes[i]? = some n ∧ n.scalarVal = true

/-- The schema that is used for a call: tensor-tensor ops called with a number as second argument use
their tensor-scalar variant. -/
def SchemaFor (env : Env) (sch : Schema) (args : List Arg) (sch' : Schema) : Prop :=
  (∃ a, args[1]? = some a ∧ IsScalar env a ∧ env.scalarSchema sch.opName = some sch') ∨
  (sch' = sch ∧ ∀ a, args[1]? = some a → env.scalarSchema sch.opName ≠ none → ¬ IsScalar env a)

/-- Name and contents of a lifted parameter or buffer. -/
def lifted : InSpec → Option (String × Lit)
  | .param name l _ => some (name, l.getD .none)
  | .buffer name _ l => some (name, l.getD .none)
  | _ => none

/-- `i` is the placeholder called `name`: the first one if there are several. -/
def IsInput (nodes : List Node) (name : String) (i : Nat) : Prop :=
  ∃ n, nodes[i]? = some n ∧ n.name = name ∧ n.op = .placeholder ∧
    ∀ (j : Nat) (m : Node), j < i → nodes[j]? = some m → ¬ (m.name = name ∧ m.op = .placeholder)

/-- Nodes that produce values: placeholders and calls. -/
def Produces (n : Node) : Prop := n.op = .placeholder ∨ ∃ t args kwargs, n.op = .call t args kwargs

/-- `i` is the producing node called `name`. -/
def IsOutput (nodes : List Node) (name : String) (i : Nat) : Prop :=
  ∃ n, nodes[i]? = some n ∧ n.name = name ∧ Produces n ∧
    ∀ (j : Nat) (m : Node), j < i → nodes[j]? = some m → ¬ (m.name = name ∧ Produces m)

/-- Names of the user inputs that become function arguments. -/
def userInput : InSpec → Option String
  | .user name => some name
  | _ => none

/-- A user output: a named value or a constant. -/
def userOutput : OutSpec → Option (String ⊕ Lit)
  | .user name => some (.inl name)
  | .userConst l => some (.inr l)
  | _ => none

/-- `x` is the value that has to be returned for a user output. -/
def ReturnIs (nodes : List Node) (s : St) (o : String ⊕ Lit) (x : Nat) : Prop :=
  match o with
  | .inl name => ∃ i, IsOutput nodes name i ∧ NodeIs s (.graph i) x
  | .inr l => LitIs s.ops l x

/-- FX nodes that an argument mentions. -/
def elemRefs : Elem → List Ref
  | .node r => [r]
  | _ => []

def argRefs : Arg → List Ref
  | .node r => [r]
  | .lit _ => []
  | .list xs => xs.flatMap elemRefs
  | .tuple xs => xs.flatMap elemRefs

/-- FX nodes mentioned by a node. -/
def nodeRefs (n : Node) : List Ref :=
  match n.op with
  | .call _ args kwargs => args.flatMap argRefs ++ kwargs.flatMap fun p => argRefs p.2
  | .output args => args.flatMap argRefs
  | _ => []

/-- Number of literals or global loads emitted for placeholder `n`. -/
def materialised (ops : List Op) (n : Nat) : Nat :=
  ops.countP fun o => match o.kind with
    | .const _ (some m) => decide (m = n)
    | .load m => decide (m = n)
    | _ => false

/-- All writes to the mutable block argument `m`. -/
def writes (ops : List Op) (m : Nat) : List Nat :=
  ops.filterMap fun o => match o.kind, o.operands with
    | .overwrite, [x, m'] => if m' = m then some x else none
    | _, _ => none

/-- All stores to the buffer of placeholder `n`. -/
def stores (ops : List Op) (n : Nat) : List Nat :=
  ops.filterMap fun o => match o.kind, o.operands with
    | .store n', [x] => if n' = n then some x else none
    | _, _ => none

/-- Canonicalisation of a call does not invent node arguments. -/
def CanonRefs (env : Env) : Prop := ∀ sch args kwargs sch' args' kwargs',
  env.canon sch args kwargs = .ok (some (sch', args', kwargs')) →
  ∀ r, r ∈ args'.flatMap argRefs ∨ r ∈ kwargs'.flatMap (fun p => argRefs p.2) →
    r ∈ args.flatMap argRefs ∨ r ∈ kwargs.flatMap fun p => argRefs p.2

/-- A mutation in the signature: the user input (by name) or buffer (by target) that is written, and
the node whose value is written to it. -/
def mutation : OutSpec → Option ((String ⊕ String) × String)
  | .userInputMutation input producer => some (.inl input, producer)
  | .bufferMutation target producer => some (.inr target, producer)
  | _ => none

/-- A buffer input: placeholder name and target. -/
def bufferInput : InSpec → Option (String × String)
  | .buffer name target _ => some (name, target)
  | _ => none

/-- The node is a call with exactly one result. -/
def OneResult (env : Env) (n : Node) : Prop :=
  match n.op with
  | .call .getitem _ _ => True
  | .call (.overload sch) args kwargs => ∃ sch' args' kwargs',
      env.canon sch args kwargs = .ok (some (sch', args', kwargs')) ∧
      ∀ sch'', SchemaFor env sch' args' sch'' → (resultTypes sch'' n).length = 1
  | _ => False

/-- Programs in which every mutation has a producer of its own, which is a call with one result. -/
structure OwnProducers (env : Env) (sig : Sig) : Prop where
  names : ∀ (i j : Nat) (n m : Node), env.nodes[i]? = some n → env.nodes[j]? = some m → n.name = m.name → i = j
  targets : ((sig.outs.filterMap mutation).map (·.1)).Nodup
  producers : ((sig.outs.filterMap mutation).map (·.2)).Nodup
  inputs : (sig.ins.filterMap userInput).Nodup
  buffers : ((sig.ins.filterMap bufferInput).map (·.1)).Nodup
  bufferTargets : ((sig.ins.filterMap bufferInput).map (·.2)).Nodup
  single : ∀ m ∈ sig.outs.filterMap mutation, ∃ n ∈ env.nodes, n.name = m.2 ∧ OneResult env n
  notTemp : ∀ m ∈ sig.outs.filterMap mutation, ∀ q, m.2 ≠ q ++ "_as_float"

end Verif.Fx.Spec
