import Verif.Model.OnnxFunctions
import Verif.Model.Version
import Verif.Py.Dict
import Verif.Py.Sort

/-!
# The ONNX importer

`GraphInfo`, `NodeImporter` and the part of `ModuleCache` that imports function bodies
(/repo/python/torch_mlir/extras/onnx_importer.py:130–600, 953–1091, "OI").

* Values are numbers, given out in the order of creation; an op carries its operands, results and regions.
* `_nv_map` is an association list, the newest binding first.
* Python's recursion limit is the `fuel` of `importFn`: expanding functions inside functions deeper than that is
  a `RecursionError`.
* Locations, the text of messages and warnings are left out.  A function is added to the module when its body is
  complete (the code adds the empty function first).
-/

namespace Verif.Onnx

/-! ## The emitted IR -/

/-- An attribute of `torch.operator`. -/
inductive AttrVal where
  | data (kind data : Nat)
  | tensor (a : TensorAttr)
  | tensors (l : List TensorAttr)
  deriving DecidableEq, Repr

/-- `torch.constant.none`, `torch.operator "onnx.Constant"` for a tensor, `torch.operator "onnx.…"`, `func.call`
(with the operator it stands for). -/
inductive OpKind where
  | none
  | constant (value : TensorAttr)
  | operator (opType : String) (attrs : List (String × AttrVal))
  | call (callee domain opType : String)
  deriving DecidableEq, Repr

mutual

inductive Op where
  | mk (kind : OpKind) (operands results : List Nat) (types : List IrTy) (regions : List Region)

/-- A region: without a block, or with one block and the operands of its terminator. -/
inductive Region where
  | absent
  | block (args : List Nat) (ops : List Op) (ret : List Nat)

end

/-- `func.func` -/
structure Func where
  name : String
  priv : Bool
  argTypes : List IrTy
  resTypes : List IrTy
  /-- `torch.onnx_meta.opset_version` and `opset_versions` -/
  opset : Option Int
  opsets : List (String × Int)
  body : Region

/-- What a caller reads of a function. -/
structure FuncRef where
  name : String
  results : List IrTy
  deriving DecidableEq, Repr

abbrev Names := List (String × Nat)

/-- The module under construction: the next value, the functions, `_operator_function_map`. -/
structure MSt where
  next : Nat
  funcs : List Func
  memo : List (String × FuncRef)

/-- `ModelInfo`: opset imports and configuration. -/
structure Ctx where
  opsets : List (String × Int)
  config : Config

/-- `get_operator_function` as seen from `import_node`. -/
abbrev Expand :=
  Ctx → Node → Int → List TypeProto → List (Option TypeProto) → MSt → Py (Option FuncRef × MSt)

/-! ## GraphInfo -/

/-- `GraphInfo` without the initializers, which grow during the import (OI:163–174). -/
structure GraphInfo where
  valueInfo : List ValueInfo
  outputs : List ValueInfo
  inputs : List ValueInfo

/-- `{n.name: n for n in l}` -/
def infoMap (l : List ValueInfo) : List (String × ValueInfo) := ordOf (l.map (fun v => (v.name, v)))

/-- `initializer_map` (OI:162–164). -/
def initMap (l : List Tensor) : List (String × Tensor) := ordOf (l.map (fun t => (t.name, t)))

/-- `input_map` (OI:178–196). -/
def inputMap (isSubgraph elide : Bool) (inputs : List ValueInfo) (inits : List Tensor) :
    Py (List (String × ValueInfo)) :=
  if !isSubgraph && elide then
    .ok ((infoMap inputs).filter (fun p => !dictMem (initMap inits) p.1))
  else if (infoMap inputs).all (fun p => !dictMem (initMap inits) p.1) then .ok (infoMap inputs)
  else .error .assertion

/-- `find_type_proto_for_name` (OI:198–219); `onnx.helper.make_tensor_type_proto` gives a tensor type with the
sizes of the initializer. -/
def findType (gi : GraphInfo) (inits : List (String × Tensor)) (name : String) : Option TypeProto :=
  match dictGet (infoMap gi.valueInfo) name with
  | some v => some v.type
  | none => match dictGet (infoMap gi.outputs) name with
    | some v => some v.type
    | none => match dictGet (infoMap gi.inputs) name with
      | some v => some v.type
      | none => match dictGet inits name with
        | some t => some (.tensor t.dataType (some (t.dims.map .value)))
        | none => none

/-! ## NodeImporter -/

/-- `NodeImporter`: `_nv_map`, `_none_value`, `_gi.initializer_map`, the ops of the block. -/
structure LSt where
  names : Names
  none : Option Nat
  inits : List (String × Tensor)
  ops : List Op

abbrev Step := GraphInfo → LSt → MSt → Py (LSt × MSt)
abbrev RegionAct := Names → MSt → Py (Region × MSt)

/-- `n` new values. -/
def fresh (n : Nat) (m : MSt) : List Nat × MSt :=
  ((List.range n).map (m.next + ·), { m with next := m.next + n })

/-- `import_initializer` (OI:531–552): `extern_name if extern_name else initializer.name`. -/
def importInitializer (t : Tensor) (extern : String) (l : LSt) (m : MSt) : Py (LSt × MSt) :=
  match tensorProtoToAttr t with
  | .error e => .error e
  | .ok a => match tensorProtoToType t with
    | .error e => .error e
    | .ok ty => .ok ({ l with
        names := dictSet l.names (if extern = "" then t.name else extern) m.next
        ops := l.ops ++ [.mk (.constant a) [] [m.next] [ty] []] }, { m with next := m.next + 1 })

/-- `get_none` (OI:369–381). -/
def getNone (l : LSt) (m : MSt) : Nat × LSt × MSt :=
  match l.none with
  | some v => (v, l, m)
  | none => (m.next, { l with
      none := some m.next
      ops := l.ops ++ [.mk .none [] [m.next] [.none] []] }, { m with next := m.next + 1 })

/-- `_handle_node_Constant` (OI:574–589) on a node with a `value`. -/
def handleConstant (value : Attr) (outputs : List String) (l : LSt) (m : MSt) : Py (LSt × MSt) :=
  if value.type ≠ attrTensor then .error .assertion
  else match outputs with
    | [name] => match importInitializer value.t name l m with
      | .error e => .error e
      | .ok (l1, m1) => .ok ({ l1 with inits := ordSet l1.inits name value.t }, m1)
    | _ => .error .assertion

/-- The loop over the inputs (OI:400–421): values and types. -/
def importInputs (gi : GraphInfo) :
    List String → LSt → MSt → Py (List Nat × List TypeProto × LSt × MSt)
  | [], l, m => .ok ([], [], l, m)
  | name :: rest, l, m =>
    if name = "" then
      match importInputs gi rest (getNone l m).2.1 (getNone l m).2.2 with
      | .error e => .error e
      | .ok (vs, ts, l', m') => .ok ((getNone l m).1 :: vs, .unset :: ts, l', m')
    else match dictGet l.names name with
      | none => .error .onnxImport
      | some v => match importInputs gi rest l m with
        | .error e => .error e
        | .ok (vs, ts, l', m') => .ok (v :: vs, (findType gi l.inits name).getD .unset :: ts, l', m')

/-- The first import of the domain (OI:432–435); without one the variable is unbound when it is read. -/
def opsetOf (opsets : List (String × Int)) (domain : String) : Py Int :=
  match opsets.find? (fun p => p.1 == domain) with
  | some p => .ok p.2
  | none => .error .unboundLocal

/-- `ATTRIBUTE_TYPE_HANDLERS` (OI:1206–1236) as used by `import_attributes` (OI:460–486): skipped,
an error, or a value. -/
def importAttribute (a : Attr) : Py (Option AttrVal) :=
  if a.type = attrGraph then .ok none
  else if a.type = 1 ∨ a.type = 2 ∨ a.type = 3 ∨ a.type = 6 ∨ a.type = 7 ∨ a.type = 8 then
    .ok (some (.data a.type a.data))
  else if a.type = attrTensor then match tensorProtoToAttr a.t with
    | .error e => .error e
    | .ok t => .ok (some (.tensor t))
  else if a.type = 9 then match pyMap tensorProtoToAttr a.tensors with
    | .error e => .error e
    | .ok ts => .ok (some (.tensors ts))
  else .error .onnxImport

/-- One attribute: `attrs[f"torch.onnx.{name}"] = …`; the prefix is left out. -/
def attributeStep (attrs : List (String × AttrVal)) (a : Attr) : Py (List (String × AttrVal)) :=
  match importAttribute a with
  | .error e => .error e
  | .ok none => .ok attrs
  | .ok (some v) => .ok (ordSet attrs a.name v)

/-- `import_attributes` (OI:460–486). -/
def importAttributes (attrs : List Attr) : Py (List (String × AttrVal)) := pyFold attributeStep [] attrs

/-- `count_regions` (OI:488–494). -/
def countRegions (attrs : List Attr) : Nat := (attrs.filter (fun a => a.type == attrGraph)).length

/-- The regions in the order of `sorted(attr_map.keys())` (OI:496–507). -/
def sortedRegions (acts : List (String × RegionAct)) : List (String × RegionAct) :=
  sortBy (fun p q => Version.strLe p.1.toList q.1.toList) (ordOf acts)

/-- The loop of `import_regions` (OI:505–529). -/
def runRegions (names : Names) : List (String × RegionAct) → MSt → Py (List Region × MSt)
  | [], m => .ok ([], m)
  | a :: rest, m => match a.2 names m with
    | .error e => .error e
    | .ok (r, m1) => match runRegions names rest m1 with
      | .error e => .error e
      | .ok (rs, m2) => .ok (r :: rs, m2)

/-- Regions of the op for which there is no attribute left stay without a block. -/
def padRegions (n : Nat) (rs : List Region) : List Region := rs ++ List.replicate (n - rs.length) .absent

/-- `for output_name, output_value in zip(…)` (OI:456–458). -/
def bindOutputs (names : Names) : List String → List Nat → Names
  | o :: os, v :: vs => bindOutputs (if o = "" then names else dictSet names o v) os vs
  | _, _ => names

/-- The op of a node that is not expanded (OI:445–454). -/
def importOperator (opType : String) (attrs : List Attr) (regions : List (String × RegionAct))
    (outputs : List String) (types : List IrTy) (operands : List Nat) (l : LSt) (m : MSt) :
    Py (LSt × MSt) :=
  match importAttributes attrs with
  | .error e => .error e
  | .ok as => match runRegions l.names (sortedRegions regions) (fresh types.length m).2 with
    | .error e => .error e
    | .ok (rs, m1) => .ok ({ l with
        ops := l.ops ++ [.mk (.operator opType as) operands (fresh types.length m).1 types
          (padRegions (countRegions attrs) rs)]
        names := bindOutputs l.names outputs (fresh types.length m).1 }, m1)

/-- The call of an expanded node (OI:442–443). -/
def importCall (f : FuncRef) (domain opType : String) (outputs : List String) (operands : List Nat)
    (l : LSt) (m : MSt) : LSt × MSt :=
  ({ l with
      ops := l.ops ++ [.mk (.call f.name domain opType) operands (fresh f.results.length m).1 f.results []]
      names := bindOutputs l.names outputs (fresh f.results.length m).1 }, (fresh f.results.length m).2)

/-- `import_node` (OI:383–458) after the special cases. -/
def generalNode (X : Expand) (ctx : Ctx) (n : Node) (regions : List (String × RegionAct)) : Step :=
  fun gi l m => match importInputs gi n.inputs l m with
    | .error e => .error e
    | .ok (vs, inT, l1, m1) =>
      match pyMap typeProtoToType (n.outputs.map (findType gi l1.inits)) with
      | .error e => .error e
      | .ok types => match opsetOf ctx.opsets n.domain with
        | .error e => .error e
        | .ok version => match X ctx n version inT (n.outputs.map (findType gi l1.inits)) m1 with
          | .error e => .error e
          | .ok (some f, m2) => .ok (importCall f n.domain n.opType n.outputs vs l1 m2)
          | .ok (none, m2) => importOperator n.opType n.attrs regions n.outputs types vs l1 m2

/-- `import_node` (OI:383–458): `_handle_node_Constant` is the only special case. -/
def nodeStep (X : Expand) (ctx : Ctx) (n : Node) (regions : List (String × RegionAct)) : Step :=
  fun gi l m =>
    if n.opType = "Constant" then
      match findAttr n.attrs "value" with
      | some v => handleConstant v n.outputs l m
      | none => generalNode X ctx n regions gi l m
    else generalNode X ctx n regions gi l m

/-- The initializers (OI:348–349). -/
def importInits : List (String × Tensor) → LSt → MSt → Py (LSt × MSt)
  | [], l, m => .ok (l, m)
  | p :: rest, l, m => match importInitializer p.2 "" l m with
    | .error e => .error e
    | .ok (l1, m1) => importInits rest l1 m1

/-- The outputs (OI:355–362). -/
def outputValue (names : Names) (v : ValueInfo) : Py Nat :=
  match dictGet names v.name with
  | some x => .ok x
  | none => .error .onnxImport

/-- `import_all` (OI:344–367) into a block with arguments `args`; `nodes` imports the nodes. -/
def importAll (nodes : Step) (gi : GraphInfo) (inits : List Tensor) (args : List Nat) (names : Names)
    (m : MSt) : Py (Region × MSt) :=
  match importInits (initMap inits) ⟨names, none, initMap inits, []⟩ m with
  | .error e => .error e
  | .ok (l1, m1) => match nodes gi (getNone l1 m1).2.1 (getNone l1 m1).2.2 with
    | .error e => .error e
    | .ok (l2, m2) => match pyMap (outputValue l2.names) gi.outputs with
      | .error e => .error e
      | .ok ret => .ok (.block args l2.ops ret, m2)

/-- Bindings of `zip(names, values)`, newest first. -/
def bindArgs (names : List String) (vals : List Nat) : Names := (names.zip vals).reverse

/-- One region (OI:508–529): the block's arguments are bound first, then every name of the enclosing graph. -/
def importRegion (inits : List Tensor) (valueInfo inputs outputs : List ValueInfo) (nodes : Step) :
    RegionAct :=
  fun outer m => match pyMap (fun v : ValueInfo => typeProtoToType (some v.type)) inputs with
    | .error e => .error e
    | .ok _ => match inputMap true true inputs inits with
      | .error e => .error e
      | .ok _ => importAll nodes ⟨valueInfo, outputs, inputs⟩ inits (fresh inputs.length m).1
          (outer ++ bindArgs (inputs.map ValueInfo.name) (fresh inputs.length m).1)
          (fresh inputs.length m).2

mutual

/-- `for node in graph.node: self.import_node(node)` (OI:352–353). -/
def importNodes (X : Expand) (ctx : Ctx) : List Node → Step
  | [] => fun _ l m => .ok (l, m)
  | .mk name opType domain inputs outputs attrs :: rest => fun gi l m =>
    match nodeStep X ctx (.mk name opType domain inputs outputs attrs) (regionActs X ctx attrs) gi l m with
    | .error e => .error e
    | .ok (l1, m1) => importNodes X ctx rest gi l1 m1

/-- The graph attributes with the import of their graphs (OI:496–503). -/
def regionActs (X : Expand) (ctx : Ctx) : List Attr → List (String × RegionAct)
  | [] => []
  | .mk name ty _ _ _ _ g _ :: rest =>
    if ty = attrGraph then (name, graphAct X ctx g) :: regionActs X ctx rest else regionActs X ctx rest

/-- The import of a graph into a region; an unset graph is empty. -/
def graphAct (X : Expand) (ctx : Ctx) : Option Graph → RegionAct
  | none => importRegion [] [] [] [] (fun _ l m => .ok (l, m))
  | some (.mk _ inits valueInfo inputs outputs nodes) =>
    importRegion inits valueInfo inputs outputs (importNodes X ctx nodes)

end

/-- `default_opset_version`, `opset_versions` of `_populate_graph_attrs` (OI:312–342). -/
def metaOpset (opsets : List (String × Int)) : Option Int :=
  match (opsets.filter (fun p => p.1 == "")).getLast? with
  | some p => if p.2 = 0 then none else some p.2
  | none => none

def metaOpsets (opsets : List (String × Int)) : List (String × Int) :=
  ordOf (opsets.filter (fun p => p.1 != ""))

/-- `define_function` followed by `import_all` (OI:259–310, 344–367). -/
def importFunction (X : Expand) (ctx : Ctx) (priv : Bool) (g : Graph) (m : MSt) : Py (FuncRef × MSt) :=
  match inputMap false ctx.config.elideInitializedInputs g.inputs g.inits with
  | .error e => .error e
  | .ok ins => match pyMap (fun p : String × ValueInfo => typeProtoToType (some p.2.type)) ins with
    | .error e => .error e
    | .ok argTypes => match pyMap (fun v : ValueInfo => typeProtoToType (some v.type)) g.outputs with
      | .error e => .error e
      | .ok resTypes =>
        match importAll (importNodes X ctx g.nodes) ⟨g.valueInfo, g.outputs, g.inputs⟩ g.inits
            (fresh ins.length m).1 (bindArgs (ins.map Prod.fst) (fresh ins.length m).1)
            (fresh ins.length m).2 with
        | .error e => .error e
        | .ok (body, m1) => .ok (⟨g.name, resTypes⟩, { m1 with
            funcs := m1.funcs ++ [⟨g.name, priv, argTypes, resTypes, metaOpset ctx.opsets,
              metaOpsets ctx.opsets, body⟩] })

/-! ## ModuleCache -/

/-- What the memoisation key is made of (OI:1031–1049). -/
structure Key where
  opType : String
  domain : String
  version : Int
  inTypes : List TypeProto
  outTypes : List (Option TypeProto)
  /-- the whole node for a context-dependent function, the attributes otherwise -/
  caller : Node ⊕ List Attr

/-- The `onnx` package, and `repr`. -/
structure Ext where
  registry : List Schema
  plainBody : Schema → Int → Option FunctionProto
  contextBody : Schema → Int → Node → List TypeProto → Option FunctionProto
  infer : Graph → Py Graph
  repr : Key → String

/-- `get_operator_function` (OI:965–1091); `importBody` imports the specialised function, whose `ModelInfo` has the
default configuration (OI:1080). -/
def getOperatorFunction (E : Ext) (importBody : Ctx → Graph → MSt → Py (FuncRef × MSt)) : Expand :=
  fun ctx node version inT outT m =>
    if policyAllows ctx.config node.domain node.opType = false then .ok (none, m)
    else match getSchema E.registry node.opType node.domain version with
      | .error e => .error e
      | .ok s => match chooseVersion s version with
        | none => .ok (none, m)
        | some (v, cd) =>
          let key := E.repr ⟨node.opType, node.domain, version, inT, outT,
            if cd then .inl node else .inr node.attrs⟩
          match dictGet m.memo key with
          | some f => .ok (some f, m)
          | none => match (if cd then E.contextBody s v node inT else E.plainBody s v) with
            | none => .error .onnxImport
            | some f => match specialize E.infer f s key inT outT node with
              | .error e => .error e
              | .ok g => match importBody ⟨f.opsets, Config.default⟩ g m with
                | .error e => .error e
                | .ok (fr, m1) => .ok (some fr, { m1 with memo := dictSet m1.memo key fr })

/-- Importing a function with at most `fuel` levels of expansion below it. -/
def importFn (E : Ext) : Nat → Bool → Ctx → Graph → MSt → Py (FuncRef × MSt)
  | 0, _, _, _, _ => .error .runtimeError
  | fuel + 1, priv, ctx, g, m =>
    importFunction (getOperatorFunction E (importFn E fuel true)) ctx priv g m

/-- `ModelInfo`, `define_function`, `import_all` (tools/import_onnx/__main__.py:38–44). -/
def importModel (E : Ext) (fuel : Nat) (ctx : Ctx) (g : Graph) : Py (List Func) :=
  match importFn E fuel false ctx g ⟨0, [], []⟩ with
  | .error e => .error e
  | .ok (_, m) => .ok m.funcs

end Verif.Onnx
