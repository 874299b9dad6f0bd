import Verif.Model.OnnxTypes
import Verif.Py.Loop

/-!
# ONNX operators defined by functions

/repo/python/torch_mlir/extras/onnx_importer.py:78–127, 778–950, 965–1091 ("OI"): which operators are
expanded, with which definition, and how the definition is specialised.  The `onnx` package is external:
`Registry` is its table of operator schemas, with `onnx.defs.get_schema` read as documented (the newest schema
not newer than the asked version); function bodies and shape inference are parameters.
-/

namespace Verif.Onnx

/-- `Config` (OI:78–127).  A dict of sets is a list of domains with their operators. -/
structure Config where
  elideInitializedInputs : Bool
  allow : Option (List (String × List String))
  deny : List (String × List String)
  deriving DecidableEq, Repr

/-- `Config()` -/
def Config.default : Config where
  elideInitializedInputs := true
  allow := some [("", ["MeanVarianceNormalization"])]
  deny := [("", ["CastLike", "Range"])]

/-- `domain in lists and op in lists[domain]` -/
def listed (lists : List (String × List String)) (domain op : String) : Bool :=
  match dictGet lists domain with
  | some ops => decide (op ∈ ops)
  | none => false

/-- The two policy tests of `get_operator_function` (OI:982–991). -/
def policyAllows (c : Config) (domain op : String) : Bool :=
  (match c.allow with
    | none => true
    | some lists => listed lists domain op) && !listed c.deny domain op

/-- `OpSchema`: the version it appeared in, the versions of its function bodies, plain and
context-dependent, and the default values of its attributes (`none`: no default). -/
structure Schema where
  name : String
  domain : String
  since : Int
  plainVersions : List Int
  contextVersions : List Int
  defaults : List (String × Option Attr)

/-- The newest of the schemas not newer than `version`. -/
def newestSchema (version : Int) : List Schema → Option Schema
  | [] => none
  | s :: rest => match newestSchema version rest with
    | none => if s.since ≤ version then some s else none
    | some b => if s.since ≤ version ∧ b.since < s.since then some s else some b

/-- `onnx.defs.get_schema(op, domain=…, max_inclusive_version=…)`; `SchemaError` is a `RuntimeError`. -/
def getSchema (registry : List Schema) (op domain : String) (version : Int) : Py Schema :=
  match newestSchema version (registry.filter (fun s => s.name == op && s.domain == domain)) with
  | some s => .ok s
  | none => .error .runtimeError

/-- One step of `max`. -/
def maxStep (best : Option Int) (v : Int) : Option Int :=
  match best with
  | none => some v
  | some b => some (if b < v then v else b)

/-- `max(filter(lambda v: v <= opset, versions), default=None)` (OI:1004–1012). -/
def maxVersion (opset : Int) (versions : List Int) : Option Int :=
  (versions.filter (· ≤ opset)).foldl maxStep none

/-- The choice between the two kinds (OI:1013–1025): the version, and whether it is context-dependent. -/
def chooseVersion (s : Schema) (opset : Int) : Option (Int × Bool) :=
  match maxVersion opset s.plainVersions, maxVersion opset s.contextVersions with
  | none, none => none
  | some p, none => some (p, false)
  | none, some c => some (c, true)
  | some p, some c => if c < p then some (p, false) else some (c, true)

/-- `caller.attribute` by name: the first. -/
def findAttr (attrs : List Attr) (name : String) : Option Attr := attrs.find? (fun a => a.name == name)

/-- The attribute with another name. -/
def Attr.rename (a : Attr) (name : String) : Attr :=
  match a with | .mk _ ty r d t ts g gs => .mk name ty r d t ts g gs

/-- `_bind_attribute` (OI:817–873).  `not old_attribute.g` never holds, a message being true, so an attribute
without `graphs` is returned as it is; otherwise `_bind_attributes_in_subgraph` is called, whose first statement
reads a name that is not defined. -/
def bindAttribute (caller : List Attr) (schema : Schema) (a : Attr) : Py (Option Attr) :=
  if a.ref = "" then
    if a.graphs.isEmpty then .ok (some a) else .error .nameError
  else match findAttr caller a.ref with
    | some c => .ok (some (c.rename a.name))
    | none => match dictGet schema.defaults a.ref with
      | none => .error .keyError
      | some none => .ok none
      | some (some d) => if d.type = 0 then .ok none else .ok (some (d.rename a.name))

/-- `_bind_attributes_on_node` (OI:788–883). -/
def bindAttributesOnNode (caller : List Attr) (schema : Schema) (n : Node) : Py Node :=
  match pyMap (bindAttribute caller schema) n.attrs with
  | .error e => .error e
  | .ok as => .ok (.mk n.name n.opType n.domain n.inputs n.outputs (as.filterMap id))

/-- `zip(function_proto.input, input_type_protos)` as value infos (OI:911–917). -/
def functionInputs (names : List String) (types : List TypeProto) : List ValueInfo :=
  (names.zip types).map (fun p => ⟨p.1, p.2⟩)

/-- One output: `output_proto.type.CopyFrom("")` is a `TypeError` (OI:919–924). -/
def functionOutput (p : String × Option TypeProto) : Py ValueInfo :=
  match p.2 with
  | none => .error .typeError
  | some t => .ok ⟨p.1, t⟩

/-- `_specialize_function_and_create_model` (OI:886–950) up to shape inference, which is the parameter `infer`.
`output_proto` is created in the loop over the inputs. -/
def specialize (infer : Graph → Py Graph) (f : FunctionProto) (schema : Schema) (name : String)
    (inTypes : List TypeProto) (outTypes : List (Option TypeProto)) (caller : Node) : Py Graph :=
  let ins := functionInputs f.inputs inTypes
  let outs := f.outputs.zip outTypes
  if ins.isEmpty && !outs.isEmpty then .error .unboundLocal
  else match pyMap functionOutput outs with
    | .error e => .error e
    | .ok os => match pyMap (bindAttributesOnNode caller.attrs schema) f.nodes with
      | .error e => .error e
      | .ok ns => infer (.mk name [] [] ins os ns)

end Verif.Onnx
