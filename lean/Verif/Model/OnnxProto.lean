import Verif.Model.TypeText

/-!
# ONNX messages

The protobuf messages read by /repo/python/torch_mlir/extras/onnx_importer.py ("OI" below), with the
fields the importer reads.  An unset message field reads as an empty message, an unset string as `""`.
The numbers and bytes inside attributes and tensors are not interpreted: `Nat` stands for them.
-/

namespace Verif.Onnx

/-- `TensorShapeProto.Dimension`: the `oneof` of a number and a symbol may be unset. -/
inductive Dim where
  | value (n : Int)
  | param (s : String)
  | unset
  deriving DecidableEq, Repr

/-- `TypeProto`: `unset` when `WhichOneof("value")` is `None`; `shape` of a tensor and the element
type of a sequence or optional may be absent. -/
inductive TypeProto where
  | unset
  | tensor (elem : Nat) (shape : Option (List Dim))
  | sequence (elem : TypeProto)
  | optional (elem : TypeProto)
  | map
  | sparse (elem : Nat)
  deriving DecidableEq, Repr

/-- `ValueInfoProto` -/
structure ValueInfo where
  name : String
  type : TypeProto
  deriving DecidableEq, Repr

/-- The content of a `TensorProto`: `raw_data`, or typed fields with a number of entries. -/
inductive TensorData where
  | raw (bytes : Nat)
  | typed (count : Nat) (entries : Nat)
  deriving DecidableEq, Repr

/-- `TensorProto` -/
structure Tensor where
  name : String
  dataType : Nat
  dims : List Int
  data : TensorData
  deriving DecidableEq, Repr

/-- An unset `TensorProto`. -/
def Tensor.empty : Tensor := ⟨"", 0, [], .typed 0 0⟩

mutual

/-- `AttributeProto`: `type` is the declared kind, `data` stands for the float, int and string
fields. -/
inductive Attr where
  | mk (name : String) (type : Nat) (ref : String) (data : Nat) (t : Tensor) (tensors : List Tensor)
      (g : Option Graph) (graphs : List Graph)

/-- `NodeProto` -/
inductive Node where
  | mk (name opType domain : String) (inputs outputs : List String) (attrs : List Attr)

/-- `GraphProto` -/
inductive Graph where
  | mk (name : String) (inits : List Tensor) (valueInfo inputs outputs : List ValueInfo)
      (nodes : List Node)

end

/-- An unset `GraphProto`. -/
def Graph.empty : Graph := .mk "" [] [] [] [] []

def Attr.name : Attr → String | .mk n .. => n
def Attr.type : Attr → Nat | .mk _ t .. => t
def Attr.ref : Attr → String | .mk _ _ r .. => r
def Attr.data : Attr → Nat | .mk _ _ _ d .. => d
def Attr.t : Attr → Tensor | .mk _ _ _ _ t .. => t
def Attr.tensors : Attr → List Tensor | .mk _ _ _ _ _ ts .. => ts
def Attr.g : Attr → Graph | .mk _ _ _ _ _ _ g _ => g.getD Graph.empty
def Attr.graphs : Attr → List Graph | .mk _ _ _ _ _ _ _ gs => gs

def Node.name : Node → String | .mk n .. => n
def Node.opType : Node → String | .mk _ o .. => o
def Node.domain : Node → String | .mk _ _ d .. => d
def Node.inputs : Node → List String | .mk _ _ _ i .. => i
def Node.outputs : Node → List String | .mk _ _ _ _ o _ => o
def Node.attrs : Node → List Attr | .mk _ _ _ _ _ a => a

def Graph.name : Graph → String | .mk n .. => n
def Graph.inits : Graph → List Tensor | .mk _ i .. => i
def Graph.valueInfo : Graph → List ValueInfo | .mk _ _ v .. => v
def Graph.inputs : Graph → List ValueInfo | .mk _ _ _ i .. => i
def Graph.outputs : Graph → List ValueInfo | .mk _ _ _ _ o _ => o
def Graph.nodes : Graph → List Node | .mk _ _ _ _ _ n => n

/-- `AttributeProto.AttributeType` (onnx.proto). -/
def attrTensor : Nat := 4
def attrGraph : Nat := 5

/-- `FunctionProto`: what `_specialize_function_and_create_model` reads. -/
structure FunctionProto where
  inputs : List String
  outputs : List String
  nodes : List Node
  opsets : List (String × Int)

end Verif.Onnx
