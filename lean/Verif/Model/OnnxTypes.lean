import Verif.Model.OnnxProto

/-!
# ONNX types to torch types

/repo/python/torch_mlir/extras/onnx_importer.py:608–784, 1094–1118, 1141–1177 ("OI").  The maps in
which `ContextCache` keeps types already built are left out: a key determines the text that is parsed.
Tensor types go through their text and the model of the torch dialect's parser (`TypeText.parseType`).
-/

namespace Verif.Onnx

open Verif.Dtypes Verif.TypeText

/-- What `tensor_element_type` returns: a type, or for `STRING` the text `!torch.str`. -/
inductive Elem where
  | ty (t : ElemTy)
  | str
  deriving DecidableEq, Repr

/-- `ELEM_TYPE_TO_IR_TYPE_CB` (OI:1094–1118) by `TensorProto.DataType` code. -/
def elemTable : Nat → Option Elem
  | 1 => some (.ty (.float .f32))
  | 2 => some (.ty (.unsigned 8))
  | 3 => some (.ty (.signed 8))
  | 4 => some (.ty (.unsigned 16))
  | 5 => some (.ty (.signed 16))
  | 6 => some (.ty (.signed 32))
  | 7 => some (.ty (.signed 64))
  | 8 => some .str
  | 9 => some (.ty (.signless 1))
  | 10 => some (.ty (.float .f16))
  | 11 => some (.ty (.float .f64))
  | 12 => some (.ty (.unsigned 32))
  | 13 => some (.ty (.unsigned 64))
  | 14 => some (.ty (.complex .f32))
  | 15 => some (.ty (.complex .f64))
  | 16 => some (.ty (.float .bf16))
  | 17 => some (.ty (.float .f8E4M3FN))
  | 18 => some (.ty (.float .f8E4M3FNUZ))
  | 19 => some (.ty (.float .f8E5M2))
  | 20 => some (.ty (.float .f8E5M2FNUZ))
  | 21 => some (.ty (.unsigned 4))
  | 22 => some (.ty (.signed 4))
  | _ => none

/-- `tensor_element_type` (OI:608–617). -/
def tensorElementType (code : Nat) : Py Elem :=
  match elemTable code with
  | some e => .ok e
  | none => .error .onnxImport

/-- The types the importer builds. -/
inductive IrTy where
  | none
  | vtensor (sizes : Option (List Int)) (elem : Option Elem)
  | list (t : IrTy)
  | optional (t : IrTy)
  deriving DecidableEq, Repr

/-- `"?" if d is None else str(d)` (OI:658, 672, 684). -/
def dimAsm : Option Int → Text
  | none => ['?']
  | some n => printInt n

/-- `",".join(…)` (OI:658, 672, 684). -/
def shapeAsm (dims : List (Option Int)) : Text := join [','] (dims.map dimAsm)

/-- `!torch.vtensor<[…],…>` (OI:685). -/
def vtensorAsm (dims : List (Option Int)) (t : ElemTy) : Text :=
  '!' :: vtensorId ++ ['<', '['] ++ shapeAsm dims ++ [']', ','] ++ printElem t ++ ['>']

/-- No sparsity encoding occurs. -/
def noAttr : Text → Option (Unit × Text) := fun _ => none

/-- `get_vtensor_type` (OI:679–694): `IrType.parse`, a failure being `OnnxImportError`.  For strings only the
sizes go through the parser (the model of the parser has no `!torch.str`). -/
def getVtensorType (dims : List (Option Int)) : Elem → Py IrTy
  | .ty t => match parseType noAttr (vtensorAsm dims t) with
    | some ty => .ok (.vtensor ty.sizes (ty.dtype.map .ty))
    | none => .error .onnxImport
  | .str => match sizesPart ('[' :: shapeAsm dims ++ [']']) with
    | some (some l, _) =>
      if l.all (fun n => !(decide (n < 0) && n != -1)) then .ok (.vtensor (some l) (some .str))
      else .error .onnxImport
    | _ => .error .onnxImport

/-- `d.dim_value if d.HasField("dim_value") else None` (OI:656, 669, 726). -/
def Dim.size : Dim → Option Int
  | .value n => some n
  | .param _ => none
  | .unset => none

/-- `for d in tt.shape.dim`: an absent shape reads as one without dimensions. -/
def shapeDims (shape : Option (List Dim)) : List (Option Int) := (shape.getD []).map Dim.size

/-- `get_list_element_type` (OI:650–660), and the tensor case of `get_optional_element_type`; the text is
parsed with its container. -/
def listElementType : TypeProto → Py IrTy
  | .tensor e shape =>
    if e = 0 then .error .onnxImport
    else match tensorElementType e with
      | .error x => .error x
      | .ok t => getVtensorType (shapeDims shape) t
  | _ => .error .onnxImport

/-- `get_optional_element_type` (OI:662–677): `if st.elem_type` holds of every message. -/
def optionalElementType : TypeProto → Py IrTy
  | .tensor e shape =>
    if e = 0 then .error .onnxImport else listElementType (.tensor e shape)
  | .sequence elem => match listElementType elem with
    | .error x => .error x
    | .ok t => .ok (.list t)
  | _ => .error .onnxImport

/-- `type_proto_to_type` (OI:709–748); `none` is the text `""` that stands for a missing type. -/
def typeProtoToType : Option TypeProto → Py IrTy
  | none => .ok .none
  | some .unset => .ok .none
  | some (.tensor e shape) =>
    if e = 0 then .error .onnxImport
    else match tensorElementType e with
      | .error x => .error x
      | .ok t => getVtensorType (shapeDims shape) t
  | some (.sequence .unset) => .error .onnxImport
  | some (.sequence elem) => match listElementType elem with
    | .error x => .error x
    | .ok t => .ok (.list t)
  | some (.optional .unset) => .error .onnxImport
  | some (.optional elem) => match optionalElementType elem with
    | .error x => .error x
    | .ok t => .ok (.optional t)
  | some .map => .error .onnxImport
  | some (.sparse _) => .error .onnxImport

/-- `tensor_proto_to_type` (OI:696–698). -/
def tensorProtoToType (t : Tensor) : Py IrTy :=
  match tensorElementType t.dataType with
  | .error x => .error x
  | .ok e => getVtensorType (t.dims.map some) e

/-- A built-in tensor constant: sizes, element type, content. -/
structure TensorAttr where
  dims : List Int
  elem : ElemTy
  data : TensorData
  deriving DecidableEq, Repr

/-- Data types with an entry in `ELEM_TYPE_INLINE_TENSOR_PROTO_CB` (OI:1141–1177), and the element type the
entry builds: the one of the numpy array with its sign (`signless=False`), `i1` for `BOOL`. -/
def inlineTable : Nat → Option ElemTy
  | 1 => some (.float .f32)
  | 9 => some (.signless 1)
  | 2 => some (.unsigned 8)
  | 3 => some (.signed 8)
  | 5 => some (.signed 16)
  | 6 => some (.signed 32)
  | 7 => some (.signed 64)
  | 11 => some (.float .f64)
  | 12 => some (.unsigned 32)
  | 13 => some (.unsigned 64)
  | _ => none

/-- The number of entries of an array with these sizes. -/
def numel (dims : List Int) : Int := dims.foldl (· * ·) 1

/-- `np.asarray(…).reshape(tp.dims)` accepts `count` entries: one size may be -1 (OI:1142–1176). -/
def reshapes (count : Nat) (dims : List Int) : Bool :=
  if dims.all (fun d => decide (0 ≤ d)) then decide (numel dims = count) else false

/-- `tensor_proto_to_attr` (OI:758–775) with `tensor_proto_to_builtin_type` (OI:700–707): `RankedTensorType.get`
raises `TypeError` (re-raised as `OnnxImportError`) on the text of strings; a failing `reshape` is a
`ValueError` (negative sizes, which numpy gives a meaning, count as failing). -/
def tensorProtoToAttr (t : Tensor) : Py TensorAttr :=
  match tensorElementType t.dataType with
  | .error x => .error x
  | .ok .str => .error .onnxImport
  | .ok (.ty e) => match t.data with
    | .raw _ => .ok ⟨t.dims, e, t.data⟩
    | .typed n _ => match inlineTable t.dataType with
      | none => .error .onnxImport
      | some e' => if reshapes n t.dims then .ok ⟨t.dims, e', t.data⟩ else .error .valueError

end Verif.Onnx
