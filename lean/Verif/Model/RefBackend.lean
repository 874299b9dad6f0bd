import Verif.Py.Basic
import Verif.Py.Loop
import Verif.Py.Sort
import Verif.Py.Text
import Verif.Model.Version

/-!
# Model of the return path of the reference backend

Source: `lib/RefBackend/RefBackend.cpp` lines 108-243 (how returns become calls of a callback) and
`projects/pt1/python/torch_mlir_e2e_test/linalg_on_tensors_backends/refbackend.py` lines 42-136 (how the
callbacks decode what they get).

A compiled function is its name, visibility and result types; what it computes is given as a list of
C-level values.  Contents of floats and buffers are opaque (`Nat`).  Not modelled: arguments of
functions, the rest of the lowering, the JIT.  An exception inside a `ctypes` callback is printed and
ignored by Python, so the invocation then has no result.
-/

namespace Verif.RefB

abbrev Text := List Char

/-- The float types the backend can meet. -/
inductive FloatTy where
  | f8 | f16 | bf16 | f32 | f64
  deriving DecidableEq, Repr

/-- `getIntOrFloatBitWidth` -/
def FloatTy.width : FloatTy → Nat
  | .f8 => 8
  | .f16 => 16
  | .bf16 => 16
  | .f32 => 32
  | .f64 => 64

/-- Element types: signless and signed integers, floats, complex numbers. -/
inductive Elem where
  | int (w : Nat)
  | sint (w : Nat)
  | float (f : FloatTy)
  | complex (f : FloatTy)
  deriving DecidableEq, Repr

/-- Result types after bufferization: scalars and (unranked) memrefs. -/
inductive Ty where
  | scalar (e : Elem)
  | memref (e : Elem)
  deriving DecidableEq, Repr

/-- `Twine(n)` -/
def num (n : Nat) : Text := Nat.toDigits 10 n

/-- `getTypeToken` for a non-memref type (RefBackend.cpp lines 111-118); `none` is `llvm_unreachable`. -/
def elemToken : Elem → Option Text
  | .int w => some ('i' :: num w)
  | .sint _ => none
  | .float f => some ('f' :: num f.width)
  | .complex f => some ('c' :: num f.width)

/-- `getTypeToken` (RefBackend.cpp lines 111-124) -/
def typeToken : Ty → Option Text
  | .scalar e => elemToken e
  | .memref e => (elemToken e).map (['m', 'r'] ++ ·)

/-- The lambda of `std::accumulate` (RefBackend.cpp lines 132-135) -/
def joinStep (a b : Text) : Text := if a.isEmpty then b else a ++ '_' :: b

/-- The first token (RefBackend.cpp line 128) -/
def baseName : Text := "refbackend_consume_func_return".toList

/-- `getConsumeReturnFunctionNameForReturnTypes` (RefBackend.cpp lines 127-136) -/
def consumeName (types : List Ty) : Option Text :=
  (types.mapM typeToken).map fun tokens => (baseName :: tokens).foldl joinStep []

/-- A function of the module; private ones are left alone (RefBackend.cpp lines 154-155). -/
structure Func where
  name : Text
  isPrivate : Bool
  rets : List Ty

/-- The functions `MungeCallingConventions` rewrites. -/
def publicFuncs (m : List Func) : List Func := m.filter fun f => !f.isPrivate

/-- The part of `mungeFunction` that fills `invokedConsumeFuncReturnFuncs` (lines 208-212): a name is
inserted once. -/
def recordConsumer (names : List Text) (f : Func) : Option (List Text) :=
  (consumeName f.rets).map fun n => if names.contains n then names else names ++ [n]

/-- Names of the callbacks declared by the pass: the keys of a `std::map` in order (lines 227-240). -/
def consumers (m : List Func) : Option (List Text) :=
  ((publicFuncs m).foldlM recordConsumer []).map (sortBy Version.strLe)

/-- Names of all functions of the compiled module: declarations are created at its start (line 226). -/
def symbols (m : List Func) : Option (List Text) :=
  (consumers m).map (· ++ m.map (·.name))

/-- The C types of callback arguments. -/
inductive CType where
  | bool | byte | int | float | double | memrefPtr
  deriving DecidableEq, Repr

/-- numpy dtypes. -/
inductive NpTy where
  | float16 | float32 | float64 | bool | int8 | int16 | int32 | int64 | complex64 | complex128
  deriving DecidableEq, Repr

/-- `memref_type_to_np_dtype` (refbackend.py lines 42-53) -/
def npTable : List (Text × NpTy) :=
  [("mrf16".toList, .float16), ("mrf32".toList, .float32), ("mrf64".toList, .float64),
   ("mri1".toList, .bool), ("mri8".toList, .int8), ("mri16".toList, .int16),
   ("mri32".toList, .int32), ("mri64".toList, .int64), ("mrc32".toList, .complex64),
   ("mrc64".toList, .complex128)]

/-- `elemental_type_to_ctype` (lines 54-60) -/
def ctypeTable : List (Text × CType) :=
  [("i1".toList, .bool), ("i8".toList, .byte), ("i64".toList, .int), ("f32".toList, .float),
   ("f64".toList, .double)]

/-- `CONSUME_RETURN_FUNC_PREFIX` (line 62) -/
def consumePrefix : Text := "refbackend_consume_func_return_".toList

/-- `get_return_funcs` (lines 65-75) -/
def returnFuncs (names : List Text) : List Text :=
  names.filter fun n => n.take consumePrefix.length = consumePrefix

/-- Body of the loop of lines 82-88. -/
def ctypeOf (type : Text) : Py CType :=
  match dictGet ctypeTable type with
  | some c => .ok c
  | none =>
    match dictGet npTable type with
    | some _ => .ok .memrefPtr
    | none => .error .assertion

/-- `func_name[return_prefix_len:].split("_")` (line 80) -/
def typeNames (funcName : Text) : List Text := pySplit '_' (funcName.drop consumePrefix.length)

/-- `get_ctype_func` (lines 78-90): the argument types of the callback and the type names. -/
def ctypeFunc (funcName : Text) : Py (List CType × List Text) := do
  let cs ← pyMap ctypeOf (typeNames funcName)
  .ok (cs, typeNames funcName)

/-- A loaded module: the registered callbacks, and the variable `ret_types` of `__init__`, which all
of them share. -/
structure Invoker where
  callbacks : List (Text × List CType)
  retTypes : Option (List Text)

/-- Body of the loop of lines 100-119. -/
def registerStep (s : Invoker) (retFunc : Text) : Py Invoker := do
  let p ← ctypeFunc retFunc
  .ok ⟨s.callbacks ++ [(retFunc, p.1)], some p.2⟩

/-- `RefBackendInvoker.__init__` (lines 94-119) -/
def load (names : List Text) : Py Invoker :=
  pyFold registerStep ⟨[], none⟩ (returnFuncs names)

/-- A value at the C level: an integer, a float or a buffer. -/
inductive Arg where
  | int (n : Int)
  | flt (x : Nat)
  | mem (b : Nat)
  deriving DecidableEq, Repr

/-- The signed number of `w` bits congruent to `n`. -/
def wrap (w : Nat) (n : Int) : Int := (n + 2 ^ (w - 1)) % 2 ^ w - 2 ^ (w - 1)

/-- What `ctypes` makes of an argument. -/
def convert : CType → Arg → Arg
  | .bool, .int n => .int (if n = 0 then 0 else 1)
  | .byte, .int n => .int (wrap 8 n)
  | .int, .int n => .int (wrap 32 n)
  | _, a => a

/-- A decoded result. -/
inductive Out where
  | int (n : Int)
  | flt (x : Nat)
  | arr (t : NpTy) (b : Nat)
  | ptr (b : Nat)
  deriving DecidableEq, Repr

/-- A value passed on as it is. -/
def plain : Arg → Out
  | .int n => .int n
  | .flt x => .flt x
  | .mem b => .ptr b

/-- One element of the comprehension of lines 105-114. -/
def decodeItem (arg : Arg) (type : Text) : Py Out :=
  if dictMem ctypeTable type then .ok (plain arg)
  else match dictGet npTable type with
    | none => .error .keyError
    | some t => match arg with
      | .mem b => .ok (.arr t b)
      | _ => .error .attributeError

/-- The loop of lines 105-114 over `zip(args, ret_types)`. -/
def decodeAll : List Arg → List Text → Py (List Out)
  | a :: as, t :: ts => do
      let o ← decodeItem a t
      let os ← decodeAll as ts
      .ok (o :: os)
  | _, _ => .ok []

/-- `self.result`: a tuple, or its element if there is one (lines 116-117). -/
inductive Result where
  | one (o : Out)
  | many (l : List Out)
  deriving DecidableEq, Repr

/-- Lines 116-117. -/
def pack : List Out → Result
  | [o] => .one o
  | l => .many l

/-- `invoke` (lines 122-134) for a function that returns `vals`: calling an unregistered callback is an
unresolved symbol; a callback that raises leaves no result. -/
def invoke (inv : Invoker) (f : Func) (vals : List Arg) : Py Result :=
  match consumeName f.rets with
  | none => .error .runtimeError
  | some name =>
    match dictGet inv.callbacks name, inv.retTypes with
    | some cs, some retTypes =>
      match decodeAll (cs.zipWith convert vals) retTypes with
      | .ok os => .ok (pack os)
      | .error _ => .error .assertion
    | _, _ => .error .runtimeError

/-- Loading a compiled module. -/
def loadModule (m : List Func) : Py Invoker :=
  match symbols m with
  | none => .error .runtimeError
  | some names => load names

end Verif.RefB
