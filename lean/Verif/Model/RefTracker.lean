import Verif.Py.Basic

/-!
# Tensor literals and the reference tracker

`RefMapping`, `RefTracker` (python/torch_mlir/extras/fx_importer.py:2687–2728),
`_make_vtensor_literal_op` (2539–2589) and the tensor case of `_import_literal` (2291–2319).

The Python heap is made explicit: an object lives at an address (what CPython's `id()` returns),
an address can be reused once its object is gone, and the allocator may choose any unused address.
Tensor elements are opaque integers (bit patterns); the conversion tensor → list → numpy array →
`ElementsAttr` is the identity on them.  A dtype is its torch `ScalarType` number.
-/

namespace Verif.Ref

/-- A tensor object's contents. -/
structure Tensor where
  dtype : Nat
  shape : List Nat
  data : List Int
  deriving DecidableEq, Repr

/-- `torch.bool` and `torch.uint8`. -/
def boolDtype : Nat := 11
def uint8Dtype : Nat := 0

/-- Keys of `TORCH_DTYPE_TO_NPY_TYPE` with `ml_dtypes` installed (fx_importer.py:214–236):
uint8, int8, int16, int32, int64, float16, float32, float64, complex64, complex128, bool,
bfloat16 and five float8 types. -/
def npyDtypes : List Nat := [0, 1, 2, 3, 4, 5, 6, 7, 9, 10, 11, 15, 23, 24, 25, 26, 28]

/-- `py_value.to(torch.uint8)` of a Boolean tensor (fx_importer.py:2295). -/
def Tensor.toUint8 (t : Tensor) : Tensor :=
  { t with dtype := uint8Dtype, data := t.data.map fun d => if d = 0 then 0 else 1 }

/-- The `ElementsAttr` made from a tensor (fx_importer.py:2561–2583): splat or resource, it holds
shape, element type and elements. -/
structure Elements where
  dtype : Nat
  shape : List Nat
  data : List Int
  deriving DecidableEq, Repr

/-- What the importer emits for a tensor literal: `torch.vtensor.literal` with an attribute and a
result type, and for Boolean tensors a `torch.prims.convert_element_type` to `i1`. -/
structure Literal where
  /-- `value` attribute -/
  value : Elements
  /-- result type of the literal operation: dtype and shape -/
  type : Nat × List Nat
  /-- dtype and shape converted to, for Boolean tensors -/
  convert : Option (Nat × List Nat)
  deriving DecidableEq, Repr

/-- The heap (address ↦ live tensor) and `RefTracker._refs` (address ↦ mapping whose `value` is
`Empty` (`none`) or an attribute). -/
structure State where
  heap : Nat → Option Tensor
  refs : List (Nat × Option Elements)

/-- `RefTracker.track` (fx_importer.py:2715–2726) of the object at `a`: the existing mapping of
that address (a `RefMapping` is truthy), or a new empty one.  The weak reference kept in the
mapping is never consulted. -/
def track (refs : List (Nat × Option Elements)) (a : Nat) :
    Option Elements × List (Nat × Option Elements) :=
  match dictGet refs a with
  | some v => (v, refs)
  | none => (none, dictSet refs a none)

/-- `_make_vtensor_literal_op` (fx_importer.py:2539–2589) on the tensor `t` living at `a`.
The tracker is updated even if the function raises. -/
def makeVtensorLiteral (refs : List (Nat × Option Elements)) (a : Nat) (t : Tensor) :
    Py Elements × List (Nat × Option Elements) :=
  match track refs a with
  | (some v, refs) => (.ok v, refs)
  | (none, refs) =>
    if t.dtype ∈ npyDtypes then
      let v : Elements := ⟨t.dtype, t.shape, t.data⟩
      (.ok v, dictSet refs a (some v))
    else (.error .assertion, refs)

/-- Clients' and the allocator's actions.  In `import a tmp`, `tmp` is the address given to the
temporary `uint8` copy when the tensor at `a` is Boolean. -/
inductive Event where
  | alloc (a : Nat) (t : Tensor)
  | free (a : Nat)
  | write (a : Nat) (data : List Int)
  | import (a : Nat) (tmp : Option Nat)
  deriving DecidableEq, Repr

/-- A Boolean tensor's elements are 0 and 1. -/
def Tensor.WF (t : Tensor) : Prop := t.dtype = boolDtype → ∀ d ∈ t.data, d = 0 ∨ d = 1

instance (t : Tensor) : Decidable t.WF := by unfold Tensor.WF; infer_instance

/-- `_import_literal` of the tensor at `a` (fx_importer.py:2291–2319) with the default hook, which
resolves no literal (fx_importer.py:499–503).  A Boolean tensor is converted to a fresh `uint8`
tensor first, which is what gets tracked and which dies when the function returns. -/
def importLiteral (st : State) (a : Nat) (t : Tensor) (tmp : Option Nat) :
    Py Literal × State :=
  match tmp with
  | none =>
    let (r, refs) := makeVtensorLiteral st.refs a t
    (r.map fun v => ⟨v, (t.dtype, t.shape), none⟩, { st with refs := refs })
  | some b =>
    let u := t.toUint8
    let (r, refs) := makeVtensorLiteral st.refs b u
    (r.map fun v => ⟨v, (u.dtype, u.shape), some (t.dtype, t.shape)⟩, { st with refs := refs })

/-- Set one address of the heap. -/
def setHeap (h : Nat → Option Tensor) (a : Nat) (t : Option Tensor) : Nat → Option Tensor :=
  fun b => if b = a then t else h b

/-- One event; `none` if Python could not do it in this state (allocating at an address in use,
using a dead object).  An import also returns the contents of the tensor at that moment. -/
def step (st : State) : Event → Option (State × Option (Tensor × Py Literal))
  | .alloc a t =>
    if (st.heap a).isNone ∧ t.WF then some ({ st with heap := setHeap st.heap a (some t) }, none)
    else none
  | .free a =>
    if (st.heap a).isSome then some ({ st with heap := setHeap st.heap a none }, none) else none
  | .write a d =>
    match st.heap a with
    | none => none
    | some t =>
      if ({ t with data := d } : Tensor).WF then
        some ({ st with heap := setHeap st.heap a (some { t with data := d }) }, none)
      else none
  | .import a tmp =>
    match st.heap a with
    | none => none
    | some t =>
      match tmp with
      | none =>
        if t.dtype = boolDtype then none
        else
          let (r, st) := importLiteral st a t none
          some (st, some (t, r))
      | some b =>
        if t.dtype = boolDtype ∧ (st.heap b).isNone then
          let (r, st) := importLiteral st a t (some b)
          some (st, some (t, r))
        else none

/-- All imports of a history: the tensor's contents at that moment and what was emitted; `none`
if the history is impossible. -/
def run (st : State) : List Event → Option (List (Tensor × Py Literal))
  | [] => some []
  | e :: h =>
    match step st e with
    | none => none
    | some (st, o) => (run st h).map fun l => o.toList ++ l

/-- A new tracker in an empty heap. -/
def State.empty : State := ⟨fun _ => none, []⟩

end Verif.Ref
