import Verif.Py.Basic

/-!
# `TypeSubclassMap` (python/torch_mlir/extras/fx_importer.py:2597–2629)

A class is a value of an arbitrary type `T` with decidable equality (Python compares classes by
identity) and `sub t s` is `issubclass(t, s)`.  A registered value is never Python's `None` in the
code (every registration of fx_importer.py:2737–2796 is a lambda), so `none` stands for `None`.
-/

namespace Verif.TypeMap

variable {T V : Type} [DecidableEq T]

/-- The two fields `_mapping` and `_cache` (fx_importer.py:2604–2613). -/
structure State (T V : Type) where
  mapping : List (T × V)
  cache : List (T × Option V)
  deriving DecidableEq, Repr

/-- `__init__` (fx_importer.py:2609–2613) -/
def State.empty : State T V := ⟨[], []⟩

/-- `map(t, value)` (fx_importer.py:2615–2617) -/
def register (st : State T V) (t : T) (v : V) : State T V :=
  { mapping := st.mapping ++ [(t, v)], cache := dictSet st.cache t (some v) }

/-- The linear scan of `lookup` (fx_importer.py:2624–2627). -/
def scan (sub : T → T → Bool) (t : T) : List (T × V) → Option V
  | [] => none
  | (s, v) :: rest => if sub t s then some v else scan sub t rest

/-- `lookup(t)` (fx_importer.py:2619–2630): the memo, else the scan whose outcome (also `None`) is
memoised. -/
def lookup (sub : T → T → Bool) (st : State T V) (t : T) : Option V × State T V :=
  match dictGet st.cache t with
  | some r => (r, st)
  | none =>
    let r := scan sub t st.mapping
    (r, { st with cache := dictSet st.cache t r })

/-- One use of the object by its clients. -/
inductive Event (T V : Type) where
  | register (t : T) (v : V)
  | lookup (t : T)
  deriving DecidableEq, Repr

/-- The state after one use. -/
def step (sub : T → T → Bool) (st : State T V) : Event T V → State T V
  | .register t v => register st t v
  | .lookup t => (lookup sub st t).2

/-- The state after a history of uses of a new object. -/
def run (sub : T → T → Bool) (h : List (Event T V)) : State T V :=
  h.foldl (step sub) State.empty

/-- The answer of `lookup(t)` asked after the history `h`. -/
def answer (sub : T → T → Bool) (h : List (Event T V)) (t : T) : Option V :=
  (lookup sub (run sub h) t).1

/-- The classes registered in `LITERAL_CONVERTER_MAP`. -/
inductive LitClass where
  | noneType | bool | int | float | str | tensor | device | dtype | layout | memoryFormat
  deriving DecidableEq, Repr

/-- The registrations of `LITERAL_CONVERTER_MAP` in program order
(fx_importer.py:2736–2796); the value stands for the lambda registered for that class. -/
def literalRegistrations : List LitClass :=
  [.noneType, .bool, .int, .float, .str, .tensor, .device, .dtype, .layout, .memoryFormat]

end Verif.TypeMap
