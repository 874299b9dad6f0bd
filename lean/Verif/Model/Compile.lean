import Verif.Py.Basic
import Verif.Py.Loop

/-!
# Model of the compiler driver

Source: `python/torch_mlir/compiler_utils.py` (lines 46-63, 88-138, 141-188) and
`projects/pt1/python/torch_mlir/torchscript.py` (lines 31-145, 266-316).

`upper` is that of ASCII letters.  In the second part every step the code calls is an arbitrary function on the
world, which includes `sys.stderr`: it may change anything and may raise.  Not modelled: the texts of messages, and which
pipeline is run for which output type (lines 191-249).
-/

namespace Verif.Compile

/-! ## Placeholders and example arguments -/

/-- A tensor or a `TensorPlaceholder`: shape and dtype. -/
inductive ExArg (D : Type) where
  | tensor (shape : List Nat) (dtype : D)
  | placeholder (shape : List Int) (dtype : D)
  deriving DecidableEq, Repr

/-- Body of the loop of compiler_utils.py lines 58-62. -/
def likeDim (axes : List Int) (p : Nat × Nat) : Int := if (p.1 : Int) ∈ axes then -1 else p.2

/-- `TensorPlaceholder.like` (lines 46-63); `None` is the empty list of axes. -/
def like {D : Type} (shape : List Nat) (dtype : D) (axes : List Int) : List Int × D :=
  (((List.range shape.length).zip shape).map (likeDim axes), dtype)

/-- Arguments as given: one, a sequence, or a sequence with something else in it. -/
inductive Given (D : Type) where
  | one (a : ExArg D) | many (l : List (ExArg D)) | bad
  deriving DecidableEq, Repr

/-- `_canonicalize_args` (torchscript.py lines 75-88) -/
def canonicalize {D : Type} : Given D → Py (List (ExArg D))
  | .one a => .ok [a]
  | .many l => .ok l
  | .bad => .error .runtimeError

/-- `ExampleArgs`: methods in the order they were added. -/
abbrev Example (D : Type) := List (String × List (ExArg D))

/-- `add_method` (lines 48-60) -/
def addMethod {D : Type} (e : Example D) (name : String) (g : Given D) : Py (Example D) := do
  pyAssert (!(e.map Prod.fst).contains name)
  let args ← canonicalize g
  .ok (e ++ [(name, args)])

/-- Body of the loop of lines 97-102. -/
def annotationOf {D : Type} : ExArg D → List Int × D
  | .placeholder s d => (s, d)
  | .tensor s d => like s d []

/-- `_get_for_annotation` (lines 93-104) -/
def forAnnotation {D : Type} (e : Example D) : List (String × List (List Int × D)) :=
  e.map fun m => (m.1, m.2.map annotationOf)

/-- The annotation of a method (lines 268-270): `None` for `self`, then shape, dtype and value semantics. -/
def annotation {D : Type} (l : List (List Int × D)) : List (Option (List Int × D × Bool)) :=
  none :: l.map fun a => some (a.1, a.2, true)

/-- Shape and dtype of the tensor used for tracing (lines 117-142); `int64` is the dtype of
`torch.tensor(1)`; `torch.ones` rejects negative sizes. -/
def traceOf {D : Type} (int64 : D) (ignoreShapes : Bool) : ExArg D → Py (List Int × D)
  | .tensor s d => .ok (s.map Int.ofNat, d)
  | .placeholder s d =>
    if !ignoreShapes then .error .runtimeError
    else if s.length = 0 then .ok ([], int64)
    else if (s.map fun x => if x ≠ -1 then x else 7).any (· < 0) then .error .runtimeError
    else .ok (s.map fun x => if x ≠ -1 then x else 7, d)

/-- One method of `_get_for_tracing` with `use_tracing` (lines 116-144) -/
def traceMethod {D : Type} (int64 : D) (ignoreShapes : Bool) (m : String × List (ExArg D)) :
    Py (String × List (List Int × D)) := do
  let l ← pyMap (traceOf int64 ignoreShapes) m.2
  .ok (m.1, l)

/-- `_get_for_tracing` with `use_tracing` (lines 106-145) -/
def forTracing {D : Type} (int64 : D) (ignoreShapes : Bool) (e : Example D) :
    Py (List (String × List (List Int × D))) := pyMap (traceMethod int64 ignoreShapes) e

/-! ## Output types -/

/-- `OutputType` (compiler_utils.py lines 141-168) -/
inductive OutputType where
  | torch | linalgOnTensors | tosa | stablehlo | raw
  deriving DecidableEq, Repr

/-- `OutputType.__members__` -/
def members : List (List Char × OutputType) :=
  [("TORCH".toList, .torch), ("LINALG_ON_TENSORS".toList, .linalgOnTensors), ("TOSA".toList, .tosa),
    ("STABLEHLO".toList, .stablehlo), ("RAW".toList, .raw)]

/-- `upper` and `replace("-", "_")` on a character (line 182). -/
def canonChar (c : Char) : Char := if c.toUpper = '-' then '_' else c.toUpper

/-- `OutputType.get` of a string (lines 170-188) -/
def getType (spec : List Char) : Py OutputType :=
  match dictGet members (spec.map canonChar) with
  | some t => .ok t
  | none => .error .valueError

/-! ## Standard error -/

/-- Exceptions: `TorchMlirCompilerError`, other subclasses of `Exception`, and those that are not (such as
`KeyboardInterrupt`). -/
inductive Exc where
  | compilerError | unboundLocal | attributeError | importFailed | exception (name : String)
  | base (name : String)
  deriving DecidableEq, Repr

/-- Caught by `except Exception`. -/
def Exc.caught : Exc → Bool
  | .base _ => false
  | _ => true

/-- Streams: some existing one, or a fresh `StringIO`. -/
inductive Stream where
  | file (n : Nat) | stringIO (n : Nat)
  deriving DecidableEq, Repr

def Stream.isStringIO : Stream → Bool
  | .stringIO _ => true
  | _ => false

/-- `sys.stderr`, the number of streams made, and everything else. -/
structure World (σ : Type) where
  stderr : Stream
  fresh : Nat
  rest : σ

/-- A step: it returns or raises, in a new world. -/
abbrev M (σ : Type) := World σ → Except Exc Unit × World σ

/-- Sequence -/
def seq {σ : Type} (a b : M σ) : M σ := fun w =>
  match a w with
  | (.ok _, w') => b w'
  | (.error e, w') => (.error e, w')

/-- `sys.stderr = StringIO()` -/
def redirect {σ : Type} : M σ := fun w =>
  (.ok (), { w with stderr := .stringIO w.fresh, fresh := w.fresh + 1 })

/-- `sys.stderr.getvalue()` -/
def getvalue {σ : Type} : M σ := fun w =>
  (if w.stderr.isStringIO then .ok () else .error .attributeError, w)

def raise {σ : Type} (e : Exc) : M σ := fun w => (.error e, w)

/-- `try: body  except Exception: handler` -/
def tryExcept {σ : Type} (body : M σ) (handler : M σ) : M σ := fun w =>
  match body w with
  | (.ok u, w') => (.ok u, w')
  | (.error e, w') => if e.caught then handler w' else (.error e, w')

/-- `original = sys.stderr; try: body  finally: sys.stderr = original` -/
def restoring {σ : Type} (body : M σ) : M σ := fun w =>
  ((body w).1, { (body w).2 with stderr := w.stderr })

/-- The calls of `run_pipeline_with_repro_report`. -/
structure Steps (σ : Type) where
  moduleName : M σ
  getAsm : M σ
  enterContext : M σ
  parse : M σ
  enablePrinting : M σ
  run : M σ
  exitContext : M σ
  openFile : M σ
  writeFile : M σ

/-- Lines 100-108: the block `with module.context`. -/
def Steps.inContext {σ : Type} (s : Steps σ) (printing : Bool) : M σ :=
  seq s.enterContext fun w =>
    match (seq s.parse (seq (if printing then s.enablePrinting else fun w => (.ok (), w)) s.run)) w with
    | (.ok _, w') => s.exitContext w'
    | (.error e, w') =>
      match s.exitContext w' with
      | (.ok _, w'') => (.error e, w'')
      | (.error e', w'') => (.error e', w'')

/-- Lines 109-136 when `asm_for_error_report` is set. -/
def Steps.report {σ : Type} (s : Steps σ) : M σ :=
  seq s.openFile (seq s.writeFile (seq getvalue (raise .compilerError)))

/-- Lines 109-120 when it is not: opening the file, then `UnboundLocalError`. -/
def Steps.reportUnbound {σ : Type} (s : Steps σ) : M σ := seq s.openFile (raise .unboundLocal)

/-- Lines 94-136: the body of the `try` and its handler. -/
def Steps.body {σ : Type} (s : Steps σ) (printing : Bool) : M σ := fun w =>
  match seq redirect s.getAsm w with
  | (.error e, w') => if e.caught then s.reportUnbound w' else (.error e, w')
  | (.ok _, w') => tryExcept (s.inContext printing) s.report w'

/-- `run_pipeline_with_repro_report` (lines 88-138) -/
def Steps.runPipeline {σ : Type} (s : Steps σ) (printing : Bool) : M σ :=
  seq s.moduleName (restoring (s.body printing))

/-- torchscript.py lines 276-292: the import with its handler. -/
def importWithReport {σ : Type} (importModule : M σ) : M σ :=
  restoring (tryExcept (seq redirect importModule) (seq getvalue (raise .importFailed)))

/-- `compile` from line 276 on, for an output type other than raw: import, first pipeline, printing, and the
backend pipeline if there is one. -/
def compileTail {σ : Type} (importModule : M σ) (first : Steps σ) (printing : Bool) (print : M σ)
    (backend : Option (Steps σ)) : M σ :=
  seq (importWithReport importModule) (seq print (seq (first.runPipeline printing)
    (seq print (match backend with
      | some b => seq (b.runPipeline false) print
      | none => fun w => (.ok (), w)))))

end Verif.Compile
