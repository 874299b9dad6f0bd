import Mathlib.Data.List.Basic
import Mathlib.Logic.Function.Iterate

/-!
# Inlining of global slots

`lib/Dialect/Torch/Transforms/InlineGlobalSlots.cpp`.  A module has global slots, an initializer which computes their first
values, and functions.  Objects (tensors, lists) live on a heap; numbers, strings and value tensors do not.

Simplified: one operation per kind of use the analysis tells apart; operations have one result, or are `prim.If`.  Calls between
functions and loops are left out (the analysis takes an operand of either as unsafe).  `adjustStaticInformation` is the
identity.  A cloned slice is one operation that has a scope of its own.
-/

namespace Verif.Slots

abbrev Var := Nat
abbrev Slot := Nat

/-- A value: of one of the types of `isTypeTriviallySafe` (lines 68-71), or an object. -/
inductive Val (D : Type) where
  | imm (d : D)
  | ref (l : Nat)

/-- An object: data, and the values in it. -/
structure Obj (D : Type) where
  data : D
  kids : List (Val D)

abbrev Heap (D : Type) := List (Obj D)

/-- What can be read from a value down to some depth. -/
inductive Tree (D : Type) where
  | cut
  | leaf (d : D)
  | node (d : D) (kids : List (Tree D))

def obs {D : Type} (h : Heap D) : Nat → Val D → Tree D
  | 0, _ => .cut
  | _ + 1, .imm d => .leaf d
  | n + 1, .ref l =>
    match h[l]? with
    | none => .cut
    | some o => .node o.data (o.kids.map (obs h n))

/-- What can be read from a value. -/
abbrev Seen (D : Type) := Nat → Tree D

def seen {D : Type} (h : Heap D) (v : Val D) : Seen D := fun n => obs h n v

/-- Operations without side effects; the arguments of the functions are what can be read from the operands.
`fresh`, `value`: with the trait `HasValueSemantics`, the result is a new object, or no object.
`same`, `item`: `ReadOnly` or `Pure`, the result is the operand, or a part of the first.
`list`: `Pure` (`prim.ListConstruct`), the result is a new object with the operands in it. -/
inductive SOp (D : Type) where
  | fresh (f : List (Seen D) → D) (args : List Var) (res : Var)
  | value (f : List (Seen D) → D) (args : List Var) (res : Var)
  | same (arg : Var) (res : Var)
  | item (i : List (Seen D) → Nat) (arg : Var) (args : List Var) (res : Var)
  | list (d : D) (args : List Var) (res : Var)

def SOp.res {D : Type} : SOp D → Var
  | .fresh _ _ r | .value _ _ r | .same _ r | .item _ _ _ r | .list _ _ r => r

def SOp.args {D : Type} : SOp D → List Var
  | .fresh _ as _ | .value _ as _ | .list _ as _ => as
  | .same a _ => [a]
  | .item _ a as _ => a :: as

/-- Operations of functions.  `mutate` and `append` write into their first operand; `emit` does something that can be seen.
`cloned ops y res` is what the pass puts in the place of a `global_slot.get`. -/
inductive Flat (D : Type) where
  | simple (o : SOp D)
  | get (s : Slot) (res : Var)
  | set (s : Slot) (arg : Var)
  | mutate (f : List (Seen D) → D) (arg : Var) (args : List Var)
  | append (arg : Var) (x : Var)
  | emit (args : List Var)
  | cloned (ops : List (SOp D)) (y : Var) (res : Var)

/-- Blocks.  `ret` is `func.return` at the end of a function and `prim.If.yield` at the end of a branch. -/
inductive Code (D : Type) where
  | ret (args : List Var)
  | op (o : Flat D) (k : Code D)
  | iff (test : D → Bool) (cond : Var) (t e : Code D) (res : List Var) (k : Code D)

structure Fn (D : Type) where
  params : List Var
  body : Code D

/-- A module.  `trivial` says which values have a trivially safe type; `slots` are the operands of `initialize.global_slots`. -/
structure Module (D : Type) where
  trivial : Var → Bool
  isPublic : Slot → Bool
  init : List (SOp D)
  slots : List (Slot × Var)
  fns : List (Fn D)

/-! ## Running -/

abbrev Env (D : Type) := Var → Option (Val D)

def Env.empty {D : Type} : Env D := fun _ => none

/-- A value of a trivially safe type is not an object. -/
def bind {D : Type} (trivial : Var → Bool) (env : Env D) (x : Var) (v : Val D) : Option (Env D) :=
  match trivial x, v with
  | true, .ref _ => none
  | _, _ => some fun y => if y = x then some v else env y

def bindAll {D : Type} (trivial : Var → Bool) : Env D → List Var → List (Val D) → Option (Env D)
  | env, [], [] => some env
  | env, x :: xs, v :: vs =>
    match bind trivial env x v with
    | none => none
    | some env => bindAll trivial env xs vs
  | _, _, _ => none

def lookAll {D : Type} (env : Env D) : List Var → Option (List (Val D))
  | [] => some []
  | x :: xs =>
    match env x, lookAll env xs with
    | some v, some vs => some (v :: vs)
    | _, _ => none

/-- The result of an operation without side effects, on the heap. -/
def SOp.eval {D : Type} (env : Env D) (h : Heap D) : SOp D → Option (Val D × Heap D)
  | .fresh f args _ =>
    match lookAll env args with
    | none => none
    | some vs => some (.ref h.length, h ++ [⟨f (vs.map (seen h)), []⟩])
  | .value f args _ =>
    match lookAll env args with
    | none => none
    | some vs => some (.imm (f (vs.map (seen h))), h)
  | .same a _ =>
    match env a with
    | none => none
    | some v => some (v, h)
  | .item i a args _ =>
    match env a, lookAll env args with
    | some (.ref l), some vs =>
      match h[l]? with
      | none => none
      | some o =>
        match o.kids[i (vs.map (seen h))]? with
        | none => none
        | some v => some (v, h)
    | _, _ => none
  | .list d args _ =>
    match lookAll env args with
    | none => none
    | some vs => some (.ref h.length, h ++ [⟨d, vs⟩])

def runSimple {D : Type} (trivial : Var → Bool) : List (SOp D) → Env D → Heap D → Option (Env D × Heap D)
  | [], env, h => some (env, h)
  | o :: os, env, h =>
    match o.eval env h with
    | none => none
    | some (v, h) =>
      match bind trivial env o.res v with
      | none => none
      | some env => runSimple trivial os env h

structure State (D : Type) where
  heap : Heap D
  slots : Slot → Option (Val D)
  trace : List (List (Seen D))

def Heap.update {D : Type} (h : Heap D) (v : Option (Val D)) (f : Obj D → Obj D) : Option (Heap D) :=
  match v with
  | some (.ref l) =>
    match h[l]? with
    | none => none
    | some o => some (h.set l (f o))
  | _ => none

def bindIn {D : Type} (trivial : Var → Bool) (env : Env D) (st : State D) (x : Var) (v : Option (Val D)) : Option (Env D × State D) :=
  match v with
  | none => none
  | some v =>
    match bind trivial env x v with
    | none => none
    | some env => some (env, st)

def Flat.run {D : Type} (trivial : Var → Bool) (env : Env D) (st : State D) : Flat D → Option (Env D × State D)
  | .simple o =>
    match o.eval env st.heap with
    | none => none
    | some (v, h) => bindIn trivial env { st with heap := h } o.res (some v)
  | .get s r => bindIn trivial env st r (st.slots s)
  | .set s a =>
    match env a with
    | none => none
    | some v => some (env, { st with slots := fun s' => if s' = s then some v else st.slots s' })
  | .mutate f a args =>
    match lookAll env args with
    | none => none
    | some vs =>
      match Heap.update st.heap (env a) fun o => { o with data := f (vs.map (seen st.heap)) } with
      | none => none
      | some h => some (env, { st with heap := h })
  | .append a x =>
    match env x with
    | none => none
    | some v =>
      match Heap.update st.heap (env a) fun o => { o with kids := o.kids ++ [v] } with
      | none => none
      | some h => some (env, { st with heap := h })
  | .emit args =>
    match lookAll env args with
    | none => none
    | some vs => some (env, { st with trace := st.trace ++ [vs.map (seen st.heap)] })
  | .cloned ops y r =>
    match runSimple trivial ops Env.empty st.heap with
    | none => none
    | some (e, h) => bindIn trivial env { st with heap := h } r (e y)

/-- The test of a condition. -/
def branch {D : Type} (test : D → Bool) (v : Option (Val D)) : Option Bool :=
  match v with
  | some (.imm d) => some (test d)
  | _ => none

/-- A block: the values at its end. -/
def Code.run {D : Type} (trivial : Var → Bool) : Code D → Env D → State D → Option (List (Val D) × State D)
  | .ret args, env, st =>
    match lookAll env args with
    | none => none
    | some vs => some (vs, st)
  | .op o k, env, st =>
    match o.run trivial env st with
    | none => none
    | some (env, st) => k.run trivial env st
  | .iff test c t e res k, env, st =>
    match branch test (env c) with
    | none => none
    | some b =>
      match (if b then t.run trivial env st else e.run trivial env st) with
      | none => none
      | some (vs, st) =>
        match bindAll trivial env res vs with
        | none => none
        | some env => k.run trivial env st

/-- What the user of a module does: makes objects, reads and sets public slots, calls functions with values it has. -/
inductive Act (D : Type) where
  | object (d : D)
  | number (d : D)
  | read (s : Slot)
  | write (s : Slot) (i : Nat)
  | call (f : Nat) (args : List Nat)

/-- Values of the user, and the state of the module. -/
structure World (D : Type) where
  has : List (Val D)
  st : State D

def pick {D : Type} (has : List (Val D)) : List Nat → Option (List (Val D))
  | [] => some []
  | i :: is =>
    match has[i]?, pick has is with
    | some v, some vs => some (v :: vs)
    | _, _ => none

def Fn.call {D : Type} (trivial : Var → Bool) (f : Fn D) (vs : List (Val D)) (st : State D) : Option (List (Val D) × State D) :=
  match bindAll trivial Env.empty f.params vs with
  | none => none
  | some env => f.body.run trivial env st

/-- One thing the user does.  What a function returns is seen. -/
def Module.act {D : Type} (m : Module D) (w : World D) : Act D → Option (World D)
  | .object d => some { has := w.has ++ [.ref w.st.heap.length], st := { w.st with heap := w.st.heap ++ [⟨d, []⟩] } }
  | .number d => some { w with has := w.has ++ [.imm d] }
  | .read s =>
    if m.isPublic s then
      match w.st.slots s with
      | none => none
      | some v => some { w with has := w.has ++ [v] }
    else none
  | .write s i =>
    if m.isPublic s then
      match w.has[i]? with
      | none => none
      | some v => some { w with st := { w.st with slots := fun s' => if s' = s then some v else w.st.slots s' } }
    else none
  | .call f args =>
    match m.fns[f]?, pick w.has args with
    | some f, some vs =>
      match f.call m.trivial vs w.st with
      | none => none
      | some (rs, st) => some { has := w.has ++ rs, st := { st with trace := st.trace ++ [rs.map (seen st.heap)] } }
    | _, _ => none

def Module.acts {D : Type} (m : Module D) : World D → List (Act D) → Option (World D)
  | w, [] => some w
  | w, a :: as =>
    match m.act w a with
    | none => none
    | some w => m.acts w as

/-- The initial values of slots, from the values of the initializer. -/
def initial {D : Type} (slots : List (Slot × Var)) (env : Env D) (s : Slot) : Option (Val D) :=
  match slots.lookup s with
  | none => none
  | some x => env x

/-- The initializer is run. -/
def Module.start {D : Type} (m : Module D) : Option (World D) :=
  match runSimple m.trivial m.init Env.empty [] with
  | none => none
  | some (env, h) => some ⟨[], ⟨h, initial m.slots env, []⟩⟩

/-- Everything that can be seen when a module is used. -/
def Module.run {D : Type} (m : Module D) (acts : List (Act D)) : Option (List (List (Seen D))) :=
  match m.start with
  | none => none
  | some w =>
    match m.acts w acts with
    | none => none
    | some w => some w.st.trace

/-! ## The analysis -/

/-- Uses, as `isValueSafeTransferFunction` (lines 220-254) tells them apart: with value semantics; by an operation that only reads,
with these results; by `initialize.global_slots`; any other. -/
inductive Use where
  | value
  | readOnly (results : List Var)
  | init (s : Slot)
  | other

def SOp.uses {D : Type} : SOp D → List (Var × Use)
  | .fresh _ as _ | .value _ as _ => as.map fun a => (a, .value)
  | o => o.args.map fun a => (a, .readOnly [o.res])

def Flat.uses {D : Type} : Flat D → List (Var × Use)
  | .simple o => o.uses
  | .get _ _ => []
  | .set _ a => [(a, .other)]
  | .mutate _ a as => (a :: as).map fun a => (a, .other)
  | .append a x => [(a, .other), (x, .other)]
  | .emit as => as.map fun a => (a, .other)
  | .cloned _ _ _ => []

/-- `func.return` (MLIR's) and `prim.If.yield` (TorchOps.td 587-591) are `Pure` and have no results. -/
def Code.uses {D : Type} : Code D → List (Var × Use)
  | .ret as => as.map fun a => (a, .readOnly [])
  | .op o k => o.uses ++ k.uses
  | .iff _ c t e _ k => (c, .value) :: (t.uses ++ e.uses ++ k.uses)

def Module.uses {D : Type} (m : Module D) : List (Var × Use) :=
  m.init.flatMap SOp.uses ++ m.slots.map (fun s => (s.2, .init s.1)) ++ m.fns.flatMap fun f => f.body.uses

/-- `global_slot.get`s with their results. -/
def Code.gets {D : Type} : Code D → List (Slot × Var)
  | .ret _ => []
  | .op (.get s r) k => (s, r) :: k.gets
  | .op _ k => k.gets
  | .iff _ _ t e _ k => t.gets ++ e.gets ++ k.gets

def Code.sets {D : Type} : Code D → List Slot
  | .ret _ => []
  | .op (.set s _) k => s :: k.sets
  | .op _ k => k.sets
  | .iff _ _ t e _ k => t.sets ++ e.sets ++ k.sets

def Flat.results {D : Type} : Flat D → List Var
  | .simple o => [o.res]
  | .get _ r | .cloned _ _ r => [r]
  | _ => []

def Code.results {D : Type} : Code D → List Var
  | .ret _ => []
  | .op o k => o.results ++ k.results
  | .iff _ _ t e res k => t.results ++ e.results ++ res ++ k.results

/-- What has a state: results of operations, and slots. -/
inductive Node where
  | var (x : Var)
  | slot (s : Slot)
  deriving DecidableEq

def Module.nodes {D : Type} (m : Module D) : List Node :=
  m.init.map (fun o => .var o.res) ++ (m.fns.flatMap fun f => f.body.results).map .var ++ m.slots.map (fun s => .slot s.1)

def Use.ok (bad : List Node) : Use → Bool
  | .value => true
  | .readOnly rs => rs.all fun r => decide (Node.var r ∉ bad)
  | .init s => decide (Node.slot s ∉ bad)
  | .other => false

/-- The states after one visit: of a value lines 220-254; of a slot lines 158-173 and 197-212. -/
def Module.nodeOk {D : Type} (m : Module D) (bad : List Node) : Node → Bool
  | .var x => m.trivial x || m.uses.all fun u => decide (u.1 ≠ x) || u.2.ok bad
  | .slot s =>
    !m.isPublic s && (m.fns.all fun f => decide (s ∉ f.body.sets)) &&
      m.fns.all fun f => f.body.gets.all fun g => decide (g.1 ≠ s) || decide (Node.var g.2 ∉ bad)

/-- Every point is visited. -/
def Module.visit {D : Type} (m : Module D) (bad : List Node) : List Node :=
  bad ++ m.nodes.filter fun n => decide (n ∉ bad) && !m.nodeOk bad n

/-- The unsafe values and slots.  The solver visits points in an order of its own until nothing changes; here all are visited
again and again. -/
def Module.unsafeNodes {D : Type} (m : Module D) : List Node := m.visit^[m.nodes.length] []

/-! ## The pass -/

/-- `getBackwardSliceIncludingRoot` (lines 256-265): the values an initial value is made from. -/
def needed {D : Type} (y : Var) (ops : List (SOp D)) : List Var :=
  ops.foldr (fun o n => if o.res ∈ n then o.args ++ n else n) [y]

def slice {D : Type} (y : Var) (ops : List (SOp D)) : List (SOp D) :=
  ops.filter fun o => decide (o.res ∈ needed y ops)

/-- `safeToInline` (lines 325-357), with `isInitialValueTransitivelySafeToInline` (lines 267-279). -/
def Module.safeToInline {D : Type} (m : Module D) : List (Slot × Var) :=
  m.slots.filter fun s => decide (Node.slot s.1 ∉ m.unsafeNodes) &&
    (slice s.2 m.init).all fun o => decide (Node.var o.res ∉ m.unsafeNodes)

/-- `global_slot.get`s of such slots are replaced (lines 361-382). -/
def Flat.inline {D : Type} (init : List (SOp D)) (safe : List (Slot × Var)) : Flat D → Flat D
  | .get s r =>
    match safe.lookup s with
    | none => .get s r
    | some y => .cloned (slice y init) y r
  | o => o

def Code.inline {D : Type} (init : List (SOp D)) (safe : List (Slot × Var)) : Code D → Code D
  | .ret as => .ret as
  | .op o k => .op (o.inline init safe) (k.inline init safe)
  | .iff test c t e res k => .iff test c (t.inline init safe) (e.inline init safe) res (k.inline init safe)

/-- `InlineGlobalSlotsPass` (lines 282-421): the slots are erased (lines 391-398), the initializer keeps its operations and has
the other slots (lines 401-419). -/
def Module.inline {D : Type} (m : Module D) : Module D :=
  { m with
    slots := m.slots.filter fun s => (m.safeToInline.lookup s.1).isNone
    fns := m.fns.map fun f => { f with body := f.body.inline m.init m.safeToInline } }

/-! ## The first walk over the module -/

/-- What `initialize` (lines 156-185) finds of a slot, in the order of the module: the slot, a `global_slot.set`, a `global_slot.get`
with the state of its result. -/
inductive Found where
  | slot (isPublic : Bool)
  | set
  | get (safe : Bool)

/-- The state of the slot after each: lines 158-164, lines 165-173, and lines 197-212 with `incorporateSafetyOfUse` (lines 123-129).
The assertion of `setSafe` (line 114) is left out, as where assertions are disabled. -/
def Found.state (safe : Bool) : Found → Bool
  | .slot isPublic => !isPublic
  | .set => false
  | .get s => if s then safe else false

def walk (fs : List Found) : Bool := fs.foldl Found.state true

end Verif.Slots
