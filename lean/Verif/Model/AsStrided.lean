import Verif.Py.Basic
import Verif.Py.Sort

/-!
# Model of `python/torch_mlir/extras/fx_as_strided.py`

Integer tensors of shape `size` are modelled as the flat list of their elements in row-major
order; `multiIndices size` lists the corresponding multi-indices.  torch's `int64` elements are
modelled as unbounded `Int` (no wrap-around).
-/

namespace Verif.AsStrided

/-- Row-major enumeration of the multi-indices of a tensor of shape `size`.
The order in which torch stores / broadcasts the tensors built in
`fx_as_strided.py:215-231`. -/
def multiIndices : List Nat → List (List Nat)
  | [] => [[]]
  | n :: ns => (List.range n).flatMap fun i => (multiIndices ns).map (i :: ·)

/-- One iteration of `for dim, step in enumerate(stride)` (`fx_as_strided.py:216-220`).
`shape[dim] = size[dim]` raises `IndexError` when the stride list is longer than the size list. -/
def addDim (size : List Nat) (dim : Nat) (step : Int) (offsets : List Int) : Py (List Int) :=
  if step ≠ 0 then
    if dim < size.length then
      .ok (List.zipWith (fun idx o => o + ((idx.getD dim 0 : Nat) : Int) * step)
        (multiIndices size) offsets)
    else .error .indexError
  else .ok offsets

/-- The loop of `fx_as_strided.py:216-220`, `dim` being the enumerate counter. -/
def addDims (size : List Nat) : Nat → List Int → List Int → Py (List Int)
  | _, [], offsets => .ok offsets
  | dim, step :: rest, offsets => do
    let offsets ← addDim size dim step offsets
    addDims size (dim + 1) rest offsets

/-- Decoder state: one coordinate tensor per base dimension, and the residue
(`fx_as_strided.py:224-225`). -/
structure Dec where
  coords : List (List Int)
  remaining : List Int

/-- One iteration of `for dim in dims` (`fx_as_strided.py:227-231`);
`torch.div(..., rounding_mode="floor")` is `Int.fdiv`. -/
def decodeDim (baseStride : List Int) (st : Dec) (dim : Nat) : Dec :=
  let s := baseStride.getD dim 0
  if s ≠ 0 then
    let coord := st.remaining.map fun r => r.fdiv s
    { coords := st.coords.set dim coord
      remaining := List.zipWith (fun r c => r - c * s) st.remaining coord }
  else st

/-- `sorted(range(len(base_shape)), key=lambda i: base_stride[i], reverse=True)`
(`fx_as_strided.py:226`).  Python's sort is stable also with `reverse=True`, and so is
`sortBy`. -/
def sortedDims (n : Nat) (baseStride : List Int) : List Nat :=
  sortBy (fun i j => decide (baseStride.getD j 0 ≤ baseStride.getD i 0)) (List.range n)

/-- `_any` (`fx_as_strided.py:248-251`) applied to an elementwise predicate: false on an empty
tensor. -/
def anyElem (p : Int → Bool) (t : List Int) : Bool :=
  t.length != 0 && t.any p

/-- The bounds loop `for dim, coord in enumerate(coords)` (`fx_as_strided.py:242-244`). -/
def checkBounds (baseShape : List Nat) : Nat → List (List Int) → Py Unit
  | _, [] => .ok ()
  | dim, coord :: rest =>
    if anyElem (fun c => decide (c < 0)) coord
        || anyElem (fun c => decide (((baseShape.getD dim 0 : Nat) : Int) ≤ c)) coord then
      .error .valueError
    else checkBounds baseShape (dim + 1) rest

/-- `_indices` (`fx_as_strided.py:196-245`).  `base_stride[i]` raises `IndexError` when the stride
list of the base is shorter than its shape. Negative sizes are excluded by the type `Nat`
(ATen rejects them before this pass, `fx_as_strided.py:125-128`). -/
def indices (baseShape : List Nat) (baseStride : List Int) (baseOffset : Int)
    (size : List Nat) (stride : List Int) (offset : Int) : Py (List (List Int)) := do
  let offsets := (multiIndices size).map fun _ => offset - baseOffset
  let offsets ← addDims size 0 stride offsets
  if baseStride.length < baseShape.length then .error .indexError else
  let dims := sortedDims baseShape.length baseStride
  let st : Dec :=
    { coords := List.replicate baseShape.length (offsets.map fun _ => 0)
      remaining := offsets }
  let st := dims.foldl (decodeDim baseStride) st
  if anyElem (fun r => decide (r ≠ 0)) st.remaining then .error .valueError else
  checkBounds baseShape 0 st.coords
  .ok st.coords

/-- `while hasattr(gm, name): name += "_"` (`fx_as_strided.py:104-106`).  `used` lists the
attributes of the module.  The loop runs at most `used.length + 1` times, which bounds the fuel. -/
def freshNameLoop (used : List String) : Nat → String → String
  | 0, name => name
  | fuel + 1, name => if used.contains name then freshNameLoop used fuel (name ++ "_") else name

/-- The name of the synthetic buffer chosen by `_constant` (`fx_as_strided.py:104-106`). -/
def constantName (used : List String) (nodeName : String) (index : Nat) : String :=
  freshNameLoop used (used.length + 1)
    (s!"_torch_mlir_as_strided_{nodeName}_index_{index}")

/-- Attributes of the owning `GraphModule`: name ↦ value, newest binding first. -/
abbrev Attrs (α : Type) := List (String × α)

/-- `_constant` (`fx_as_strided.py:96-111`): registers the tensor under a fresh name and returns
the name that the new `get_attr` node reads. -/
def constant {α : Type} (gm : Attrs α) (nodeName : String) (index : Nat) (tensor : α) :
    Attrs α × String :=
  let name := constantName (gm.map (·.1)) nodeName index
  (dictSet gm name tensor, name)

/-- `[_constant(g, node, i, v) for i, v in enumerate(indices)]` (`fx_as_strided.py:86`). -/
def constants {α : Type} (gm : Attrs α) (nodeName : String) : Nat → List α → Attrs α × List String
  | _, [] => (gm, [])
  | i, v :: vs =>
    let r := constant gm nodeName i v
    let r' := constants r.1 nodeName (i + 1) vs
    (r'.1, r.2 :: r'.2)

/-- All `as_strided` nodes of one graph, rewritten one after another
(`fx_as_strided.py:39-52`), each with its node name and its index tensors. -/
def rewriteAll {α : Type} (gm : Attrs α) : List (String × List α) → Attrs α × List (List String)
  | [] => (gm, [])
  | (nodeName, ts) :: rest =>
    let r := constants gm nodeName 0 ts
    let r' := rewriteAll r.1 rest
    (r'.1, r.2 :: r'.2)

/-- The storage offset used for a node: the explicit one if given, else the source tensor's own
(`fx_as_strided.py:68-74`). -/
def chosenOffset (explicit : Option Int) (sourceOffset : Int) : Int :=
  match explicit with
  | none => sourceOffset
  | some o => o

/-! ### Base tracing -/

/-- An FX argument: a node, a list/tuple of arguments, or anything else (scalars, `None`, …). -/
inductive Arg where
  | node (n : Nat)
  | list (xs : List Arg)
  | other

/-- An FX node: the identity of the untyped storage of its `meta["val"]` (if that is a tensor) and
its arguments, positional ones first (`list(node.args) + list(node.kwargs.values())`). -/
structure Node where
  storage : Option Nat
  args : List Arg

/-- An FX graph, in topological order. -/
abbrev Graph := List Node

/-- The storage identity of `node.meta.get("val")`, if it is a tensor (`fx_as_strided.py:143-150`). -/
def storageOf (g : Graph) (n : Nat) : Option Nat := (g[n]?).bind (·.storage)

mutual
/-- `_same_storage_arg` (`fx_as_strided.py:179-193`): first operand (depth first through lists)
sharing the storage. -/
def sameStorageArg (g : Graph) (s : Nat) : Arg → Option Nat
  | .node n => if storageOf g n = some s then some n else none
  | .list xs => sameStorageArgs g s xs
  | .other => none

/-- The loop over a list of arguments (`fx_as_strided.py:172-176` and `189-192`). -/
def sameStorageArgs (g : Graph) (s : Nat) : List Arg → Option Nat
  | [] => none
  | a :: rest =>
    match sameStorageArg g s a with
    | some m => some m
    | none => sameStorageArgs g s rest
end

/-- `_storage_operand` (`fx_as_strided.py:167-176`); raises `ValueError` without tensor metadata. -/
def storageOperand (g : Graph) (n : Nat) : Py (Option Nat) :=
  match g[n]? with
  | none => .error .valueError
  | some nd =>
    match nd.storage with
    | none => .error .valueError
    | some s => .ok (sameStorageArgs g s nd.args)

/-- The loop of `_base` (`fx_as_strided.py:153-164`), with fuel: each turn moves to an operand,
which precedes its user, so `v + 1` turns suffice (`base_total`). -/
def baseLoop (g : Graph) : Nat → Nat → Py Nat
  | 0, _ => .error .runtimeError
  | fuel + 1, v =>
    match storageOperand g v with
    | .error e => .error e
    | .ok none => .ok v
    | .ok (some w) => baseLoop g fuel w

/-- `_base` (`fx_as_strided.py:153-164`). -/
def base (g : Graph) (v : Nat) : Py Nat := baseLoop g (v + 1) v

end Verif.AsStrided
