/-!
# Model of the pass that introduces value semantics

Source: `lib/Dialect/Torch/Transforms/MaximizeValueSemantics.cpp` (lines 27-380) and `copyTensorToType` of
`lib/Dialect/Torch/IR/TorchOps.cpp` (lines 98-119).

A block is a list of operations on named values.  Of the types only "is a non-value tensor" is kept (`nv`), of view-like
operations a number, of all operations the pass does not know another number (`other`).  Operations with regions that use
a tensor are `other` operations with the tensor as an operand: the code gives up on both (lines 227-230, 125-130).
Simplifications: the work list of lines 222-259 is replaced by one walk down the block (operands are defined before their
uses); the lists of operations kept in `InterpretedOps` are the users of each kind.
-/

namespace Verif.VS

/-- Names of SSA values. -/
abbrev Name := Nat

/-- The operations the pass distinguishes. -/
inductive Kind where
  /-- `torch.copy.to_tensor` -/
  | toTensor
  /-- `torch.copy.to_vtensor` -/
  | toVTensor
  /-- `torch.tensor_static_info_cast` -/
  | cast
  /-- the other operations of `isViewLikeOp` (`lib/Dialect/Torch/Utils/Utils.cpp:328-345`) -/
  | view (k : Nat)
  /-- `torch.overwrite.tensor.contents` -/
  | overwrite
  /-- `func.return` -/
  | ret
  /-- anything else -/
  | other (k : Nat)
  deriving DecidableEq, Repr

structure Op where
  kind : Kind
  args : List Name
  results : List Name
  deriving DecidableEq, Repr

/-- `isViewLikeOp` (`Utils.cpp:328-345`). -/
def Op.isViewLike (o : Op) : Bool :=
  match o.kind with
  | .cast => true
  | .view _ => true
  | _ => false

/-- `replaceUsesWithIf` on one operation: operands in `set` become `v`. -/
def Op.replaceUses (set : List Name) (v : Name) (o : Op) : Op :=
  { o with args := o.args.map fun n => if n ∈ set then v else n }

/-- All operands replaced according to `θ`. -/
def Op.subst (θ : Name → Name) (o : Op) : Op := { o with args := o.args.map θ }

/-- `getCastLikeAliasesOf` (lines 44-53): the operands on the chain of casts that ends in `n`.  The block comes last
operation first. -/
def castAliases : List Op → Name → List Name
  | [], _ => []
  | o :: rest, n =>
    if o.results = [n] then
      match o.kind, o.args with
      | .cast, [x] => x :: castAliases rest x
      | _, _ => []
    else castAliases rest n

/-- Lines 232-255: the result of a view-like operation on an alias is an alias if it is a non-value tensor. -/
def addAlias (nv : Name → Bool) (al : List Name) (o : Op) : List Name :=
  match o.results, o.args with
  | [r], a :: _ => if o.isViewLike && nv r && al.contains a then r :: al else al
  | _, _ => al

/-- All aliases of the tensor made by the copy `c`, in the rest of the block. -/
def aliases (nv : Name → Bool) (c : Name) (post : List Op) : List Name := post.foldl (addAlias nv) [c]

/-- `nonValueTensorsUsedByOp[o]` (lines 257-258). -/
def usesOf (al : List Name) (o : Op) : List Name := o.args.filter al.contains

/-- The keys of `nonValueTensorsUsedByOp` in the order of the block (lines 79-83). -/
def users (al : List Name) (post : List Op) : List Op := post.filter fun o => usesOf al o ≠ []

/-- Lines 234-239 and 268-275, for one user: a view-like operation has one result, and if that is a non-value tensor and
an alias is used elsewhere, the first operand is an alias too. -/
def viewOk (nv : Name → Bool) (al : List Name) (o : Op) : Bool :=
  !o.isViewLike ||
    match o.results with
    | [r] => !(nv r) || !((o.args.drop 1).any al.contains) || (o.args.take 1).any al.contains
    | _ => false

/-- Lines 263-266: the only user is the return. -/
def onlyReturn (us : List Op) : Bool :=
  match us with
  | [o] => o.kind = .ret
  | _ => false

/-- Body of the loop of lines 92-131: the aliases that may be used after `user`; `none` if the analysis fails. -/
def interpretUser (nv : Name → Bool) (al : List Name) (rev : List Op) (avail : List Name) (user : Op) :
    Option (List Name) :=
  if !(usesOf al user).all avail.contains then none
  else if user.isViewLike then
    match user.results with
    | [r] => some (if nv r then r :: avail else avail)
    | _ => none
  else
    match user.kind, user.args with
    | .toVTensor, _ => some avail
    | .overwrite, [_, d] => some (d :: castAliases rev d)
    | .ret, _ => some avail
    | _, _ => none

/-- `abstractlyInterpretSlice` (lines 74-133). -/
def interpret (nv : Name → Bool) (al : List Name) (rev : List Op) : List Name → List Op → Option (List Name)
  | avail, [] => some avail
  | avail, u :: us =>
    match interpretUser nv al rev avail u with
    | some avail' => interpret nv al rev avail' us
    | none => none

/-- The overwrites of the slice: value and overwritten tensor. -/
def overwriteOf (al : List Name) (o : Op) : Option (Name × Name) :=
  match o.kind, o.args with
  | .overwrite, [v, d] => if al.contains d then some (v, d) else none
  | _, _ => none

/-- Lines 156-173: the overwrites are removed last first; the uses of the overwritten tensor and its casts that do not
come before are replaced by the value. -/
def dropOverwrites (al : List Name) (rev : List Op) : List Op → List Op
  | [] => []
  | o :: rest =>
    match overwriteOf al o with
    | some (v, d) => (dropOverwrites al rev rest).map (·.replaceUses (d :: castAliases rev d) v)
    | none => o :: dropOverwrites al rev rest

/-- The results of the copies to value tensors in the slice. -/
def copyResults (al : List Name) (post : List Op) : List Name :=
  (users al post).flatMap fun o => if o.kind = .toVTensor then o.results else []

/-- A copy to a value tensor whose result is one of `rs`: operand and result. -/
def readOf (rs : List Name) (o : Op) : Option (Name × Name) :=
  match o.kind, o.args, o.results with
  | .toVTensor, [x], [r] => if rs.contains r then some (x, r) else none
  | _, _, _ => none

/-- Lines 175-176: copies are replaced by their operands. -/
def dropCopies (rs : List Name) : (Name → Name) → List Op → List Op
  | _, [] => []
  | θ, o :: rest =>
    match readOf rs o with
    | some (x, r) => dropCopies rs (fun n => if n = r then θ x else θ n) rest
    | none => o.subst θ :: dropCopies rs θ rest

/-- `copyTensorToType` to a non-value tensor type (`TorchOps.cpp:98-119`): new operations named `base`, `base + 1`,
`base + 2`, and the name of the copy.  `recast` says whether sizes or dtype differ. -/
def copyTensorToType (nv : Name → Bool) (recast : Bool) (base n : Name) : List Op × Name :=
  ((if recast then [⟨.cast, [n], [base]⟩] else [])
    ++ (if nv n then [⟨.toVTensor, [if recast then base else n], [base + 1]⟩] else [])
    ++ [⟨.toTensor, [if nv n then base + 1 else if recast then base else n], [base + 2]⟩], base + 2)

/-- Lines 189-199, loop over the operands of the return: `flags` says which are to be copied back.  Sizes and dtype only
differ from those of the original operand if the operand was replaced, by a value tensor. -/
def copyBack (nv : Name → Bool) (recast : Nat → Bool) :
    (base i : Nat) → List Bool → List Name → List Op × List Name
  | _, _, _, [] => ([], [])
  | base, i, flags, n :: ns =>
    let r := copyBack nv recast (base + 3) (i + 1) (flags.drop 1) ns
    if flags.headD false then
      let k := copyTensorToType nv (recast i && !nv n) base n
      (k.1 ++ r.1, k.2 :: r.2)
    else (r.1, n :: r.2)

/-- Lines 187-200: the copies in front of the return. -/
def finishReturn (nv : Name → Bool) (recast : Nat → Bool) (base : Name) (flags : List Bool) : List Op → List Op
  | [] => []
  | o :: rest =>
    if o.kind = .ret then
      (copyBack nv recast base 0 flags o.args).1
        ++ { o with args := (copyBack nv recast base 0 flags o.args).2 } :: rest
    else o :: finishReturn nv recast base flags rest

/-- Lines 140-149: which operands of the return are non-value tensors. -/
def returnFlags (nv : Name → Bool) : List Op → List Bool
  | [] => []
  | o :: rest => if o.kind = .ret then o.args.map nv else returnFlags nv rest

/-- The types after the rewriting: aliases are value tensors (lines 179-186), copies made for the return are not. -/
def nvAfter (nv : Name → Bool) (al : List Name) (base : Name) (ops : List Op) (n : Name) : Bool :=
  if n < base then nv n && !al.contains n else ops.any fun o => o.kind == .toTensor && o.results.contains n

/-- `rewriteSlice` (lines 137-201): the rest of the block after the copy of `x` to `c`. -/
def rewriteSlice (nv : Name → Bool) (recast : Nat → Bool) (base c x : Name) (al : List Name) (post : List Op) :
    List Op :=
  let ops := dropCopies (copyResults al post) (fun n => if n = c then x else n) (dropOverwrites al post.reverse post)
  if (users al post).any (fun o => o.kind = .ret) then
    finishReturn (fun n => nv n && !al.contains n) recast base (returnFlags nv post) ops
  else ops

/-- `AbstractlyInterpretCopyToNonValueTensorOpUsersWithinABlock::matchAndRewrite` (lines 203-283) on the copy of `x` to
`c` followed by `post`: what follows instead, or `none` if the pattern does not apply. -/
def interpretPattern (nv : Name → Bool) (recast : Nat → Bool) (base c x : Name) (post : List Op) : Option (List Op) :=
  let al := aliases nv c post
  let us := users al post
  if !us.all (viewOk nv al) then none
  else if onlyReturn us then none
  else match interpret nv al post.reverse [c] us with
    | some _ => some (rewriteSlice nv recast base c x al post)
    | none => none

/-- Lines 314-327: everything derived from the copy by view-like operations, whichever operand it is. -/
def addDerived (l : List Name) (o : Op) : List Name :=
  if o.isViewLike && o.args.any l.contains then o.results.take 1 ++ l else l

/-- `RewriteViewLikeSubgraph::matchAndRewrite` (lines 299-365) within one block.  The code visits an operation once per
operand reached, the model once. -/
def viewPattern (nv : Name → Bool) (recast : Nat → Bool) (base c x : Name) (post : List Op) : Option (List Op) :=
  let reached := post.foldl addDerived [c]
  let us := users reached post
  if !us.all (fun o => o.isViewLike || o.kind = .toVTensor || o.kind = .ret) then none
  else if !us.any (fun o => o.isViewLike || o.kind = .toVTensor) then none
  else
    let ops := dropCopies (copyResults reached post) (fun n => if n = c then x else n) post
    let views := (us.filter Op.isViewLike).flatMap fun o => (o.results.take 1).filter nv
    some (if us.any (fun o => o.kind = .ret) then
        finishReturn (fun n => nv n && !views.contains n && n != c) recast base (returnFlags views.contains ops) ops
      else ops)

end Verif.VS
