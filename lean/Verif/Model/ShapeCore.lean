import Verif.Py.Loop

/-!
# Shape functions: dimensions, broadcasting, slicing

The shape library is the TorchScript program embedded in
/repo/lib/Dialect/Torch/Transforms/AbstractInterpLibrary.cpp ("AIL" below).  Functions called
`upstream_shape_functions.f` in abstract_interp_lib_gen.py ("LIB" below) appear there as
`@__torch__.torch.jit._shape_functions.f`; they are modelled from that text.  Sizes are `Int`
(TorchScript ints are int64; overflow is not modelled).  Every `RaiseException` is an assertion error.
Loops that copy a list while leaving out, inserting or changing an element are written as list operations
(`take`, `drop`, `eraseIdx`, `set`, `filter`).
-/

namespace Verif.Shape

/-- The range of dimensions: `dim_post_expr`, or 1 if that is not positive (AIL:312–320). -/
def wrapRange (rank : Nat) : Int := if rank = 0 then 1 else rank

/-- `maybe_wrap_dim(dim, dim_post_expr, wrap_scalar=True)` (AIL:309–355). -/
def maybeWrapDim (dim : Int) (rank : Nat) : Py Int :=
  if dim < -wrapRange rank ∨ dim > wrapRange rank - 1 then .error .assertion
  else .ok (if dim < 0 then dim + wrapRange rank else dim)

/-- `unary(self)` (AIL:26): a copy. -/
def unary (self : List Int) : List Int := self

/-- `a[dim] if dim >= 0 else 1` (AIL:1450–1455). -/
def sizeOrOne (l : List Int) (dim : Int) : Py Int := if dim ≥ 0 then pyGet l dim else .ok 1

/-- One iteration of `broadcast` (AIL:1446–1492). -/
def broadcastAt (a b : List Int) (ndim i : Nat) : Py Int :=
  let offset : Int := (ndim : Int) - 1 - i
  let dimA : Int := (a.length : Int) - 1 - offset
  let dimB : Int := (b.length : Int) - 1 - offset
  match sizeOrOne a dimA with
  | .error e => .error e
  | .ok sizeA => match sizeOrOne b dimB with
    | .error e => .error e
    | .ok sizeB =>
      if sizeA ≠ sizeB ∧ sizeA ≠ 1 ∧ sizeB ≠ 1 then .error .assertion
      else .ok (if sizeA = 1 then sizeB else sizeA)

/-- `broadcast(a, b)` (AIL:1433–1498). -/
def broadcast (a b : List Int) : Py (List Int) :=
  let ndim := max a.length b.length
  pyMap (broadcastAt a b ndim) (List.range ndim)

/-- `broadcast_three(a, b, c)` (AIL:6633). -/
def broadcastThree (a b c : List Int) : Py (List Int) :=
  match broadcast a b with
  | .error e => .error e
  | .ok ab => broadcast ab c

/-- `unsqueeze(li, dim)` (AIL:442–491): `out.insert(dim, 1)`. -/
def unsqueeze (self : List Int) (dim : Int) : Py (List Int) :=
  match maybeWrapDim dim (self.length + 1) with
  | .error e => .error e
  | .ok d => .ok (self.take d.toNat ++ 1 :: self.drop d.toNat)

/-- `squeeze_nodim(li)` (AIL:226–245). -/
def squeezeNodim (self : List Int) : List Int := self.filter (· ≠ 1)

/-- The loop of `squeeze` and `squeeze_dims`: drop sizes 1 at positions chosen by `p`. -/
def squeezeLoop (p : Nat → Bool) : Nat → List Int → List Int
  | _, [] => []
  | i, x :: xs => if p i && x == 1 then squeezeLoop p (i + 1) xs else x :: squeezeLoop p (i + 1) xs

/-- `squeeze(li, dim)` (AIL:246–308). -/
def squeeze (self : List Int) (dim : Int) : Py (List Int) :=
  match maybeWrapDim dim self.length with
  | .error e => .error e
  | .ok d => .ok (squeezeLoop (fun i => (i : Int) == d) 0 self)

/-- `squeeze_dims(li, dims)` (AIL:356–441). -/
def squeezeDims (self : List Int) (dims : List Int) : Py (List Int) :=
  if dims.length = 0 then .ok self
  else match pyMap (fun d => maybeWrapDim d self.length) dims with
    | .error e => .error e
    | .ok ds => .ok (squeezeLoop (fun i => decide ((i : Int) ∈ ds)) 0 self)

/-- `select(self, dim, index)` (AIL:632–710). -/
def select (self : List Int) (dim index : Int) : Py (List Int) :=
  if self.length = 0 then .error .assertion
  else match maybeWrapDim dim self.length with
    | .error e => .error e
    | .ok d => match pyGet self d with
      | .error e => .error e
      | .ok size =>
        if index < -size ∨ index ≥ size then .error .assertion
        else .ok (self.eraseIdx d.toNat)

/-- `multiply_integers(li)` (AIL:804–815). -/
def multiplyIntegers (l : List Int) : Int := l.foldl (· * ·) 1

/-- `index_select(self, dim, index)` (AIL:711–803). -/
def indexSelect (self : List Int) (dim : Int) (index : List Int) : Py (List Int) :=
  match maybeWrapDim dim self.length with
  | .error e => .error e
  | .ok d =>
    if 1 < index.length then .error .assertion
    else if d = 0 ∨ d < self.length then .ok (self.set d.toNat (multiplyIntegers index))
    else .error .assertion

/-- `embedding(weight, indices)` (AIL:816–912). -/
def embedding (weight indices : List Int) : Py (List Int) :=
  if weight.length ≠ 2 then .error .assertion
  else if indices.length = 1 then indexSelect weight 0 indices
  else match pyGet weight 1 with
    | .error e => .error e
    | .ok w => .ok (indices ++ [w])

/-- `max_int()` (AIL:628–631). -/
def maxInt : Int := 9223372036854775807

/-- The size computed by `slice` (AIL:560–612) for a dimension of size `n`. -/
def sliceSize (n : Int) (start end_ : Option Int) (step : Int) : Int :=
  let s0 := start.getD 0
  let e0 := end_.getD maxInt
  let s1 := if s0 = maxInt then 0 else s0
  let s2 := if s1 < 0 then s1 + n else s1
  let e1 := if e0 < 0 then e0 + n else e0
  let s3 := if s2 < 0 then 0 else if s2 > n then n else s2
  let e2 := if e1 < s3 then s3 else if e1 ≥ n then n else e1
  Int.fdiv (e2 - s3 + step - 1) step

/-- `slice(self, dim, start, end, step)` (AIL:492–627). -/
def slice (self : List Int) (dim : Int) (start end_ : Option Int) (step : Int) : Py (List Int) :=
  if self.length = 0 then .error .assertion
  else match maybeWrapDim dim self.length with
    | .error e => .error e
    | .ok d =>
      if step ≤ 0 then .error .assertion
      else match pyGet self d with
        | .error e => .error e
        | .ok n => pySet self d (sliceSize n start end_ step)

/-- `t(self)` (AIL:1984–2022). -/
def t (self : List Int) : Py (List Int) :=
  match self with
  | [] => .ok []
  | [a] => .ok [a]
  | [a, b] => .ok [b, a]
  | _ => .error .assertion

/-- `transpose(self, dim0, dim1)` (AIL:3013–3119). -/
def transpose (self : List Int) (dim0 dim1 : Int) : Py (List Int) :=
  match maybeWrapDim dim0 self.length with
  | .error e => .error e
  | .ok d0 => match maybeWrapDim dim1 self.length with
    | .error e => .error e
    | .ok d1 =>
      if d0 = d1 then .ok self
      else pyMap (fun i : Nat =>
        if (i : Int) = d0 then pyGet self d1
        else if (i : Int) = d1 then pyGet self d0
        else pyGet self i) (List.range self.length)

/-- The check `for i in range(1, n): for j in range(i): assert dims[i] != dims[j]` of `permute`
(AIL:5131–5151). -/
def noRepeats (l : List Int) : Bool :=
  (List.range l.length).all (fun i => (List.range i).all (fun j => decide (l[i]? ≠ l[j]?)))

/-- One iteration of the first loop of `permute` (AIL:5090–5127). -/
def permuteAt (self : List Int) (n : Nat) (d : Int) : Py (Int × Int) :=
  match maybeWrapDim d n with
  | .error e => .error e
  | .ok w => match pyGet self w with
    | .error e => .error e
    | .ok x => .ok (w, x)

/-- `permute(input, dims)` (AIL:5069–5155). -/
def permute (self dims : List Int) : Py (List Int) :=
  if self.length ≠ dims.length then .error .assertion
  else match pyMap (permuteAt self dims.length) dims with
    | .error e => .error e
    | .ok wx => if noRepeats (wx.map Prod.fst) then .ok (wx.map Prod.snd) else .error .assertion

/-- The final loop of `movedim` (AIL:5311–5317): `order[destination_dims[i]] = source_dims[i]`. -/
def moveRest (sourceDims destDims : List Int) (order : List Int) (i : Nat) : Py (List Int) :=
  match pyGet sourceDims i with
  | .error e => .error e
  | .ok s => match pyGet destDims i with
    | .error e => .error e
    | .ok d => pySet order d s

/-- Wrap one pair of dimensions of `movedim` (AIL:5170–5255). -/
def movePair (rank : Nat) (source destination : List Int) (i : Nat) : Py (Int × Int) :=
  match pyGet source i with
  | .error e => .error e
  | .ok s => match maybeWrapDim s rank with
    | .error e => .error e
    | .ok ws => match pyGet destination i with
      | .error e => .error e
      | .ok d => match maybeWrapDim d rank with
        | .error e => .error e
        | .ok wd => .ok (ws, wd)

/-- `movedim(self, source, destination)` (AIL:5156–5388).  The three assignments of the second loop index
with wrapped dimensions, which are in range; they are written with `List.set`. -/
def movedim (self source destination : List Int) : Py (List Int) :=
  if self.length ≤ 1 then .ok self
  else
    let n := self.length
    match pyMap (movePair n source destination) (List.range source.length) with
    | .error e => .error e
    | .ok pairs =>
      let order := pairs.foldl (fun o p => o.set p.2.toNat p.1) (List.replicate n (-1))
      let srcDims := pairs.foldl (fun o p => o.set p.1.toNat (-1)) ((List.range n).map Int.ofNat)
      let dstDims := pairs.foldl (fun o p => o.set p.2.toNat (-1)) ((List.range n).map Int.ofNat)
      let sourceDims := srcDims.filter (· ≠ -1)
      let destDims := dstDims.filter (· ≠ -1)
      match pyFold (moveRest sourceDims destDims) order (List.range (n - source.length)) with
      | .error e => .error e
      | .ok order => permute self order

/-- `aten.t` (LIB:888): `transpose(self, 0, 1)`. -/
def atenT (self : List Int) : Py (List Int) := transpose self 0 1

/-- `aten.numpy_T` (LIB:892–896): `for i in self: result.insert(0, i)`. -/
def numpyT (self : List Int) : List Int := self.foldl (fun r i => i :: r) []

end Verif.Shape
