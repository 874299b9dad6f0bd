import Verif.Model.ShapeSlice
import Verif.Model.ShapeReduce
import Verif.Model.ShapeReshape
import Verif.Model.ShapeCat
import Verif.Spec.DimOps

/-!
# Shape functions taking a dimension: diagonals, windows, halves

AIL and LIB as in `Verif.Model.ShapeCore`.
-/

namespace Verif.Shape

/-- The sizes of the dimensions other than `d1` and `d2`: the loop of `aten.diagonal` (LIB:125–130). -/
def otherSizes (d1 d2 : Int) : Nat → List Int → List Int
  | _, [] => []
  | i, x :: xs => if (i : Int) = d1 ∨ (i : Int) = d2 then otherSizes d1 d2 (i + 1) xs
      else x :: otherSizes d1 d2 (i + 1) xs

/-- `diag_size` of `aten.diagonal` (LIB:132–134). -/
def diagonalSize (n1 n2 offset : Int) : Int :=
  if offset < 0 then max (min (n1 + offset) n2) 0 else max (min n1 (n2 - offset)) 0

/-- `aten.diagonal` (LIB:118–137). -/
def diagonal (self : List Int) (offset dim1 dim2 : Int) : Py (List Int) :=
  if self.length < 2 then .error .assertion
  else match maybeWrapDim dim1 self.length with
    | .error e => .error e
    | .ok d1 => match maybeWrapDim dim2 self.length with
      | .error e => .error e
      | .ok d2 =>
        if d1 = d2 then .error .assertion
        else match pyGet self d1 with
          | .error e => .error e
          | .ok n1 => match pyGet self d2 with
            | .error e => .error e
            | .ok n2 => .ok (otherSizes d1 d2 0 self ++ [diagonalSize n1 n2 offset])

/-- One round of the loop of `_diag_embed_shape_helper` (LIB:73–78); the state is `result_shape` and
`input_dim_idx`. -/
def diagEmbedStep (self : List Int) (offset d1 d2 : Int) (st : List Int × Nat) (i : Nat) :
    Py (List Int × Nat) :=
  if (i : Int) = d1 ∨ (i : Int) = d2 then
    match pyGet self (-1) with
    | .error e => .error e
    | .ok n => .ok (st.1 ++ [n + offset.natAbs], st.2)
  else
    match pyGet self (st.2 : Int) with
    | .error e => .error e
    | .ok x => .ok (st.1 ++ [x], st.2 + 1)

/-- `dim` after `if dim < 0: dim = rank + dim` (LIB:66–69, and likewise elsewhere). -/
def addRank (dim rank : Int) : Int := if dim < 0 then dim + rank else dim

/-- `_diag_embed_shape_helper` (LIB:56–80). -/
def diagEmbed (self : List Int) (offset dim1 dim2 : Int) : Py (List Int) :=
  let r : Int := self.length + 1
  if ¬ (dim1 ≠ dim2 ∧ dim1 < r ∧ dim1 ≥ -r ∧ dim2 < r ∧ dim2 ≥ -r) then .error .assertion
  else match pyFold (diagEmbedStep self offset (addRank dim1 r) (addRank dim2 r)) ([], 0)
      (List.range (self.length + 1)) with
    | .error e => .error e
    | .ok st => .ok st.1

/-- `aten.diag` (LIB:1579–1585). -/
def diag (self : List Int) (offset : Int) : Py (List Int) :=
  match self with
  | [n] => .ok [n + offset.natAbs, n + offset.natAbs]
  | [n, m] => diagonal [n, m] offset 0 1
  | _ => .error .assertion

/-- `aten.rot90` (LIB:1595–1604).  (The function also changes the caller's list, which is a fresh one.) -/
def rot90 (self : List Int) (k : Int) (dims : List Int) : Py (List Int) :=
  if self.length < 2 ∨ dims.length ≠ 2 then .error .assertion
  else if Int.fmod (Int.fmod k 4 + 4) 4 = 1 ∨ Int.fmod (Int.fmod k 4 + 4) 4 = 3 then
    match pyGet dims 0 with
    | .error e => .error e
    | .ok a => match pyGet dims 1 with
      | .error e => .error e
      | .ok b => match pyGet self b with
        | .error e => .error e
        | .ok y => match pyGet self a with
          | .error e => .error e
          | .ok x => match pySet self a y with
            | .error e => .error e
            | .ok s => pySet s b x
  else .ok self

/-- `aten.cosine_similarity` (LIB:231–233). -/
def cosineSimilarity (x1 x2 : List Int) (dim : Int) : Py (List Int) :=
  match broadcast x1 x2 with
  | .error e => .error e
  | .ok b => .ok (pyTake b dim ++ pyDrop b (dim + 1))

/-- `aten.glu` (LIB:370–374). -/
def glu (self : List Int) (dim : Int) : Py (List Int) :=
  let d := addRank dim self.length
  match pyGet self d with
  | .error e => .error e
  | .ok x =>
    if Int.fmod x 2 ≠ 0 then .error .assertion
    else .ok (pyTake self d ++ [Int.fdiv x 2] ++ pyDrop self (d + 1))

/-- `aten.repeat_interleave.self_int` (LIB:1004–1010). -/
def repeatInterleave (self : List Int) (repeats : Int) (dim : Option Int) : Py (List Int) :=
  match dim with
  | none => match flatten self 0 (-1) with
    | .error e => .error e
    | .ok f => match pyGet f 0 with
      | .error e => .error e
      | .ok n => .ok [n * repeats]
  | some d => match pyGet self d with
    | .error e => .error e
    | .ok x => .ok (pyTake self d ++ [x * repeats] ++ pyDrop self (d + 1))

/-- `topk(self, k, dim)` (AIL:6288–6324); both results have this shape. -/
def topk (self : List Int) (k dim : Int) : Py (List Int) :=
  if self.length = 0 then .ok []
  else match pyGet self dim with
    | .error e => .error e
    | .ok n => if k > n then .error .assertion else pySet self dim k

/-- `aten.fft_rfft` (LIB:2612–2619); the argument `n` is ignored. -/
def fftRfft (self : List Int) (dim : Int) : Py (List Int) :=
  let d := addRank dim self.length
  if ¬ (d ≥ 0 ∧ d < self.length) then .error .assertion
  else match pyGet self d with
    | .error e => .error e
    | .ok x => pySet self d (Int.fdiv x 2 + 1)

/-- `aten.unfold` (LIB:6460–6482). -/
def unfold (self : List Int) (dimension size step : Int) : Py (List Int) :=
  if self.length = 0 then
    if dimension ≠ 0 then .error .assertion
    else if size ≤ 1 then .ok [size] else .error .assertion
  else
    let d := addRank dimension self.length
    if ¬ (d ≥ 0 ∧ d < self.length) then .error .assertion
    else match pyGet self d with
      | .error e => .error e
      | .ok n =>
        if size > n then .error .assertion
        else if step = 0 then .error .zeroDivision
        else match pySet self d (Int.fdiv (n - size) step + 1) with
          | .error e => .error e
          | .ok out => .ok (out ++ [size])

/-- `aten.narrow.Tensor` (LIB:2227–2229). -/
def narrowTensor (self : List Int) (dim length : Int) : Py (List Int) := pySet self dim length

/-- The dimensions of `aten.stft` and `aten.stft.center` (LIB:2630–2656, 2661–2691), given the number of
frames as a function of `n_fft`, the hop and the length. -/
def stftWith (frames : Int → Int → Int → Int) (self : List Int) (nFft : Int) (hop : Option Int)
    (onesided returnComplex : Option Bool) : Py (List Int) :=
  if self.length ≠ 1 ∧ self.length ≠ 2 then .error .assertion
  else match pyGet self (-1) with
    | .error e => .error e
    | .ok length =>
      if ¬ (nFft > 0 ∧ nFft ≤ length) then .error .assertion
      else if ¬ (hop.getD (Int.fdiv nFft 4) > 0) then .error .assertion
      else .ok (self.dropLast ++ [if onesided = none ∨ onesided = some true then Int.fdiv nFft 2 + 1 else nFft,
        frames nFft (hop.getD (Int.fdiv nFft 4)) length] ++
        (if returnComplex = some false then [2] else []))

/-- `aten.stft` (LIB:2630–2656). -/
def stft := stftWith (fun nFft hop length => 1 + Int.fdiv (length - nFft) hop)

/-- `aten.stft.center` (LIB:2661–2691). -/
def stftCenter (center : Bool) :=
  stftWith (fun nFft hop length =>
    if center then 1 + Int.fdiv length hop else 1 + Int.fdiv (length - nFft) hop)

/-- The shape function of each. -/
def DimOp.run : DimOp → List Int → Int → Py (List Int)
  | .unsqueeze, s, d => Shape.unsqueeze s d
  | .squeeze, s, d => Shape.squeeze s d
  | .select i, s, d => Shape.select s d i
  | .slice a b st, s, d => sliceTensor s d a b st
  | .narrow a l, s, d => Shape.narrow s d a l
  | .narrowTensor l, s, d => Shape.narrowTensor s d l
  | .indexSelect i, s, d => Shape.indexSelect s d i
  | .flattenFrom e, s, d => flatten s d e
  | .flattenTo b, s, d => flatten s b d
  | .transposeFst d1, s, d => transpose s d d1
  | .transposeSnd d0, s, d => transpose s d0 d
  | .reduce k, s, d => argmax s (some d) k
  | .glu, s, d => Shape.glu s d
  | .unflatten z, s, d => Shape.unflatten s d z
  | .topk k, s, d => Shape.topk s k d
  | .fftRfft, s, d => Shape.fftRfft s d
  | .unfold z st, s, d => Shape.unfold s d z st
  | .diagonalFst o d2, s, d => diagonal s o d d2
  | .diagonalSnd o d1, s, d => diagonal s o d1 d
  | .cosineSimilarity x2, s, d => Shape.cosineSimilarity s x2 d
  | .repeatInterleave r, s, d => Shape.repeatInterleave s r (some d)
  | .diagEmbedFst o d2, s, d => diagEmbed s o d d2
  | .diagEmbedSnd o d1, s, d => diagEmbed s o d1 d

end Verif.Shape
