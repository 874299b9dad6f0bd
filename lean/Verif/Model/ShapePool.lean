import Verif.Model.ShapeCore
import Verif.Py.Loop

/-!
# Pooling and convolution shape functions

AIL and LIB as in `Verif.Model.ShapeCore`.  `RaiseException` of the library is `PyErr.assertion`.
-/

namespace Verif.Shape

/-- `pooling_output_shape_pad_lr` before the last-window correction (AIL:2429–2447), both paddings
equal. -/
def poolRaw (n k p s d : Int) (ceil : Bool) : Int :=
  Int.fdiv (n + p + p - d * (k - 1) - 1 + (if ceil then s - 1 else 0)) s + 1

/-- `pooling_output_shape` (AIL:2415–2463) with its callee `pooling_output_shape_pad_lr`. -/
def poolOut (n k p s d : Int) (ceil : Bool) : Py Int :=
  if s = 0 then .error .assertion
  else if ceil = true ∧ (poolRaw n k p s d ceil - 1) * s ≥ n + p then .ok (poolRaw n k p s d ceil - 1)
  else .ok (poolRaw n k p s d ceil)

/-- `pool2d_shape_check` (AIL:2468–2619) for an input of rank 3 or 4; `h`, `w` and `c` are its last
three sizes. -/
def pool2dOk (c h w kH kW sH sW pH pW dH dW oH oW : Int) : Bool :=
  decide (kW > 0 ∧ kH > 0) && decide (sW > 0 ∧ sH > 0) && decide (dH > 0 ∧ dW > 0) &&
    decide (c ≠ 0 ∧ h ≠ 0 ∧ w ≠ 0) && decide (Int.fdiv kW 2 ≥ pW ∧ Int.fdiv kH 2 ≥ pH) &&
    decide (oW ≥ 1 ∧ oH ≥ 1)

/-- Output sizes and checks common to `max_pool2d` (AIL:2289–2414) and `avg_pool2d` (LIB:1301–1320). -/
def pool2d (self : List Int) (k s p d : Int × Int) (ceil : Bool) : Py (List Int) :=
  match self with
  | [c, h, w] => pool2dWith [c] c h w
  | [n, c, h, w] => pool2dWith [n, c] c h w
  | _ => .error .assertion
where
  pool2dWith (lead : List Int) (c h w : Int) : Py (List Int) :=
    match poolOut h k.1 p.1 s.1 d.1 ceil with
    | .error e => .error e
    | .ok oH => match poolOut w k.2 p.2 s.2 d.2 ceil with
      | .error e => .error e
      | .ok oW =>
        if pool2dOk c h w k.1 k.2 s.1 s.2 p.1 p.2 d.1 d.2 oH oW then .ok (lead ++ [oH, oW])
        else .error .assertion

/-- A one- or two-element parameter (AIL:2037–2060 and likewise; LIB:1281–1296). -/
def pair (l : List Int) : Py (Int × Int) :=
  match l with
  | [a] => .ok (a, a)
  | [a, b] => .ok (a, b)
  | _ => .error .assertion

/-- The stride of a two-dimensional pooling: the kernel when omitted (LIB:1285–1292). -/
def stridePair (k : Int × Int) (l : List Int) : Py (Int × Int) :=
  match l with
  | [] => .ok k
  | _ => pair l

/-- `max_pool2d` (AIL:2023–2414). -/
def maxPool2d (self kernel stride padding dilation : List Int) (ceil : Bool) : Py (List Int) :=
  match pair kernel with
  | .error e => .error e
  | .ok k => match stridePair k stride with
    | .error e => .error e
    | .ok s => match pair padding with
      | .error e => .error e
      | .ok p => match pair dilation with
        | .error e => .error e
        | .ok d => pool2d self k s p d ceil

/-- `avg_pool2d` (LIB:1280–1320). -/
def avgPool2d (self kernel stride padding : List Int) (ceil : Bool) : Py (List Int) :=
  match pair kernel with
  | .error e => .error e
  | .ok k => match stridePair k stride with
    | .error e => .error e
    | .ok s => match pair padding with
      | .error e => .error e
      | .ok p => pool2d self k s p (1, 1) ceil

/-- `_pool3d_shape_check` (LIB:1069–1099) for an input of rank 4 or 5. -/
def pool3dOk (self : List Int) (k s p d o : Int × Int × Int) : Bool :=
  decide (k.1 > 0 ∧ k.2.1 > 0 ∧ k.2.2 > 0) && decide (s.1 > 0 ∧ s.2.1 > 0 ∧ s.2.2 > 0) &&
    decide (d.1 > 0 ∧ d.2.1 > 0 ∧ d.2.2 > 0) && self.all (fun x => decide (x ≠ 0)) &&
    decide (Int.fdiv k.1 2 ≥ p.1 ∧ Int.fdiv k.2.2 2 ≥ p.2.2 ∧ Int.fdiv k.2.1 2 ≥ p.2.1) &&
    decide (o.1 ≥ 1 ∧ o.2.2 ≥ 1 ∧ o.2.1 ≥ 1)

/-- Output sizes and checks common to `_max_pool3d` (LIB:1135–1168) and `avg_pool3d` (LIB:1243–1276). -/
def pool3d (self : List Int) (k s p d : Int × Int × Int) (ceil : Bool) : Py (List Int) :=
  match self with
  | [c, x, h, w] => pool3dWith [c] x h w
  | [n, c, x, h, w] => pool3dWith [n, c] x h w
  | _ => .error .assertion
where
  pool3dWith (lead : List Int) (x h w : Int) : Py (List Int) :=
    match poolOut x k.1 p.1 s.1 d.1 ceil with
    | .error e => .error e
    | .ok oD => match poolOut h k.2.1 p.2.1 s.2.1 d.2.1 ceil with
      | .error e => .error e
      | .ok oH => match poolOut w k.2.2 p.2.2 s.2.2 d.2.2 ceil with
        | .error e => .error e
        | .ok oW =>
          if pool3dOk (lead ++ [x, h, w]) k s p d (oD, oH, oW) then .ok (lead ++ [oD, oH, oW])
          else .error .assertion

/-- A one- or three-element parameter (LIB:1109–1112, 1125–1133). -/
def triple (l : List Int) : Py (Int × Int × Int) :=
  match l with
  | [a] => .ok (a, a, a)
  | [a, b, c] => .ok (a, b, c)
  | _ => .error .assertion

/-- The stride of a three-dimensional pooling (LIB:1114–1123): when omitted, the kernel's *depth* in all
three dimensions. -/
def strideTriple (k : Int × Int × Int) (l : List Int) : Py (Int × Int × Int) :=
  match l with
  | [] => .ok (k.1, k.1, k.1)
  | _ => triple l

/-- `_max_pool3d` (LIB:1101–1168). -/
def maxPool3d (self kernel stride padding dilation : List Int) (ceil : Bool) : Py (List Int) :=
  match triple kernel with
  | .error e => .error e
  | .ok k => match strideTriple k stride with
    | .error e => .error e
    | .ok s => match triple padding with
      | .error e => .error e
      | .ok p => match triple dilation with
        | .error e => .error e
        | .ok d => pool3d self k s p d ceil

/-- `avg_pool3d` (LIB:1217–1276). -/
def avgPool3d (self kernel stride padding : List Int) (ceil : Bool) : Py (List Int) :=
  match triple kernel with
  | .error e => .error e
  | .ok k => match strideTriple k stride with
    | .error e => .error e
    | .ok s => match triple padding with
      | .error e => .error e
      | .ok p => pool3d self k s p (1, 1, 1) ceil

/-- `pool1d` (LIB:1324–1348). -/
def pool1d (self kernel stride padding : List Int) (ceil : Bool) : Py (List Int) :=
  match kernel, stride, padding with
  | [k], [], [p] => run k k p
  | [k], [s], [p] => run k s p
  | _, _, _ => .error .assertion
where
  run (k s p : Int) : Py (List Int) :=
    match self with
    | [c, l] => match poolOut l k p s 1 ceil with
      | .error e => .error e
      | .ok o => .ok [c, o]
    | [n, c, l] => match poolOut l k p s 1 ceil with
      | .error e => .error e
      | .ok o => .ok [n, c, o]
    | _ => .error .assertion

/-- `aten.max_pool1d` (LIB:1369–1370): the dilation is not used. -/
def maxPool1d (self kernel stride padding _dilation : List Int) (ceil : Bool) : Py (List Int) :=
  pool1d self kernel stride padding ceil

/-- `adaptive_pool` (LIB:1388–1401), one of its two equal results; `adaptive_avg_pool1d`
(LIB:1352–1364) is the case `dim = 1`. -/
def adaptivePool (self out : List Int) (dim : Nat) : Py (List Int) :=
  if out.length ≠ dim then .error .assertion
  else if ¬(self.length = dim + 1 ∨ self.length = dim + 2) then .error .assertion
  else if self.any (fun x => decide (x = 0)) then .error .assertion
  else .ok (self.take (self.length - dim) ++ out)

end Verif.Shape
