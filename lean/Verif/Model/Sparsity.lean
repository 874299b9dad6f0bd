import Verif.Py.Basic
import Verif.Model.TypeText

/-!
# The sparsity encoding of the FX importer

`sparsity_encoding` (/repo/python/torch_mlir/extras/fx_importer.py:401–457), on lists of characters.
-/

namespace Verif.Sparsity

open Verif.TypeText (Text join)

/-- The sparse layouts. -/
inductive Layout where
  | coo | csr | csc | bsr | bsc
  deriving DecidableEq, Repr

/-- What `sparsity_encoding` reads of the tensor: `ndim`, `sparse_dim()`, `dense_dim()`, the layout,
`values().shape`, and the bits of the index dtype. -/
structure Tensor where
  layout : Layout
  ndim : Nat
  sparseDim : Nat
  denseDim : Nat
  valuesShape : List Nat
  idxBits : Nat
  deriving DecidableEq, Repr

/-- `str(n)` -/
def num (n : Nat) : Text := Nat.toDigits 10 n

/-- `f"d{d}"` -/
def dimVar (d : Nat) : Text := 'd' :: num d

/-- `range(a, b)` -/
def range (a b : Nat) : List Nat := (List.range (b - a)).map (· + a)

def tColon : Text := [':']
def tBatch : Text := "batch".toList
def tDense : Text := "dense".toList
def tCompressed : Text := "compressed".toList
def tCompressedNonunique : Text := "compressed(nonunique)".toList
def tSingletonNonunique : Text := "singleton(nonunique,soa)".toList
def tSingleton : Text := "singleton(soa)".toList
def tFloordiv : Text := " floordiv ".toList
def tMod : Text := " mod ".toList

/-- `f"d{d}:{ty}"` -/
def lvl (d : Nat) (ty : Text) : Text := dimVar d ++ tColon ++ ty

/-- `batch_dim` (fx_importer.py:407–412); torch guarantees it is not negative. -/
def Tensor.batchDim (t : Tensor) : Nat := t.ndim - t.sparseDim - t.denseDim

/-- The levels of the sparse dimensions (fx_importer.py:415–446). -/
def sparseLvls (t : Tensor) : Py Text :=
  let b := t.batchDim
  match t.layout with
  | .coo =>
    if 2 ≤ t.sparseDim then
      let trail := b + t.sparseDim - 1
      let coords := join [','] ((range (b + 1) trail).map (fun d => lvl d tSingletonNonunique))
      let sep : Text := if t.sparseDim > 2 then [','] else []
      .ok (lvl b tCompressedNonunique ++ [','] ++ coords ++ sep ++ lvl trail tSingleton)
    else .error .assertion
  | .csr =>
    if t.sparseDim = 2 then .ok (lvl b tDense ++ [','] ++ lvl (b + 1) tCompressed)
    else .error .assertion
  | .csc =>
    if t.sparseDim = 2 then .ok (lvl (b + 1) tDense ++ [','] ++ lvl b tCompressed)
    else .error .assertion
  | .bsr | .bsc =>
    if t.sparseDim = 2 then
      match pySlice t.valuesShape (b + 1) (b + 3) with
      | [m, n] =>
        let i := if t.layout = .bsr then b else b + 1
        let j := if t.layout = .bsr then b + 1 else b
        .ok (dimVar i ++ tFloordiv ++ num m ++ tColon ++ tDense ++ [','] ++
          dimVar j ++ tFloordiv ++ num n ++ tColon ++ tCompressed ++ [','] ++
          dimVar i ++ tMod ++ num m ++ tColon ++ tDense ++ [','] ++
          dimVar j ++ tMod ++ num n ++ tColon ++ tDense)
      | _ => .error .valueError
    else .error .assertion

/-- `sparsity_encoding` (fx_importer.py:401–457). -/
def sparsityEncoding (t : Tensor) : Py Text :=
  let b := t.batchDim
  let dims := join [','] ((List.range t.ndim).map dimVar)
  match sparseLvls t with
  | .error e => .error e
  | .ok lvls =>
    let lvls := if b > 0 then
      join [','] ((List.range b).map (fun d => lvl d tBatch)) ++ [','] ++ lvls else lvls
    let lvls := if t.denseDim > 0 then
      lvls ++ [','] ++ join [','] ((range (b + t.sparseDim) t.ndim).map (fun d => lvl d tDense)) else lvls
    .ok ("#sparse_tensor.encoding<{map=(".toList ++ dims ++ ")->(".toList ++ lvls ++
      "),posWidth=".toList ++ num t.idxBits ++ ",crdWidth=".toList ++ num t.idxBits ++ "}>".toList)

end Verif.Sparsity
