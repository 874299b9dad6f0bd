import Verif.Model.Sparsity

/-!
# Sparse encodings as MLIR reads them

An encoding maps the dimension variables `d0, …, d(n-1)` to levels; a level is an expression in one
variable with a level type.
-/

namespace Verif.Sparsity

open Verif.TypeText (Text join)

/-- A level expression. -/
inductive LvlExpr where
  | dim (d : Nat)
  | floordiv (d m : Nat)
  | mod (d m : Nat)
  deriving DecidableEq, Repr

/-- The dimension variable used. -/
def LvlExpr.var : LvlExpr → Nat
  | .dim d | .floordiv d _ | .mod d _ => d

/-- The level coordinate of a tensor index. -/
def LvlExpr.eval (idx : Nat → Nat) : LvlExpr → Nat
  | .dim d => idx d
  | .floordiv d m => idx d / m
  | .mod d m => idx d % m

/-- The level types the importer uses. -/
inductive LvlType where
  | batch | dense | compressed | compressedNonunique | singletonNonunique | singleton
  deriving DecidableEq, Repr

structure Level where
  expr : LvlExpr
  type : LvlType
  deriving DecidableEq, Repr

/-- MLIR's syntax of levels. -/
def LvlExpr.text : LvlExpr → Text
  | .dim d => 'd' :: Nat.toDigits 10 d
  | .floordiv d m => 'd' :: Nat.toDigits 10 d ++ " floordiv ".toList ++ Nat.toDigits 10 m
  | .mod d m => 'd' :: Nat.toDigits 10 d ++ " mod ".toList ++ Nat.toDigits 10 m

def LvlType.text : LvlType → Text
  | .batch => "batch".toList
  | .dense => "dense".toList
  | .compressed => "compressed".toList
  | .compressedNonunique => "compressed(nonunique)".toList
  | .singletonNonunique => "singleton(nonunique,soa)".toList
  | .singleton => "singleton(soa)".toList

def Level.text (l : Level) : Text := l.expr.text ++ [':'] ++ l.type.text

/-- `#sparse_tensor.encoding<{map=(d0,…)->(levels),posWidth=w,crdWidth=w}>` with `n` dimension
variables. -/
def encodingText (n : Nat) (levels : List Level) (w : Nat) : Text :=
  "#sparse_tensor.encoding<{map=(".toList ++
  join [','] ((List.range n).map (fun d => 'd' :: Nat.toDigits 10 d)) ++ ")->(".toList ++
  join [','] (levels.map Level.text) ++ "),posWidth=".toList ++ Nat.toDigits 10 w ++
  ",crdWidth=".toList ++ Nat.toDigits 10 w ++ "}>".toList

/-- The levels a layout calls for: batch levels, the levels of the two or more sparse dimensions,
dense levels. -/
def sparseLevels (layout : Layout) (b s : Nat) (bm bn : Nat) : List Level :=
  match layout with
  | .coo => ⟨.dim b, .compressedNonunique⟩ ::
      ((List.range (s - 2)).map (fun k => ⟨.dim (b + 1 + k), .singletonNonunique⟩) ++
      [⟨.dim (b + s - 1), .singleton⟩])
  | .csr => [⟨.dim b, .dense⟩, ⟨.dim (b + 1), .compressed⟩]
  | .csc => [⟨.dim (b + 1), .dense⟩, ⟨.dim b, .compressed⟩]
  | .bsr => [⟨.floordiv b bm, .dense⟩, ⟨.floordiv (b + 1) bn, .compressed⟩, ⟨.mod b bm, .dense⟩,
      ⟨.mod (b + 1) bn, .dense⟩]
  | .bsc => [⟨.floordiv (b + 1) bm, .dense⟩, ⟨.floordiv b bn, .compressed⟩, ⟨.mod (b + 1) bm, .dense⟩,
      ⟨.mod b bn, .dense⟩]

/-- A tensor as torch makes them: the dimension counts fit, a compressed layout has two sparse
dimensions, a COO tensor at least one, a blocked layout has the block shape after the batch
dimensions and the number of blocks. -/
structure Tensor.Ok (t : Tensor) : Prop where
  dims : t.sparseDim + t.denseDim ≤ t.ndim
  two : t.layout ≠ .coo → t.sparseDim = 2
  block : t.layout = .bsr ∨ t.layout = .bsc → t.batchDim + 3 ≤ t.valuesShape.length

end Verif.Sparsity
