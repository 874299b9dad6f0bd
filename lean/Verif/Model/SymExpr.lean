import Verif.Py.Basic
import Verif.Py.Sort

/-!
# Symbolic dimensions of the FX importer

sympy expressions, MLIR (semi-)affine expressions, the translation between them, the
`torch.bind_symbolic_shape` operands and the `torch.symbolic_int` ranges.

Simplifications: MLIR simplifies affine expressions while building them; the model keeps the plain
tree (the simplifier is part of MLIR).  An affine constant is an unbounded integer that must fit in
an int64 where the importer creates it; overflow of MLIR's own constant folding is not modelled.
-/

namespace Verif.SymExpr

/-- `sympy.Symbol`: two symbols are equal when both the name and the assumptions agree; `tag` stands
for the assumptions. -/
structure Symbol where
  name : String
  tag : Nat
  deriving DecidableEq, Repr

/-- sympy expressions: the classes `sympy_expr_to_semi_affine_expr`
(/repo/python/torch_mlir/extras/fx_importer.py:356–398) distinguishes.  `int` is `int` or
`sympy.Integer`; every other class (rationals, `FloorDiv`, `Max`, functions, …) is `other`. -/
inductive Sym where
  | sym (s : Symbol)
  | int (k : Int)
  | add (args : List Sym)
  | mul (args : List Sym)
  | pow (base exp : Sym)
  | mod (p q : Sym)
  | other (cls : String) (args : List Sym)

/-- MLIR affine expressions without dimensions. -/
inductive Aff where
  | const (k : Int)
  | sym (i : Nat)
  | add (a b : Aff)
  | mul (a b : Aff)
  | mod (a b : Aff)
  deriving DecidableEq, Repr

def int64Min : Int := -9223372036854775808
def int64Max : Int := 9223372036854775807

/-- Does a Python int fit in the C++ `int64_t` of the binding? -/
def fitsInt64 (k : Int) : Bool := decide (int64Min ≤ k) && decide (k ≤ int64Max)

/-- `for _ in range(exp): affine_expr = AffineMulExpr.get(affine_expr, base)`
(fx_importer.py:383–387). -/
def powFold (b : Aff) : Nat → Aff → Aff
  | 0, acc => acc
  | n + 1, acc => powFold b n (.mul acc b)

mutual
/-- `sympy_expr_to_semi_affine_expr` (fx_importer.py:342–398).  A missing symbol is a `KeyError`, an
integer outside int64 the `TypeError` of the binding. -/
def toAffine (m : List (String × Nat)) : Sym → Py Aff
  | .sym s => match dictGet m s.name with
    | some i => .ok (.sym i)
    | none => .error .keyError
  | .int k => if fitsInt64 k then .ok (.const k) else .error .typeError
  | .add args => addFold m args (.const 0)
  | .mul args => mulFold m args (.const 1)
  | .pow b e => match e with
    | .int k =>
      if 0 < k then
        match toAffine m b with
        | .ok b' => .ok (powFold b' k.toNat (.const 1))
        | .error err => .error err
      else .error .assertion
    | _ => .error .assertion
  | .mod p q => match toAffine m p with
    | .error err => .error err
    | .ok p' => match toAffine m q with
      | .error err => .error err
      | .ok q' => .ok (.mod p' q')
  | .other _ _ => .error .notImplemented

/-- The loop of the `sympy.Add` case (fx_importer.py:364–369). -/
def addFold (m : List (String × Nat)) : List Sym → Aff → Py Aff
  | [], acc => .ok acc
  | x :: xs, acc => match toAffine m x with
    | .ok a => addFold m xs (.add acc a)
    | .error err => .error err

/-- The loop of the `sympy.Mul` case (fx_importer.py:371–376). -/
def mulFold (m : List (String × Nat)) : List Sym → Aff → Py Aff
  | [], acc => .ok acc
  | x :: xs, acc => match toAffine m x with
    | .ok a => mulFold m xs (.mul acc a)
    | .error err => .error err
end

/-- `[sympy_expr_to_semi_affine_expr(expr, symbols_map) for expr in shape_exprs]`
(fx_importer.py:2192–2195). -/
def affineExprs (m : List (String × Nat)) : List Sym → Py (List Aff)
  | [] => .ok []
  | x :: xs => match toAffine m x with
    | .error err => .error err
    | .ok a => match affineExprs m xs with
      | .error err => .error err
      | .ok as => .ok (a :: as)

/-- `{str(symbol): AffineSymbolExpr.get(i) for i, symbol in enumerate(symbols_set)}`
(fx_importer.py:2186–2189): later items replace the value under the same name. -/
def symbolsMap : List Symbol → Nat → List (String × Nat) → List (String × Nat)
  | [], _, d => d
  | s :: ss, i, d => symbolsMap ss (i + 1) (dictSet d s.name i)

/-- The keys of a dict filled in this order: a key keeps its first position. -/
def keyOrder : List String → List String → List String
  | [], seen => seen
  | k :: ks, seen => if k ∈ seen then keyOrder ks seen else keyOrder ks (seen ++ [k])

/-- The `torch.bind_symbolic_shape` operation: the affine map (number of symbols, results) and the
symbol operands, each given as the symbol name whose value is the operand.  The first operand, the
node's own value, is not listed. -/
structure BindOp where
  numSymbols : Nat
  results : List Aff
  operands : List String
  deriving DecidableEq, Repr

/-- `_create_bind_symbolic_shape_ops` (fx_importer.py:2167–2211) for a node with symbolic sizes.
`set` lists `symbols_set` in the (unspecified) iteration order of the Python set; `bound` are the
names in the importer's symbol table, `resolve_symbol_value` (1483–1488) raising `KeyError` for any
other. -/
def bindShape (bound : String → Bool) (set : List Symbol) (dims : List Sym) : Py BindOp :=
  let sorted := sortBy (fun a b : Symbol => decide (a.name ≤ b.name)) set
  match affineExprs (symbolsMap sorted 0 []) dims with
  | .error err => .error err
  | .ok as =>
    let operands := keyOrder (sorted.map Symbol.name) []
    if operands.all bound then .ok ⟨sorted.length, as, operands⟩ else .error .keyError

/-! ## Range constraints -/

/-- A bound of a `ValueRanges`: an integer, a non-integral rational (`sympy.Rational` or `Float`),
one of the two infinities (`sympy.oo`, and torch's `int_oo`), or a sympy boolean. -/
inductive Bound where
  | int (k : Int)
  | rat (q : Rat)
  | oo | negOo
  | intOo | negIntOo
  | bool (b : Bool)
  deriving DecidableEq, Repr

/-- A value range: `lower`, `upper`, `is_bool`. -/
structure Range where
  lower : Bound
  upper : Bound
  isBool : Bool
  deriving DecidableEq, Repr

/-- `RangeConstraint` (fx_importer.py:337–339). -/
structure Guard where
  minVal : Int
  maxVal : Int
  deriving DecidableEq, Repr

/-- `_sympy_int_to_int` (fx_importer.py:1346–1355); `math.ceil` and `math.floor` raise `TypeError` on
a sympy boolean. -/
def symInt (adjust : Rat → Int) : Bound → Py Int
  | .oo | .intOo => .ok int64Max
  | .negOo | .negIntOo => .ok int64Min
  | .int k => .ok k
  | .rat q => .ok (adjust q)
  | .bool _ => .error .typeError

/-- `isinstance(b, (sympy.Integer, IntInfinity, NegativeIntInfinity))` (fx_importer.py:1358–1362). -/
def isSymInt : Bound → Bool
  | .int _ | .intOo | .negIntOo => true
  | _ => false

/-- The test of `contains_symbolic_ints` (fx_importer.py:1363–1370). -/
def Range.isInt (r : Range) : Bool := isSymInt r.lower && isSymInt r.upper && !r.isBool

/-- One entry of the comprehension (fx_importer.py:1383–1386). -/
def guardOf (r : Range) : Py Guard :=
  match symInt Rat.ceil r.lower with
  | .error e => .error e
  | .ok lo => match symInt Rat.floor r.upper with
    | .error e => .error e
    | .ok hi => .ok ⟨lo, hi⟩

/-- The comprehension over `prog.range_constraints.items()` (fx_importer.py:1382–1388), newest entry
first. -/
def guardsOf : List (Symbol × Range) → List (String × Guard) → Py (List (String × Guard))
  | [], d => .ok d
  | (k, r) :: rest, d => match guardOf r with
    | .error e => .error e
    | .ok g => guardsOf rest (dictSet d k.name g)

/-- `ContextCache.set_symbolic_guards` (fx_importer.py:1337–1388): the new value of
`self._symbolic_guards`.  Without an integer range the old value stays. -/
def setGuards (old : List (String × Guard)) (ranges : List (Symbol × Range)) :
    Py (List (String × Guard)) :=
  if ranges.any (fun kr => kr.2.isInt) then guardsOf ranges [] else .ok old

/-- A `torch.symbolic_int` operation. -/
structure SymbolicInt where
  name : String
  minVal : Int
  maxVal : Int
  deriving DecidableEq, Repr

/-- `_import_shape_symbols_with_guards` (fx_importer.py:2150–2165): one operation per key of the
dict; a bound outside int64 is refused by `IntegerAttr.get`. -/
def symbolicInts (d : List (String × Guard)) : List String → Py (List SymbolicInt)
  | [] => .ok []
  | k :: ks => match dictGet d k with
    | none => .error .keyError
    | some g =>
      if fitsInt64 g.minVal && fitsInt64 g.maxVal then
        match symbolicInts d ks with
        | .error e => .error e
        | .ok ops => .ok (⟨k, g.minVal, g.maxVal⟩ :: ops)
      else .error .typeError

/-- The keys of a dict in insertion order. -/
def keysOf (d : List (String × Guard)) : List String := keyOrder (d.reverse.map Prod.fst) []

/-- What `import_program` and `import_frozen_program` (fx_importer.py:676, 947) and
`import_nodes` (1583–1600) do with the range constraints of one program: returns the operations and
the guards left in the `ContextCache` of the importer. -/
def importRanges (old : List (String × Guard)) (ranges : List (Symbol × Range)) :
    Py (List SymbolicInt × List (String × Guard)) :=
  match setGuards old ranges with
  | .error e => .error e
  | .ok d => match symbolicInts d (keysOf d) with
    | .error e => .error e
    | .ok ops => .ok (ops, d)

end Verif.SymExpr
