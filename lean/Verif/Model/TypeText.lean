import Verif.Model.Dtypes

/-!
# The text of tensor types

The text the FX importer builds (/repo/python/torch_mlir/extras/fx_importer.py:1187–1219, 1307–1312),
the torch dialect's printer and parser of tensor types
(/repo/lib/Dialect/Torch/IR/TorchTypes.cpp:182–219, 261–402), on lists of characters.

Of MLIR's own parser the model has: skipping of blanks, punctuation, `[0-9]+` integers with an
optional minus, identifiers, the built-in element types.  Hexadecimal integers (`0x…`) and comments
are left out: no printed type has them.  An attribute (the sparsity encoding) is read by a parameter.
-/

namespace Verif.TypeText

open Verif.Dtypes

abbrev Text := List Char

/-! ## Lexical part (MLIR) -/

def isBlank (c : Char) : Bool := c == ' ' || c == '\n' || c == '\t' || c == '\r'

def skipWs : Text → Text
  | [] => []
  | c :: cs => if isBlank c then skipWs cs else c :: cs

/-- `parseOptionalComma`, `parseOptionalQuestion`, …: the rest after the punctuation, if it is
there. -/
def tok (c : Char) (s : Text) : Option Text :=
  match skipWs s with
  | d :: r => if d = c then some r else none
  | [] => none

def isIdChar (c : Char) : Bool := c.isAlphanum || c == '_' || c == '$' || c == '.'

/-- Result of `parseOptionalInteger`: not an integer, an integer that does not fit in 64 bits, or an
integer. -/
inductive IntRes where
  | absent
  | failed
  | ok (n : Int) (rest : Text)
  deriving DecidableEq, Repr

def intRes (n : Int) (rest : Text) : IntRes :=
  if -9223372036854775808 ≤ n ∧ n ≤ 9223372036854775807 then .ok n rest else .failed

/-- `parseOptionalInteger(int64_t&)` (`OpImplementation.h`). -/
def parseInt (s : Text) : IntRes :=
  match skipWs s with
  | '-' :: r =>
    let r' := skipWs r
    if (r'.takeWhile Char.isDigit).isEmpty then .failed
    else intRes (-(Nat.ofDigitChars 10 (r'.takeWhile Char.isDigit) 0 : Nat)) (r'.dropWhile Char.isDigit)
  | r =>
    if (r.takeWhile Char.isDigit).isEmpty then .absent
    else intRes (Nat.ofDigitChars 10 (r.takeWhile Char.isDigit) 0 : Nat) (r.dropWhile Char.isDigit)

/-! ## Element types (MLIR) -/

def floatText : FloatTy → Text
  | .f16 => ['f', '1', '6']
  | .bf16 => ['b', 'f', '1', '6']
  | .f32 => ['f', '3', '2']
  | .f64 => ['f', '6', '4']
  | .f8E5M2 => ['f', '8', 'E', '5', 'M', '2']
  | .f8E4M3FN => ['f', '8', 'E', '4', 'M', '3', 'F', 'N']
  | .f8E5M2FNUZ => ['f', '8', 'E', '5', 'M', '2', 'F', 'N', 'U', 'Z']
  | .f8E4M3FNUZ => ['f', '8', 'E', '4', 'M', '3', 'F', 'N', 'U', 'Z']
  | .f8E8M0FNU => ['f', '8', 'E', '8', 'M', '0', 'F', 'N', 'U']
  | .f4E2M1FN => ['f', '4', 'E', '2', 'M', '1', 'F', 'N']

def allFloats : List FloatTy :=
  [.f16, .bf16, .f32, .f64, .f8E5M2, .f8E4M3FN, .f8E5M2FNUZ, .f8E4M3FNUZ, .f8E8M0FNU, .f4E2M1FN]

def floatOfId (id : Text) : Option FloatTy := allFloats.find? (fun f => floatText f == id)

/-- MLIR prints an element type. -/
def printElem : ElemTy → Text
  | .float f => floatText f
  | .signed n => 's' :: 'i' :: Nat.toDigits 10 n
  | .unsigned n => 'u' :: 'i' :: Nat.toDigits 10 n
  | .signless n => 'i' :: Nat.toDigits 10 n
  | .complex f => ['c', 'o', 'm', 'p', 'l', 'e', 'x', '<'] ++ floatText f ++ ['>']
  | .qint8 => ['!', 't', 'o', 'r', 'c', 'h', '.', 'q', 'i', 'n', 't', '8']
  | .quint8 => ['!', 't', 'o', 'r', 'c', 'h', '.', 'q', 'u', 'i', 'n', 't', '8']
  | .qint16 => ['!', 't', 'o', 'r', 'c', 'h', '.', 'q', 'i', 'n', 't', '1', '6']
  | .qint32 => ['!', 't', 'o', 'r', 'c', 'h', '.', 'q', 'i', 'n', 't', '3', '2']

/-- The width in an integer type token. -/
def widthOf (ds : Text) : Option Nat :=
  if ds.isEmpty || !ds.all Char.isDigit then none else some (Nat.ofDigitChars 10 ds 0)

/-- A built-in element type from its identifier. -/
def elemOfId : Text → Option ElemTy
  | 's' :: 'i' :: ds => (widthOf ds).map .signed
  | 'u' :: 'i' :: ds => (widthOf ds).map .unsigned
  | 'i' :: ds => (widthOf ds).map .signless
  | id => (floatOfId id).map .float

/-- A torch dialect element type from the identifier after `!`. -/
def torchElemOfId (id : Text) : Option ElemTy :=
  if id = ['t', 'o', 'r', 'c', 'h', '.', 'q', 'i', 'n', 't', '8'] then some .qint8
  else if id = ['t', 'o', 'r', 'c', 'h', '.', 'q', 'u', 'i', 'n', 't', '8'] then some .quint8
  else if id = ['t', 'o', 'r', 'c', 'h', '.', 'q', 'i', 'n', 't', '1', '6'] then some .qint16
  else if id = ['t', 'o', 'r', 'c', 'h', '.', 'q', 'i', 'n', 't', '3', '2'] then some .qint32
  else none

/-- The part of `parseType` that reads element types. -/
def parseElem (s : Text) : Option (ElemTy × Text) :=
  match skipWs s with
  | '!' :: r => (torchElemOfId (r.takeWhile isIdChar)).map (·, r.dropWhile isIdChar)
  | r =>
    if r.takeWhile isIdChar = ['c', 'o', 'm', 'p', 'l', 'e', 'x'] then
      match tok '<' (r.dropWhile isIdChar) with
      | none => none
      | some r1 =>
        let r2 := skipWs r1
        match floatOfId (r2.takeWhile isIdChar) with
        | none => none
        | some f => match tok '>' (r2.dropWhile isIdChar) with
          | none => none
          | some r3 => some (.complex f, r3)
    else (elemOfId (r.takeWhile isIdChar)).map (·, r.dropWhile isIdChar)

/-! ## Tensor types (torch dialect) -/

/-- `!torch.vtensor` (`value`) or `!torch.tensor`. -/
structure TensorTy (α : Type) where
  value : Bool
  sizes : Option (List Int)
  dtype : Option ElemTy
  sparsity : Option α
  deriving DecidableEq, Repr

/-- `isValidTorchDtype` (TorchTypes.cpp:182–219). -/
def validDtype : ElemTy → Bool
  | .float _ | .complex _ | .qint8 | .quint8 | .qint16 | .qint32 => true
  | .signless n => n == 1
  | .signed n => n == 4 || n == 8 || n == 16 || n == 32 || n == 64
  | .unsigned n => n == 4 || n == 8 || n == 16 || n == 32 || n == 64

/-- `verifyTensorType` (TorchTypes.cpp:261–296); the check of the encoding against the shape is left
to the attribute. -/
def verifyTensor {α : Type} (t : TensorTy α) : Bool :=
  (match t.dtype with | some d => validDtype d | none => true) &&
  (match t.sizes with | some l => l.all (fun n => !(decide (n < 0) && n != -1)) | none => true)

/-- The loop over the sizes (TorchTypes.cpp:317–337); `fuel` bounds the iterations, each of which
reads a character. -/
def parseSizes : Nat → Bool → Text → Option (List Int × Text)
  | 0, _, _ => none
  | fuel + 1, first, s =>
    match (if first then some s else tok ',' s) with
    | none => some ([], s)
    | some s' =>
      match tok '?' s' with
      | some r => (parseSizes fuel false r).map (fun (l, r') => (-1 :: l, r'))
      | none => match parseInt s' with
        | .failed => none
        | .ok n r => (parseSizes fuel false r).map (fun (l, r') => (n :: l, r'))
        | .absent => some ([], s')

/-- `parseOptionalKeyword("unk")`. -/
def tokUnk (s : Text) : Option Text :=
  if (skipWs s).takeWhile isIdChar = ['u', 'n', 'k'] then some ((skipWs s).dropWhile isIdChar)
  else none

/-- The sizes (TorchTypes.cpp:308–341): `*`, or a bracketed list. -/
def sizesPart (s : Text) : Option (Option (List Int) × Text) :=
  match tok '*' s with
  | some r => some (none, r)
  | none => match tok '[' s with
    | none => none
    | some s => match parseSizes (s.length + 1) true s with
      | none => none
      | some (l, s) => match tok ']' s with
        | none => none
        | some s => some (some l, s)

/-- The dtype (TorchTypes.cpp:344–351): `unk`, or a type. -/
def dtypePart (s : Text) : Option (Option ElemTy × Text) :=
  match tokUnk s with
  | some r => some (none, r)
  | none => match parseElem s with
    | some (d, r) => some (some d, r)
    | none => none

/-- The encoding (TorchTypes.cpp:352–357), if there is a comma. -/
def sparsityPart {α : Type} (attr : Text → Option (α × Text)) (s : Text) : Option (Option α × Text) :=
  match tok ',' s with
  | some r => match attr r with
    | some (a, r) => some (some a, r)
    | none => none
  | none => some (none, s)

/-- `parseTensorType` (TorchTypes.cpp:298–367). -/
def parseTensor {α : Type} (attr : Text → Option (α × Text)) (value : Bool) (s : Text) :
    Option (TensorTy α × Text) :=
  match tok '<' s with
  | none => some (⟨value, none, none, none⟩, s)
  | some s => match sizesPart s with
    | none => none
    | some (sizes, s) => match tok ',' s with
      | none => none
      | some s => match dtypePart s with
        | none => none
        | some (dtype, s) => match sparsityPart attr s with
          | none => none
          | some (sparsity, s) => match tok '>' s with
            | none => none
            | some s =>
              if verifyTensor (⟨value, sizes, dtype, sparsity⟩ : TensorTy α)
              then some (⟨value, sizes, dtype, sparsity⟩, s) else none

def vtensorId : Text := ['t', 'o', 'r', 'c', 'h', '.', 'v', 't', 'e', 'n', 's', 'o', 'r']
def tensorId : Text := ['t', 'o', 'r', 'c', 'h', '.', 't', 'e', 'n', 's', 'o', 'r']

/-- `IrType.parse` on the text of a tensor type: the whole text must be used. -/
def parseType {α : Type} (attr : Text → Option (α × Text)) (s : Text) : Option (TensorTy α) :=
  match skipWs s with
  | '!' :: r =>
    let rest := r.dropWhile isIdChar
    match (if r.takeWhile isIdChar = vtensorId then parseTensor attr true rest
      else if r.takeWhile isIdChar = tensorId then parseTensor attr false rest
      else none) with
    | some (t, r) => if (skipWs r).isEmpty then some t else none
    | none => none
  | _ => none

/-- `printer << n` for an integer. -/
def printInt (n : Int) : Text :=
  if n < 0 then '-' :: Nat.toDigits 10 n.natAbs else Nat.toDigits 10 n.natAbs

/-- `sep.join(parts)`. -/
def join (sep : Text) : List Text → Text
  | [] => []
  | [x] => x
  | x :: y :: r => x ++ sep ++ join sep (y :: r)

/-- The sizes (TorchTypes.cpp:375–387). -/
def printSizes : Option (List Int) → Text
  | some l => ['['] ++ join [','] (l.map (fun n => if n < 0 then ['?'] else printInt n)) ++ [']']
  | none => ['*']

/-- The dtype (TorchTypes.cpp:391–394). -/
def printDtype : Option ElemTy → Text
  | some d => printElem d
  | none => ['u', 'n', 'k']

/-- The encoding (TorchTypes.cpp:395–398). -/
def printSparsity {α : Type} (attr : α → Text) : Option α → Text
  | some a => ',' :: attr a
  | none => []

/-- `printTensorType` (TorchTypes.cpp:369–402) after the mnemonic. -/
def printTensor {α : Type} (attr : α → Text) (t : TensorTy α) : Text :=
  if t.sizes.isNone && t.dtype.isNone then []
  else
    ['<'] ++ printSizes t.sizes ++ [','] ++ printDtype t.dtype ++ printSparsity attr t.sparsity ++ ['>']

/-- The type as printed. -/
def printType {α : Type} (attr : α → Text) (t : TensorTy α) : Text :=
  '!' :: (if t.value then vtensorId else tensorId) ++ printTensor attr t

/-! ## The importer's text -/

/-- A dimension of a `torch.Size`: symbolic, or an int. -/
inductive Dim where
  | symbolic
  | size (n : Nat)
  deriving DecidableEq, Repr

/-- `"?" if is_symbolic(d) else str(d)` (fx_importer.py:1189). -/
def dimAsm : Dim → Text
  | .symbolic => ['?']
  | .size n => Nat.toDigits 10 n

/-- `format_asm_shape` (fx_importer.py:1187–1189). -/
def formatAsmShape (shape : List Dim) : Text := join [','] (shape.map dimAsm)

/-- The text `get_vtensor_type` parses (fx_importer.py:1191–1219), `enc` being the sparsity encoding
of a sparse tensor.  `str(self.dtype_to_type(dtype))` is MLIR's print of the element type. -/
def vtensorText (mutable : Bool) (shape : List Dim) (dtype : ElemTy) (enc : Option Text) : Text :=
  '!' :: (if mutable then tensorId else vtensorId) ++ ['<', '['] ++ formatAsmShape shape ++
    [']', ','] ++ printElem dtype ++ (match enc with | some e => ',' :: e | none => []) ++ ['>']

/-- The text `create_vtensor_type` parses (fx_importer.py:1307–1312): `f"{list(size)}"` puts a blank
after each comma. -/
def createVtensorText (size : List Nat) (dtype : ElemTy) : Text :=
  '!' :: vtensorId ++ ['<', '['] ++ join [',', ' '] (size.map (Nat.toDigits 10)) ++ [']', ','] ++
    printElem dtype ++ ['>']

end Verif.TypeText
