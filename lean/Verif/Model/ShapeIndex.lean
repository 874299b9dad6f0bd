import Verif.Model.ShapeCore

/-!
# `index_tensor_like` (LIB:2496–2536), the shape of indexing with index tensors

LIB as in `Verif.Model.ShapeCore`.  Index tensors are integer tensors; boolean masks have no shape
function of their own.
-/

namespace Verif.Shape

/-- The first loop (LIB:2500–2508): the broadcast index shape so far and the sizes not indexed. -/
def indexSplit : List Int → List Int → List (Option (List Int)) → Py (List Int × List Int)
  | b, [], _ => .ok (b, [])
  | b, x :: xs, [] => match indexSplit b xs [] with
    | .error e => .error e
    | .ok (b', unused) => .ok (b', x :: unused)
  | b, x :: xs, none :: is => match indexSplit b xs is with
    | .error e => .error e
    | .ok (b', unused) => .ok (b', x :: unused)
  | b, _ :: xs, some t :: is => match broadcast b t with
    | .error e => .error e
    | .ok b1 => indexSplit b1 xs is

/-- `first_index_tensor_location`, `last_used_index_location`, `index_tensors_are_together`. -/
structure IndexPlace where
  first : Int
  last : Int
  together : Bool
  deriving DecidableEq, Repr

/-- The second loop (LIB:2513–2522), from position `e`. -/
def indexPlace : Nat → IndexPlace → List (Option (List Int)) → IndexPlace
  | _, s, [] => s
  | e, s, none :: is => indexPlace (e + 1) s is
  | e, s, some _ :: is =>
    indexPlace (e + 1)
      { first := if s.first = -1 then e else s.first
        last := e
        together := if s.first = -1 then s.together
          else if (e : Int) - s.last ≠ 1 then false else s.together } is

/-- The two loops over `range(first)` and `range(first, len(unused))` (LIB:2529–2536); `first` is -1 when there is
no index tensor. -/
def indexInsert (first : Int) (b unused : List Int) : Py (List Int) :=
  if first < 0 then match pyGet unused first with
    | .error e => .error e
    | .ok x => .ok (b ++ x :: unused)
  else if first ≤ unused.length then .ok (unused.take first.toNat ++ b ++ unused.drop first.toNat)
  else .error .indexError

/-- `index_tensor_like` (LIB:2496–2536). -/
def indexTensorLike (self : List Int) (indices : List (Option (List Int))) : Py (List Int) :=
  if indices.length > self.length then .error .assertion
  else match indexSplit [] self indices with
    | .error e => .error e
    | .ok (b, unused) =>
      if unused.length = 0 then .ok b
      else if (indexPlace 0 ⟨-1, -1, true⟩ indices).together = false then .ok (b ++ unused)
      else indexInsert (indexPlace 0 ⟨-1, -1, true⟩ indices).first b unused

end Verif.Shape
