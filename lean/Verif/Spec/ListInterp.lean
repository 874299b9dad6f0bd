import Verif.Model.ListInterp

/-!
# What a block with lists does

Lists are known by the name of the operation that made them.  What operations do other than to lists is a parameter: they
see the contents of the lists they are given and change the rest of the world.
-/

namespace Verif.ListInterp
open Fold (V)

/-- The meaning of operations: `W` is the rest of the world (the values of names included), `E` are elements. -/
structure Sem (W E : Type) where
  val : W → V → E
  /-- the integer a name holds -/
  idx : W → V → Int
  /-- an operation that leaves lists alone, given the contents of its list operands -/
  rd : Nat → V → List (List E) → W → W
  /-- an operation that may mutate them: their new contents, and the new world -/
  mu : Nat → V → List (List E) → W → List (List E) × W

/-- Operations only give a value to their result, and constants are constant. -/
structure Sem.Ok {W E : Type} (S : Sem W E) (k : V → Option Int) : Prop where
  val_rd : ∀ s r cs w v, v ≠ r → S.val (S.rd s r cs w) v = S.val w v
  val_mu : ∀ s r cs w v, v ≠ r → S.val (S.mu s r cs w).2 v = S.val w v
  const : ∀ v c w, k v = some c → S.idx w v = c

variable {W E : Type}

def upd (σ : V → List E) (l : V) (c : List E) : V → List E := fun n => if n = l then c else σ n

def updAll (σ : V → List E) : List V → List (List E) → V → List E
  | l :: ls, c :: cs => updAll (upd σ l c) ls cs
  | _, _ => σ

/-- The position Python's `insert` uses. -/
def insertPos (n : Nat) (i : Int) : Nat := if i < 0 then (i + n).toNat else min i.toNat n

/-- The position an index of `l[i] = x` denotes, if it is in range. -/
def itemPos (n : Nat) (i : Int) : Option Nat :=
  if 0 ≤ i ∧ i < n then some i.toNat else if i < 0 ∧ 0 ≤ i + n then some (i + n).toNat else none

/-- One operation; `none` is an exception. -/
def step (S : Sem W E) : Op → W × (V → List E) → Option (W × (V → List E))
  | .construct l es, (w, σ) => some (w, upd σ l (es.map (S.val w)))
  | .append l el _, (w, σ) => some (w, upd σ l (σ l ++ [S.val w el]))
  | .insert l idx el, (w, σ) =>
    some (w, upd σ l ((σ l).insertIdx (insertPos (σ l).length (S.idx w idx)) (S.val w el)))
  | .setItem l idx el _, (w, σ) =>
    match itemPos (σ l).length (S.idx w idx) with
    | some i => some (w, upd σ l ((σ l).set i (S.val w el)))
    | none => none
  | .read s ls r, (w, σ) => some (S.rd s r (ls.map σ) w, σ)
  | .mutate s ls r _, (w, σ) =>
    let m := S.mu s r (ls.map σ) w
    some (m.2, updAll σ ls m.1)

def exec (S : Sem W E) : List Op → W × (V → List E) → Option (W × (V → List E))
  | [], s => some s
  | o :: rest, s =>
    match step S o s with
    | none => none
    | some s' => exec S rest s'

/-- Every name is defined once, before it is used; `seen` are the names already there. -/
def Ssa : List V → List Op → Prop
  | _, [] => True
  | seen, o :: rest => (∀ v ∈ o.operands, v ∈ seen) ∧ (∀ r ∈ o.results, r ∉ seen) ∧ Ssa (seen ++ o.results) rest

/-- Two executions end alike: both with an exception, or with the same world, and the same contents of all lists with names
below `bound`; what was list `L` is now list `t`. -/
def SameEnd (L t bound : V) : Option (W × (V → List E)) → Option (W × (V → List E)) → Prop
  | none, none => True
  | some (w, σ), some (w', σ') => w' = w ∧ σ' t = σ L ∧ ∀ n, n < bound → n ≠ L → σ' n = σ n
  | _, _ => False

/-- The operand that becomes an element, or is an index. -/
def Op.plainOperands : Op → List V
  | .construct _ es => es
  | .append _ el _ => [el]
  | .insert _ idx el => [idx, el]
  | .setItem _ idx el _ => [idx, el]
  | _ => []

/-- The list is not put into another list. -/
def NotNested (L : V) (ops : List Op) : Prop := ∀ o ∈ ops, L ∉ o.plainOperands

/-- The operation is an append, insert or item assignment. -/
def Op.changes : Op → Bool
  | .append .. | .insert .. | .setItem .. => true
  | _ => false

/-- The operation may mutate its lists in another block. -/
def Op.mutatesElsewhere : Op → Bool
  | .mutate _ _ _ true => true
  | _ => false

/-- In front of an operation that changes list `L` in a way the pattern understands, there is none that may mutate it
otherwise within the block. -/
def NoEarlierUnknown (L : V) : List Op → Prop
  | [] => True
  | o :: rest =>
    (∀ s ls r, o = .mutate s ls r false → L ∈ ls →
      ∀ p ∈ rest.takeWhile (fun p => !(p.uses L && p.mutatesElsewhere)), p.uses L → p.changes = false)
      ∧ NoEarlierUnknown L rest

/-- Everything that happens to the list of `n` elements is understood. -/
def Understood (L : V) (k : V → Option Int) : Nat → List Op → Prop
  | _, [] => True
  | n, o :: rest =>
    match o with
    | .append l _ used => if l = L then used = false ∧ Understood L k (n + 1) rest else Understood L k n rest
    | .insert l idx _ =>
      if l = L then (∃ c, k idx = some c ∧ 0 ≤ c ∧ c ≤ n) ∧ Understood L k (n + 1) rest else Understood L k n rest
    | .setItem l idx _ used =>
      if l = L then used = false ∧ (∃ c, k idx = some c ∧ -(n : Int) ≤ c ∧ c < n) ∧ Understood L k n rest
      else Understood L k n rest
    | .mutate _ ls _ _ => L ∉ ls ∧ Understood L k n rest
    | _ => Understood L k n rest

/-- The list that an operation may change. -/
def Op.target : Op → List V
  | .append l _ _ => [l]
  | .insert l _ _ => [l]
  | .setItem l _ _ _ => [l]
  | .mutate _ ls _ _ => ls
  | _ => []

/-- Its result, which is the list itself, is used. -/
def Op.resultUsed : Op → Bool
  | .append _ _ used => used
  | .setItem _ _ _ used => used
  | _ => false

end Verif.ListInterp
