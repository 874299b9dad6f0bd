import Verif.Spec.TmTensor
import Verif.Model.TmAten

/-!
# What the Torch operators give
-/

namespace Verif.Tm

/-- The number an integer element is in Torch: bools and unsigned dtypes are not negative. -/
def torchInt (w : Nat) (s : Sign) (b : Nat) : Int :=
  match s with
  | .signed => if 2 * b < 2 ^ w then b else b - 2 ^ w
  | _ => b

/-- Torch's order of the elements of a dtype: numbers as usual, NaN is the greatest. -/
def torchLe {F : Type} (fle : F → F → Bool) (nan : F → Bool) (ty : ElemTy) (a b : Sc F) : Bool :=
  match ty, a, b with
  | .int w s, .bits a, .bits b => decide (torchInt w s a ≤ torchInt w s b)
  | .float, .flt a, .flt b => nan b || (fle a b && !nan a)
  | _, _, _ => false

/-- The order of the results. -/
def inOrder {T : Type} (le : T → T → Bool) (descending : Bool) (a b : T) : Bool := if descending then le b a else le a b

/-- `values` are the elements of `l` in order, `indices` the places they had. -/
def IsSortOf {T : Type} (le : T → T → Bool) (l values : List T) (indices : List Int) : Prop :=
  ∃ σ : List Nat, σ.Perm (List.range l.length) ∧ values.map some = σ.map (fun i => l[i]?) ∧ indices = σ.map (fun i : Nat => (i : Int)) ∧
    σ.Pairwise fun i j => ∀ a b, l[i]? = some a → l[j]? = some b → le a b = true

/-- The same, and elements that compare both ways stay in the order they had. -/
def IsStableSortOf {T : Type} (le : T → T → Bool) (l values : List T) (indices : List Int) : Prop :=
  ∃ σ : List Nat, σ.Perm (List.range l.length) ∧ values.map some = σ.map (fun i => l[i]?) ∧ indices = σ.map (fun i : Nat => (i : Int)) ∧
    σ.Pairwise fun i j => ∀ a b, l[i]? = some a → l[j]? = some b → le a b = true ∧ (le b a = true → i < j)

/-- The elements a tensor of a dtype may have, without NaN. -/
def Plain {F : Type} (nan : F → Bool) (ty : ElemTy) (a : Sc F) : Prop :=
  match ty, a with
  | .int w _, .bits b => b < 2 ^ w
  | .float, .flt x => nan x = false
  | _, _ => False

/-- Comparisons of floats: NaN compares with nothing, the others are in a line. -/
structure FloatCmp.Ok {F : Type} (fc : FloatCmp F) (nan : F → Bool) : Prop where
  order : IsOrder (fun x => nan x = false) fc.ole
  lt : ∀ a b, nan a = false → nan b = false → fc.olt a b = !fc.ole b a
  ole_nan : ∀ a b, nan a = true ∨ nan b = true → fc.ole a b = false
  olt_nan : ∀ a b, nan a = true ∨ nan b = true → fc.olt a b = false

/-- Floats for examples: `none` is NaN. -/
def testFloats : FloatCmp (Option Int) where
  ole a b := match a, b with
    | some a, some b => decide (a ≤ b)
    | _, _ => false
  olt a b := match a, b with
    | some a, some b => decide (a < b)
    | _, _ => false

/-- Where the element of `src` at `place` goes: to the same place, but along the dimension to what `index` has there. -/
def ScatterTo (sizes : List Nat) (d : Nat) (index : List Nat → Int) (place p : List Nat) : Prop :=
  InBox sizes p ∧ p.map (fun k : Nat => (k : Int)) = (place.map fun k : Nat => (k : Int)).set d (index place)

instance (sizes : List Nat) (d : Nat) (index : List Nat → Int) (place p : List Nat) : Decidable (ScatterTo sizes d index place p) := by
  unfold ScatterTo; infer_instance

/-- What Torch requires: `index` is no larger than `self` in the other dimensions, and its elements are places in `self`. -/
structure ScatterOk (sizes isizes : List Nat) (d : Nat) (index : List Nat → Int) : Prop where
  rank : isizes.length = sizes.length
  dim : d < sizes.length
  le : ∀ j, j < sizes.length → j ≠ d → isizes[j]?.getD 0 ≤ sizes[j]?.getD 0
  range : ∀ place, InBox isizes place → 0 ≤ index place ∧ index place < (sizes[d]?.getD 0 : Nat)

/-- `v` is the `k`-th smallest of `l`, and it is at place `i`: fewer than `k` are smaller, and `k` or more are not greater. -/
def IsKth {T : Type} (le : T → T → Bool) (k : Nat) (l : List T) (v : T) (i : Int) : Prop :=
  (∃ j : Nat, i = j ∧ l[j]? = some v) ∧ l.countP (fun x => !le v x) < k ∧ k ≤ l.countP (fun x => le x v)

/-- The fills are the greatest and the smallest number. -/
structure FloatFill.Ok {F : Type} (ff : FloatFill F) (fc : FloatCmp F) (nan : F → Bool) : Prop where
  inf : nan ff.inf = false
  ninf : nan ff.ninf = false
  le_inf : ∀ x, nan x = false → fc.ole x ff.inf = true
  ninf_le : ∀ x, nan x = false → fc.ole ff.ninf x = true

/-- Numbers that compare as equal are the same: there is one zero. -/
def FloatCmp.Distinct {F : Type} (fc : FloatCmp F) (nan : F → Bool) : Prop :=
  ∀ a b, nan a = false → nan b = false → fc.ole a b = true → fc.ole b a = true → a = b

end Verif.Tm
