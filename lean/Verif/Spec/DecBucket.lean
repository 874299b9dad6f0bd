import Verif.Model.DecBucket

/-! # Buckets, classes and evenly spaced numbers -/

namespace Verif.Bucket

/-- Tensor of one dimension with given elements. -/
def vector (bs : List ℚ) : Lin.Tensor Num := ⟨[(bs.length : Int)], fun idx => (idx.head?.bind fun i => bs[i.toNat]?).map some⟩

/-- `k` is the number of the bucket of `x`: boundaries up to it are below, those from it on are above. What is not a number comes last. -/
def IsBucket (right : Bool) (bs : List ℚ) (x : Num) (k : Int) : Prop :=
  0 ≤ k ∧ k ≤ bs.length ∧
    match x with
    | none => k = bs.length
    | some x => ∀ (i : Nat) (b : ℚ), bs[i]? = some b →
        ((i : Int) < k → if right then b ≤ x else b < x) ∧ (k ≤ (i : Int) → if right then x < b else x ≤ b)

/-- An integer less than one away from a number, on the side of zero. -/
def Truncated (x y : ℚ) : Prop := (∃ z : Int, y = z) ∧ |x - y| < 1 ∧ |y| ≤ |x| ∧ 0 ≤ x * y

/-- Numbers that are evenly spaced: the first and the last are given, and all differences are equal. -/
def Even (start stop : ℚ) (xs : List ℚ) : Prop :=
  (∀ x, xs[0]? = some x → x = start) ∧ (2 ≤ xs.length → xs[xs.length - 1]? = some stop) ∧
    ∃ d : ℚ, ∀ (i : Nat) (x y : ℚ), xs[i]? = some x → xs[i + 1]? = some y → y - x = d

/-- A number as it is put into a tensor. -/
def Stored : Kind → ℚ → ℚ → Prop
  | .float, x, y => y = x
  | .integer, x, y => Truncated x y

/-- What `torch.linspace` gives: `n` evenly spaced numbers between the first and the last as they would be put into the result, put into it. -/
def Linspace (start stop : ℚ) (kind : Kind) (n : Nat) (ys : List ℚ) : Prop :=
  ∃ s e : ℚ, ∃ xs : List ℚ, Stored kind start s ∧ Stored kind stop e ∧ xs.length = n ∧ Even s e xs ∧
    ys.length = n ∧ ∀ (i : Nat) (x y : ℚ), xs[i]? = some x → ys[i]? = some y → Stored kind x y

end Verif.Bucket
