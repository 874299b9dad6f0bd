import Verif.Spec.Broadcast

/-! # Matrix products (for C41) -/

namespace Verif.Shape

/-- The left operand: a vector, or a batch of matrices with rows. -/
inductive Left : List Int → List Int → List Int → Int → Prop where
  | vec (k : Int) : Left [k] [] [] k
  | mat (batch : List Int) (n k : Int) : Left (batch ++ [n, k]) batch [n] k

/-- The right operand: a vector, or a batch of matrices with columns. -/
inductive Right : List Int → List Int → Int → List Int → Prop where
  | vec (k : Int) : Right [k] [] k []
  | mat (batch : List Int) (k p : Int) : Right (batch ++ [k, p]) batch k [p]

/-- `c` is the shape of the matrix product: equal inner sizes, batches broadcast, then rows and columns
(vectors contribute none). -/
def IsMatmul (a b c : List Int) : Prop :=
  ∃ ba rows k bb cols batch, Left a ba rows k ∧ Right b bb k cols ∧ IsBroadcast ba bb batch ∧
    c = batch ++ rows ++ cols

/-- The operands have equal inner sizes. -/
def SameInner (a b : List Int) : Prop :=
  ∀ ba rows k bb k' cols, Left a ba rows k → Right b bb k' cols → k = k'

/-- `c` is the shape of `input · weightᵀ + bias`. -/
def IsLinear (input weight : List Int) (bias : Option (List Int)) (c : List Int) : Prop :=
  ((∃ k, weight = [k] ∧ IsMatmul input [k] c) ∨ (∃ m k, weight = [m, k] ∧ IsMatmul input [k, m] c)) ∧
  ∀ b, bias = some b → ExpandsTo b c

end Verif.Shape
