import Verif.Model.DecAdapt

/-! # Adaptive pooling -/

namespace Verif.Adapt

/-- The windows of adaptive pooling: the input is cut into equal parts, and each window is the smallest that has all of its part: it begins at the last place not after the beginning of the part, and ends at the first not before its end. -/
def IsAdaptive (input output : Int) (ws : List (Int × Int)) : Prop :=
  (ws.length : Int) = output ∧
    ∀ (i : Nat) (w : Int × Int), ws[i]? = some w →
      (w.1 * output ≤ i * input ∧ (i : Int) * input < (w.1 + 1) * output) ∧
      ((i + 1) * input ≤ w.2 * output ∧ (w.2 - 1) * output < ((i : Int) + 1) * input)

end Verif.Adapt
