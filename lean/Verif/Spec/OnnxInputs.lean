import Verif.Model.OnnxProto

/-!
# The arguments an ONNX graph should have
-/

namespace Verif.Onnx

/-- There is an initializer for the input. -/
def HasInit (inits : List Tensor) (v : ValueInfo) : Prop := ∃ t ∈ inits, t.name = v.name

instance (inits : List Tensor) (v : ValueInfo) : Decidable (HasInit inits v) :=
  inferInstanceAs (Decidable (∃ t ∈ inits, t.name = v.name))

/-- The inputs that are arguments: those without initializer if `elide`, else all. -/
def wantedInputs (elide : Bool) (inputs : List ValueInfo) (inits : List Tensor) : List ValueInfo :=
  if elide then inputs.filter (fun v => ¬ HasInit inits v) else inputs

end Verif.Onnx
