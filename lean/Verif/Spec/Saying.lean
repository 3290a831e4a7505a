import Verif.Spec.Decode
import Verif.Model.Display
/-!
# Specification: one message
-/

namespace Knuffel
variable {E S α : Type}

/-- Whatever the context, `x` reports exactly one error, with this message and this one label. -/
def SaysOnly (x : D E S α) (message label : Str) (place : S) : Prop :=
  ∀ c, ∃ e, Reports x c [e] ∧ e.message = message ∧ e.labels = [(label, place)]

end Knuffel
