import Verif.Model.Errors
/-!
# Specification: diagnostics in the order of the text

Nothing here models code.
-/

namespace Knuffel

/-- The part of the text that a diagnostic points at, in bytes: of something unclosed, the part from
where it was opened to where its end was expected. -/
def PErr.place : PErr Nat → Sp Nat
  | .unexpected _ sp _ _ => sp
  | .unclosed _ openedAt _ expectedAt _ _ => ⟨openedAt.start, expectedAt.stop⟩
  | .message _ sp _ => sp
  | .messageWithHelp _ sp _ _ => sp

/-- The diagnostics are listed as they come in the text, and the parts of it that they point at do
not overlap: each begins where the ones before it have ended, or later. -/
def InOrder (es : List (PErr Nat)) : Prop :=
  es.Pairwise (fun a b => a.place.stop ≤ b.place.start)

end Knuffel
