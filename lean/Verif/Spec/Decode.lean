import Verif.Model.Decode
/-!
# Specification: outcomes of decoding

Vocabulary for the statements about decoders.
-/

namespace Knuffel
variable {E S α : Type}

/-- The errors recorded in the context that a run leaves, with the error it
returned, if any, at the end. -/
def Out.errors : Out E S α → List (DErr S)
  | .ok _ c => c.errors
  | .err e c => c.errors ++ [e]
  | .panic => []

/-- Started in context `c`, the run gave the value `a` and left the context as it was. -/
def Gives (x : D E S α) (c : Ctx E S) (a : α) : Prop := x c = .ok a c

/-- Started in context `c`, the run did not panic, and reported `es` in addition
to what was there: recorded in the context or returned. -/
def Reports (x : D E S α) (c : Ctx E S) (es : List (DErr S)) : Prop :=
  x c ≠ .panic ∧ (x c).errors = c.errors ++ es

/-- The run gave a value and recorded nothing new. -/
def Out.Clean (c : Ctx E S) (o : Out E S α) : Prop := ∃ a c', o = .ok a c' ∧ c'.errors = c.errors

/-- The computation never takes back errors: this is what `Context` allows, as
`errors` is private and only `emit_error` (src/decode.rs:164) changes it. -/
def Keeps (x : D E S α) : Prop :=
  ∀ c, match x c with
    | .ok _ c' => c.errors <+: c'.errors
    | .err _ c' => c.errors <+: c'.errors
    | .panic => True

/-- What kind of literal is written. -/
def Literal.kind : Literal → Kind
  | .null => .null
  | .bool _ => .bool
  | .int _ _ => .int
  | .decimal _ => .decimal
  | .string _ => .string

end Knuffel
