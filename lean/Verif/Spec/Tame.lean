import Verif.Spec.Derive
import Verif.Model.Attrs
/-!
# Specification: decoders that mind their own business

A decoder gets the context to read what the user has set there, and to record errors.  It is
well-behaved if that is all it does with it.
-/

namespace Knuffel
variable {E S V α : Type}

/-- The same end of a run, with `es` recorded before it began. -/
def Out.after (es : List (DErr S)) : Out E S α → Out E S α
  | .ok a c => .ok a ⟨es ++ c.errors, c.extensions⟩
  | .err e c => .err e ⟨es ++ c.errors, c.extensions⟩
  | .panic => .panic

/-- The run came to an end, with a value or an error but no panic, and what was set in the context is
still `ext`. -/
def Out.Leaves (ext : E) : Out E S α → Prop
  | .ok _ c => c.extensions = ext
  | .err _ c => c.extensions = ext
  | .panic => False

/-- The computation does not panic, does not change what was set in the context, and does the same
whatever errors were recorded before; it leaves those as they are and adds its own after them. -/
def Tame (x : D E S α) : Prop :=
  ∀ (es : List (DErr S)) (ext : E), (x ⟨[], ext⟩).Leaves ext ∧ x ⟨es, ext⟩ = (x ⟨[], ext⟩).after es

/-- Each of the implementations for a type is so. -/
structure Impls.Tame (i : Impls E S V) : Prop where
  scalar : ∀ v, Knuffel.Tame (i.scalar.decode v)
  node : ∀ n, Knuffel.Tame (i.node n)
  insertChild : ∀ x n, Knuffel.Tame (i.part.insertChild x n)
  insertProperty : ∀ x n v, Knuffel.Tame (i.part.insertProperty x n v)
  span : ∀ s, Knuffel.Tame (i.span.run s)

/-- Each of the implementations a struct uses is so. -/
structure Struct.Tame (s : Struct E S V) : Prop where
  spans : ∀ f ∈ s.spans, f.impls.Tame
  arguments : ∀ f ∈ s.arguments, f.impls.Tame
  varArgs : ∀ f ∈ s.varArgs, f.impls.Tame
  properties : ∀ f ∈ s.properties, f.impls.Tame
  varProps : ∀ f ∈ s.varProps, f.impls.Tame
  children : ∀ f ∈ s.children, f.impls.Tame ∧ ∀ n, Knuffel.Tame (f.decoder n)
  varChildren : ∀ f ∈ s.varChildren, ∀ n, Knuffel.Tame (f.decoder n)

/-- Each of the implementations a variant of an enum uses is so. -/
def Variant.Tame (v : Variant E S V) : Prop :=
  match v.kind with
  | .unit => True
  | .nested _ inner => ∀ n, Knuffel.Tame (inner n)
  | .tuple s => s.Tame

/-- The fields of a struct or of a variant. -/
def FieldsSyn.fields : FieldsSyn E S V → List (FieldSyn E S V)
  | .named fs => fs
  | .unnamed fs => fs
  | .unit => []

/-- All fields in an item. -/
def Item.fields : Item E S V → List (FieldSyn E S V)
  | .struct _ fs => fs.fields
  | .enum _ vs => vs.flatMap fun v => v.fields.fields
  | .other => []

/-- The errors of a list of results, one after the other. -/
def allErrors (rs : List (Option (Except (List (DErr S)) α))) : List (DErr S) :=
  rs.flatMap fun
    | some (.error es) => es
    | _ => []

end Knuffel
