import Verif.Spec.Complaints
import Verif.Spec.Doc
import Verif.Model.Display
/-!
# Specification: where the labels of decode errors point

`d` points at its input if every label of every error it reports is the place of some part of what it
decodes.  This is said by way of predicates: whatever holds of the spans of all parts, holds of the
places of the labels.
-/

namespace Knuffel
variable {E S V α : Type}

/-- `P` holds of the span of the node and of the spans of all parts of it, at any depth. -/
def AllSpans (P : S → Prop) (n : SpannedNode S) : Prop := P n.span ∧ n.value.Nested (fun a _ => P a) n.span

/-- `P` holds of the places of the labels of the error. -/
def DErr.Points (P : S → Prop) (e : DErr S) : Prop := ∀ l ∈ e.labels, P l.2

/-- The part of the document that the error is about, for those that are about a part. -/
def DErr.place? : DErr S → Option S
  | .typeName s _ _ _ | .scalarKind s _ _ | .missing s _ | .unexpected s _ _ | .conversion s _ | .unsupported s _ => some s
  | .missingNode _ | .custom _ => none

/-- The decoder of a value points at the value. -/
def PointsAtValue (d : Value S → D E S α) : Prop :=
  ∀ (P : S → Prop) v, v.AllSpans P → OnlyReports (DErr.Points P) (d v)

/-- The decoder of a node points at the node. -/
def PointsAtNode (d : NodeDecoder E S α) : Prop :=
  ∀ (P : S → Prop) n, AllSpans P n → OnlyReports (DErr.Points P) (d n)

/-- The decoder of nodes points at the nodes. -/
def PointsAtNodes (d : ChildrenDecoder E S α) : Prop :=
  ∀ (P : S → Prop) nodes, (∀ n ∈ nodes, AllSpans P n) → OnlyReports (DErr.Points P) (d nodes)

/-- A partial struct points at the property or the node that is inserted. -/
structure Partial.PointsAt (p : Partial E S α) : Prop where
  property : ∀ (P : S → Prop) x (name : Spanned Str S) v, P name.span → v.AllSpans P →
    OnlyReports (DErr.Points P) (p.insertProperty x name v)
  child : ∀ (P : S → Prop) x n, AllSpans P n → OnlyReports (DErr.Points P) (p.insertChild x n)

/-- A span decoder points at the span. -/
def SpanDecoder.PointsAt {T : Type} (d : SpanDecoder E S T) : Prop :=
  ∀ (P : S → Prop) s, P s → OnlyReports (DErr.Points P) (d.run s)

/-- The decoders of all fields of a struct point at what they decode. -/
structure Struct.PointsAt [Externals] (s : Struct E S V) : Prop where
  spans : ∀ f ∈ s.spans, f.impls.span.PointsAt
  arguments : ∀ f ∈ s.arguments, PointsAtValue (decodeValue f.decode f.option f.impls)
  varArgs : ∀ f ∈ s.varArgs, PointsAtValue (decodeValue f.decode false f.impls)
  properties : ∀ f ∈ s.properties, if f.flatten then f.impls.part.PointsAt else PointsAtValue (decodeValue f.decode f.option f.impls)
  varProps : ∀ f ∈ s.varProps, PointsAtValue (decodeValue f.decode false f.impls)
  children : ∀ f ∈ s.children, if f.mode = .flatten then f.impls.part.PointsAt else PointsAtNode f.decoder
  varChildren : ∀ f ∈ s.varChildren, PointsAtNode f.decoder

/-- The implementations for the type of a field point at what they decode. -/
structure Impls.PointsAt (i : Impls E S V) : Prop where
  scalar : PointsAtValue i.scalar.decode
  node : PointsAtNode i.node
  part : i.part.PointsAt
  span : i.span.PointsAt

/-- The implementations of a field and of everything inside its `unwrap` point at what they decode. -/
def FieldAttrs.PointsAt : FieldAttrs E S V → Prop
  | .plain a => a.impls.PointsAt
  | .unwrapped a i => a.impls.PointsAt ∧ i.PointsAt

/-- No `flatten` inside `unwrap`. -/
def FieldAttrs.NoFlatten : FieldAttrs E S V → Prop
  | .plain a => ∀ c p, a.mode ≠ some (.flatten c p)
  | .unwrapped a i => (∀ c p, a.mode ≠ some (.flatten c p)) ∧ i.NoFlatten

end Knuffel
