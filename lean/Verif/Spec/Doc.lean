import Verif.Spec.Cst
/-!
# Specification: documents up to spans

Vocabulary for the statements about parsed documents.  `mapSpan` replaces every
span in a document; `erase` forgets them.  Nothing here models code, and nothing
refers to the parser.
-/

namespace Knuffel

variable {S T U : Type}

/-- Replace the spans of a value. -/
def Value.mapSpan (g : S → T) (v : Value S) : Value T :=
  ⟨v.typeName.map (Spanned.mapSpan g), v.literal.mapSpan g⟩

/-- Replace the spans of properties. -/
def mapProps (g : S → T) (l : List (Spanned Str S × Value S)) : List (Spanned Str T × Value T) :=
  l.map (fun kv => (kv.1.mapSpan g, kv.2.mapSpan g))

mutual
/-- Replace the spans of a node. -/
def Node.mapSpan (g : S → T) : Node S → Node T
  | .mk ty name args props children =>
    .mk (ty.map (Spanned.mapSpan g)) (name.mapSpan g) (args.map (Value.mapSpan g)) (mapProps g props)
      (mapChildren g children)
/-- Replace the spans of a children block. -/
def mapChildren (g : S → T) : Option (Spanned (List (Spanned (Node S) S)) S) →
    Option (Spanned (List (Spanned (Node T) T)) T)
  | none => none
  | some ⟨sp, l⟩ => some ⟨g sp, mapNodes g l⟩
/-- Replace the spans of a list of nodes. -/
def mapNodes (g : S → T) : List (Spanned (Node S) S) → List (Spanned (Node T) T)
  | [] => []
  | ⟨sp, n⟩ :: rest => ⟨g sp, n.mapSpan g⟩ :: mapNodes g rest
end

/-- Replace the spans of a document. -/
def Document.mapSpan (g : S → T) (d : Document S) : Document T := ⟨mapNodes g d.nodes⟩

/-- Forget the spans. -/
def Document.erase (d : Document S) : Document Unit := d.mapSpan (fun _ => ())

/-- The spans of a value satisfy `P`. -/
def Value.AllSpans (P : S → Prop) (v : Value S) : Prop :=
  (∀ t, v.typeName = some t → P t.span) ∧ P v.literal.span

mutual
/-- The spans in a node stand in relation `R` to the span `outer` of the node, the
spans of the child nodes to that of the children block, and so on inside them. -/
def Node.Nested (R : S → S → Prop) (outer : S) : Node S → Prop
  | .mk ty name args props children =>
    (∀ t, ty = some t → R t.span outer) ∧ R name.span outer ∧
    (∀ v ∈ args, v.AllSpans (R · outer)) ∧
    (∀ kv ∈ props, R kv.1.span outer ∧ kv.2.AllSpans (R · outer)) ∧
    NestedChildren R outer children
/-- The same for a children block. -/
def NestedChildren (R : S → S → Prop) (outer : S) : Option (Spanned (List (Spanned (Node S) S)) S) → Prop
  | none => True
  | some ⟨sp, l⟩ => R sp outer ∧ NestedNodes R sp l
/-- The same for a list of nodes. -/
def NestedNodes (R : S → S → Prop) (outer : S) : List (Spanned (Node S) S) → Prop
  | [] => True
  | ⟨sp, n⟩ :: rest => R sp outer ∧ n.Nested R sp ∧ NestedNodes R outer rest
end

/-- The same for a document, as a part of something with the span `outer`. -/
def Document.Nested (R : S → S → Prop) (outer : S) (d : Document S) : Prop := NestedNodes R outer d.nodes

/-- The span of the characters number `i` up to `j` (exclusive) of a text, in bytes. -/
def byteSpan (text : Str) (i j : Nat) : Sp Nat := ⟨byteLen (text.take i), byteLen (text.take j)⟩

/-- The meaning of a concrete syntax tree, without spans. -/
def Cst.BodyC.meaning (b : Cst.BodyC) : Document Unit := ⟨b.value (fun _ _ => ()) 0⟩

end Knuffel
