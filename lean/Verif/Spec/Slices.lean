import Verif.Spec.Doc
import Verif.Spec.Diag
/-!
# Specification: the text that a span covers

Vocabulary for the statements about the spans of the parts of a document.  (`Covers`, the characters that
a span covers, is in `Spec/Diag.lean`.)  Nothing here refers to the parser.
-/

namespace Knuffel

variable {S : Type}

/-- The node is one of the nodes, or stands in the children block of one of them, at any depth. -/
inductive Occurs (n : SpannedNode S) : List (SpannedNode S) → Prop where
  | here {l} : n ∈ l → Occurs n l
  | inside {l} {m : SpannedNode S} {c : Spanned (List (SpannedNode S)) S} :
      m ∈ l → m.value.children = some c → Occurs n c.value → Occurs n l

/-- A span moved to the right by `n` bytes. -/
def Sp.moved (n : Nat) (s : Sp Nat) : Sp Nat := ⟨s.start + n, s.stop + n⟩

/-- The span of a value: from the parenthesis of its type annotation, if it has one, to the end of
the literal. -/
def Value.whole (v : Value (Sp Nat)) : Sp Nat :=
  match v.typeName with
  | some t => ⟨t.span.start, v.literal.span.stop⟩
  | none => v.literal.span

/-- Where the node begins: at the parenthesis of its type annotation, if it has one, otherwise at its
name. -/
def Node.begins (n : Node (Sp Nat)) : Nat :=
  match n.typeName with
  | some t => t.span.start
  | none => n.nodeName.span.start

/-- Forget the spans of a list of nodes. -/
def forget (l : List (SpannedNode S)) : List (SpannedNode Unit) := mapNodes (fun _ => ()) l

/-- The node with another children block. -/
def Node.withChildren (c : Option (Spanned (List (SpannedNode S)) S)) : Node S → Node S
  | .mk ty name args props _ => .mk ty name args props c

/-- The node with other arguments. -/
def Node.withArgs (a : List (Value S)) : Node S → Node S
  | .mk ty name _ props c => .mk ty name a props c

/-- Another value for the property with the name `k`. -/
def setProp (k : Str) (x : Value S) (l : List (Spanned Str S × Value S)) : List (Spanned Str S × Value S) :=
  l.map (fun kv => if kv.1.value = k then (kv.1, x) else kv)

/-- The node with another value for the property with the name `k`. -/
def Node.withProp (k : Str) (x : Value S) : Node S → Node S
  | .mk ty name args props c => .mk ty name args (setProp k x props) c

/-- Up to spans, the nodes `l'` are the nodes `l` with the nodes `ns` in the place of the node `n`, which
is one of them, or stands in the children block of one of them, at any depth; all else is as it was. -/
inductive Replaced (n : SpannedNode S) (ns : List (SpannedNode Unit)) :
    List (SpannedNode S) → List (SpannedNode Unit) → Prop where
  | here {a c} : Replaced n ns (a ++ n :: c) (forget a ++ ns ++ forget c)
  | inside {a c} {m : SpannedNode S} {k : Spanned (List (SpannedNode S)) S} {k' : List (SpannedNode Unit)} :
      m.value.children = some k → Replaced n ns k.value k' →
      Replaced n ns (a ++ m :: c)
        (forget a ++ ⟨(), (m.value.mapSpan (fun _ => ())).withChildren (some ⟨(), k'⟩)⟩ :: forget c)

end Knuffel
