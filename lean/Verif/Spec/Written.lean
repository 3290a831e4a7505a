import Verif.Spec.Doc
/-!
# Specification: how the parts of a document were written

Vocabulary to say, of a parsed document, which piece of the text each part of it
comes from and what was written there.  Nothing here models code, and nothing
refers to the parser.
-/

namespace Knuffel
open Cst

/-! ### Pieces of a text -/

/-- The characters of `text` at the span `sp` are `piece`. -/
def PieceAt (text : Str) (sp : Sp Nat) (piece : Str) : Prop :=
  ∃ u w, text = u ++ piece ++ w ∧ sp = ⟨byteLen u, byteLen (u ++ piece)⟩

/-- A type annotation was written as a name in parentheses. -/
def WrittenType (text : Str) (t : Spanned TypeName (Sp Nat)) : Prop :=
  ∃ n : Name, n.Ok ∧ PieceAt text t.span ('(' :: n.text ++ [')']) ∧ t.value = TypeName.fromString n.value

/-- A value was written as a literal, with an optional type annotation. -/
def WrittenValue (text : Str) (v : Value (Sp Nat)) : Prop :=
  (∀ t, v.typeName = some t → WrittenType text t) ∧
  ∃ l : Lit, l.Ok ∧ PieceAt text v.literal.span l.text ∧ v.literal.value = l.value

/-- A property name was written as a bare identifier or a string. -/
def WrittenKey (text : Str) (k : Spanned Str (Sp Nat)) : Prop :=
  ∃ n : PropName, n.Ok ∧ PieceAt text k.span n.text ∧ k.value = n.value

/-- A node name was written as a bare identifier or a quoted string. -/
def WrittenName (text : Str) (k : Spanned Str (Sp Nat)) : Prop :=
  ∃ n : Name, n.Ok ∧ PieceAt text k.span n.text ∧ k.value = n.value

mutual
/-- All parts of a node were written as described above. -/
def Node.Written (text : Str) : Node (Sp Nat) → Prop
  | .mk ty name args props children =>
    (∀ t, ty = some t → WrittenType text t) ∧ WrittenName text name ∧
    (∀ v ∈ args, WrittenValue text v) ∧
    (∀ kv ∈ props, WrittenKey text kv.1 ∧ WrittenValue text kv.2) ∧
    WrittenChildren text children
/-- A children block was written in braces. -/
def WrittenChildren (text : Str) : Option (Spanned (List (Spanned (Node (Sp Nat)) (Sp Nat))) (Sp Nat)) → Prop
  | none => True
  | some ⟨sp, l⟩ => (∃ inside, PieceAt text sp ('{' :: inside ++ ['}'])) ∧ WrittenNodes text l
/-- All nodes were written as described above. -/
def WrittenNodes (text : Str) : List (Spanned (Node (Sp Nat)) (Sp Nat)) → Prop
  | [] => True
  | ⟨_, n⟩ :: rest => n.Written text ∧ WrittenNodes text rest
end

/-- All parts of the document were written as described above. -/
def Document.Written (text : Str) (d : Document (Sp Nat)) : Prop := WrittenNodes text d.nodes

/-! ### All nodes of a document -/

mutual
/-- A node and all nodes below it, in the order in which they are written. -/
def Node.allBelow {S : Type} : Node S → List (Node S)
  | .mk ty name args props children => .mk ty name args props children :: childrenBelow children
/-- The nodes in a children block. -/
def childrenBelow {S : Type} : Option (Spanned (List (Spanned (Node S) S)) S) → List (Node S)
  | none => []
  | some ⟨_, l⟩ => nodesBelow l
/-- The nodes in a list of nodes. -/
def nodesBelow {S : Type} : List (Spanned (Node S) S) → List (Node S)
  | [] => []
  | ⟨_, n⟩ :: rest => n.allBelow ++ nodesBelow rest
end

/-- All nodes of a document, in the order in which they are written. -/
def Document.allNodes {S : Type} (d : Document S) : List (Node S) := nodesBelow d.nodes

/-! ### All nodes of a concrete syntax tree -/

namespace Cst

mutual
/-- A node and all nodes below it that are not commented out. -/
def NodeC.live : NodeC → List NodeC
  | .mk ty name items children space term => .mk ty name items children space term :: children.live
/-- The nodes in a children block. -/
def ChildrenC.live : ChildrenC → List NodeC
  | .none => []
  | .some _ none body => body.live
  | .some _ (some _) _ => []
/-- The nodes in a sequence of nodes. -/
def BodyC.live : BodyC → List NodeC
  | .nil _ => []
  | .cons _ none node rest => node.live ++ rest.live
  | .cons _ (some _) _ rest => rest.live
end

/-- The parts of a written node. -/
def NodeC.ty : NodeC → Option Name | .mk t _ _ _ _ _ => t
/-- The name of a written node. -/
def NodeC.name : NodeC → Name | .mk _ n _ _ _ _ => n
/-- The entries of a written node. -/
def NodeC.items : NodeC → List Item | .mk _ _ i _ _ _ => i
/-- The children block of a written node. -/
def NodeC.children : NodeC → ChildrenC | .mk _ _ _ c _ _ => c

/-- The arguments among the entries that are not commented out, in order. -/
def writtenArgs : List Item → List Val
  | [] => []
  | ⟨_, none, .arg v⟩ :: rest => v :: writtenArgs rest
  | _ :: rest => writtenArgs rest

/-- The properties among the entries that are not commented out, in order. -/
def writtenProps : List Item → List (PropName × Val)
  | [] => []
  | ⟨_, none, .prop n v⟩ :: rest => (n, v) :: writtenProps rest
  | _ :: rest => writtenProps rest

/-- A value without spans. -/
def Val.meaning (v : Val) : Value Unit := v.value (fun _ _ => ()) 0

/-- A node without spans. -/
def NodeC.meaning (n : NodeC) : Node Unit := (n.value (fun _ _ => ()) 0).value

/-- The nodes of a sequence that are not commented out (not those below them). -/
def BodyC.top : BodyC → List NodeC
  | .nil _ => []
  | .cons _ Option.none node rest => node :: BodyC.top rest
  | .cons _ (Option.some _) _ rest => BodyC.top rest

/-- The nodes in the braces, if there are braces that are not commented out;
those of them that are not commented out. -/
def ChildrenC.written : ChildrenC → Option (List NodeC)
  | .none => Option.none
  | .some _ (Option.some _) _ => Option.none
  | .some _ Option.none body => Option.some body.top

end Cst

end Knuffel
