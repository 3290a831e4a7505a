import Verif.Model.Ast
/-!
# Specification: how large a document is

`Document.least` is the number of bytes that a document cannot be written without: every name and every string with its bytes,
every digit, the brackets and quotes that are needed, a space before each entry, an end for each node.
-/

namespace Knuffel

/-- The bytes of a text in UTF-8. -/
def bytes (s : Str) : Nat := (s.map Char.utf8Size).sum

/-- A name: at least itself; the empty name needs quotes. -/
def nameLeast (s : Str) : Nat := if s = [] then 2 else bytes s

/-- An annotation: the name in parentheses. -/
def typeLeast {S : Type} : Option (Spanned TypeName S) → Nat
  | none => 0
  | some t => nameLeast t.value.asStr + 2

/-- A literal: a word, the digits (with the mark of the radix), the string in quotes. -/
def Literal.least : Literal → Nat
  | .null => 4
  | .bool true => 4
  | .bool false => 5
  | .int .dec digits => bytes digits
  | .int _ digits => bytes digits + 2
  | .decimal text => bytes text
  | .string s => bytes s + 2

/-- A value: the annotation and the literal. -/
def Value.least {S : Type} (v : Value S) : Nat := typeLeast v.typeName + v.literal.value.least

/-- Arguments: each with a space before it. -/
def argsLeast {S : Type} (l : List (Value S)) : Nat := (l.map fun v => v.least + 1).sum

/-- Properties: each with a space before it, and `=`. -/
def propsLeast {S : Type} (l : List (Spanned Str S × Value S)) : Nat :=
  (l.map fun p => nameLeast p.1.value + p.2.least + 2).sum

mutual
/-- A node: with what ends it. -/
def Node.least {S : Type} : Node S → Nat
  | .mk ty name args props children =>
    typeLeast ty + nameLeast name.value + argsLeast args + propsLeast props + childrenLeast children + 1
/-- Children: in braces. -/
def childrenLeast {S : Type} : Option (Spanned (List (Spanned (Node S) S)) S) → Nat
  | none => 0
  | some ⟨_, l⟩ => nodesLeast l + 2
/-- One node after the other. -/
def nodesLeast {S : Type} : List (Spanned (Node S) S) → Nat
  | [] => 0
  | ⟨_, n⟩ :: l => n.least + nodesLeast l
end

/-- A document. -/
def Document.least {S : Type} (d : Document S) : Nat := nodesLeast d.nodes

mutual
/-- The number of nodes, at any depth. -/
def Node.count {S : Type} : Node S → Nat
  | .mk _ _ _ _ children => childrenCount children + 1
/-- The number of nodes in braces. -/
def childrenCount {S : Type} : Option (Spanned (List (Spanned (Node S) S)) S) → Nat
  | none => 0
  | some ⟨_, l⟩ => nodesCount l
/-- The number of nodes in a list. -/
def nodesCount {S : Type} : List (Spanned (Node S) S) → Nat
  | [] => 0
  | ⟨_, n⟩ :: l => n.count + nodesCount l
end

mutual
/-- The number of values (arguments and properties), at any depth. -/
def Node.entries {S : Type} : Node S → Nat
  | .mk _ _ args props children => args.length + props.length + childrenEntries children
/-- The number of values in braces. -/
def childrenEntries {S : Type} : Option (Spanned (List (Spanned (Node S) S)) S) → Nat
  | none => 0
  | some ⟨_, l⟩ => nodesEntries l
/-- The number of values in a list of nodes. -/
def nodesEntries {S : Type} : List (Spanned (Node S) S) → Nat
  | [] => 0
  | ⟨_, n⟩ :: l => n.entries + nodesEntries l
end

end Knuffel
