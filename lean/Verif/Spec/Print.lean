import Verif.Spec.Doc
/-!
# Specification: writing out a document

A simple printer for documents without spans, and which documents can be made at
all (`Printable`).  Nothing here models code, and nothing refers to the parser.
-/

namespace Knuffel
open Cst (decDigits)

/-- A character of a quoted string: quotes and backslashes are escaped. -/
def printChar (c : Char) : Str := if c = '"' ∨ c = '\\' then ['\\', c] else [c]

/-- A quoted string. -/
def printStr (s : Str) : Str := '"' :: s.flatMap printChar ++ ['"']

/-- Digits with the mark of the radix; the mark goes between the sign and the digits. -/
def markAfterSign (mark ds : Str) : Str :=
  if ds.head? = some '-' ∨ ds.head? = some '+' then ds.take 1 ++ mark ++ ds.drop 1 else mark ++ ds

/-- An integer. -/
def printInt : Radix → Str → Str
  | .dec, ds => ds
  | .bin, ds => markAfterSign "0b".toList ds
  | .oct, ds => markAfterSign "0o".toList ds
  | .hex, ds => markAfterSign "0x".toList ds

/-- A literal. -/
def printLiteral : Literal → Str
  | .null => "null".toList
  | .bool true => "true".toList
  | .bool false => "false".toList
  | .int r ds => printInt r ds
  | .decimal t => t
  | .string s => printStr s

/-- An optional type annotation, always quoted. -/
def printType : Option (Spanned TypeName Unit) → Str
  | none => []
  | some t => '(' :: printStr t.value.asStr ++ [')']

/-- A value. -/
def printValue (v : Value Unit) : Str := printType v.typeName ++ printLiteral v.literal.value

/-- The arguments, each after a space. -/
def printArgs (l : List (Value Unit)) : Str := l.flatMap (fun v => ' ' :: printValue v)

/-- The properties, each after a space; the names are quoted. -/
def printProps (l : List (Spanned Str Unit × Value Unit)) : Str :=
  l.flatMap (fun kv => ' ' :: printStr kv.1.value ++ '=' :: printValue kv.2)

mutual
/-- A node, ended by a newline. -/
def printNode : Node Unit → Str
  | .mk ty name args props children =>
    printType ty ++ printStr name.value ++ printArgs args ++ printProps props ++ printChildren children ++ ['\n']
/-- A children block. -/
def printChildren : Option (Spanned (List (Spanned (Node Unit) Unit)) Unit) → Str
  | none => []
  | some ⟨_, l⟩ => " {".toList ++ printNodes l ++ ['}']
/-- The nodes, one after another. -/
def printNodes : List (Spanned (Node Unit) Unit) → Str
  | [] => []
  | ⟨_, n⟩ :: rest => printNode n ++ printNodes rest
end

/-- A document. -/
def printDoc (d : Document Unit) : Str := printNodes d.nodes

/-! ### Which documents there are -/

/-- The digits of a radix. -/
def digitsOf : Radix → List Char
  | .bin => "01".toList
  | .oct => "01234567".toList
  | .dec => "0123456789".toList
  | .hex => "0123456789abcdefABCDEF".toList

/-- A string is an optional sign followed by a string with the property `P`. -/
def Signed (P : Str → Prop) (s : Str) : Prop := P s ∨ ∃ t, (s = '-' :: t ∨ s = '+' :: t) ∧ P t

/-- One or more decimal digits. -/
def Digits1 (r : Radix) (s : Str) : Prop := s ≠ [] ∧ ∀ c ∈ s, c ∈ digitsOf r

/-- Zero or more decimal digits. -/
def Digits0 (s : Str) : Prop := ∀ c ∈ s, c ∈ digitsOf .dec

/-- The text of a decimal: an optional sign, digits, a fraction or an exponent or both. -/
def DecimalText (s : Str) : Prop :=
  Signed (fun u => ∃ a f e, u = a ++ f ++ e ∧ Digits1 .dec a ∧ f ++ e ≠ [] ∧
    (f = [] ∨ ∃ b, f = '.' :: b ∧ Digits1 .dec b) ∧
    (e = [] ∨ ∃ x b, (x = 'e' ∨ x = 'E') ∧ e = x :: b ∧ Signed Digits0 b)) s

/-- A literal that can be written: the digits of an integer are digits of its radix, the
text of a decimal is a decimal. -/
def Literal.Printable : Literal → Prop
  | .int r ds => Signed (Digits1 r) ds
  | .decimal t => DecimalText t
  | _ => True

/-- A value that can be written; `T` says which type names are allowed. -/
def Value.Printable (T : TypeName → Prop) (v : Value Unit) : Prop :=
  (∀ t, v.typeName = some t → T t.value) ∧ v.literal.value.Printable

mutual
/-- A node that can be written: its values can be written, and its properties are sorted
by name, each name once (they are a map). -/
def Node.Printable (T : TypeName → Prop) : Node Unit → Prop
  | .mk ty _ args props children =>
    (∀ t, ty = some t → T t.value) ∧ (∀ v ∈ args, v.Printable T) ∧ (∀ kv ∈ props, kv.2.Printable T) ∧
    (props.map (·.1.value)).Pairwise (· < ·) ∧ PrintableChildren T children
/-- A children block that can be written. -/
def PrintableChildren (T : TypeName → Prop) : Option (Spanned (List (Spanned (Node Unit) Unit)) Unit) → Prop
  | none => True
  | some ⟨_, l⟩ => PrintableNodes T l
/-- Nodes that can be written. -/
def PrintableNodes (T : TypeName → Prop) : List (Spanned (Node Unit) Unit) → Prop
  | [] => True
  | ⟨_, n⟩ :: rest => n.Printable T ∧ PrintableNodes T rest
end

/-- A document that can be written. -/
def Document.Printable (T : TypeName → Prop) (d : Document Unit) : Prop := PrintableNodes T d.nodes

/-- The names of the built-in types. -/
def builtinTypeNames : List Str :=
  ["u8", "i8", "u16", "i16", "u32", "i32", "u64", "i64", "usize", "isize", "f32", "f64", "base64"].map String.toList

/-- The type names that can be made: a built-in type, or a custom name that is not the
name of a built-in type. -/
def ProperType : TypeName → Prop
  | .builtin _ => True
  | .custom s => s ∉ builtinTypeNames

/-- The type names that knuffel reads back: a built-in type other than `usize` and
`isize`, or a custom name that is not the name of another built-in type. -/
def ReadableType : TypeName → Prop
  | .builtin b => b ≠ .usize ∧ b ≠ .isize
  | .custom s => s ∈ ["usize".toList, "isize".toList] ∨ s ∉ builtinTypeNames

end Knuffel
