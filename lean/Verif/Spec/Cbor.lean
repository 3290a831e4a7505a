import Verif.Model.Decode
/-!
# What the statements about CBOR speak of

Nothing here refers to the codec.
-/

namespace Knuffel

variable {S : Type}

/-- All the spans in the value satisfy `P`, and its type name `Q`. -/
def Value.Meets (P : S → Prop) (Q : TypeName → Prop) (v : Value S) : Prop :=
  (∀ t, v.typeName = some t → P t.span ∧ Q t.value) ∧ P v.literal.span

mutual
/-- All the spans in the node satisfy `P` and all the type names `Q`, and the properties are in
the order of their names, as they are in a `BTreeMap`. -/
def Node.Meets (P : S → Prop) (Q : TypeName → Prop) : Node S → Prop
  | .mk t n args props children =>
    (∀ x, t = some x → P x.span ∧ Q x.value) ∧ P n.span ∧ (∀ v ∈ args, v.Meets P Q) ∧
    (∀ kv ∈ props, P kv.1.span ∧ kv.2.Meets P Q) ∧ (props.map (·.1.value)).Pairwise (· < ·) ∧ ChildrenMeet P Q children
/-- The same of children. -/
def ChildrenMeet (P : S → Prop) (Q : TypeName → Prop) : Option (Spanned (List (Spanned (Node S) S)) S) → Prop
  | none => True
  | some ⟨s, l⟩ => P s ∧ NodesMeet P Q l
/-- The same of nodes. -/
def NodesMeet (P : S → Prop) (Q : TypeName → Prop) : List (Spanned (Node S) S) → Prop
  | [] => True
  | ⟨s, n⟩ :: l => P s ∧ n.Meets P Q ∧ NodesMeet P Q l
end

/-- The same of a document. -/
def Document.Meets (P : S → Prop) (Q : TypeName → Prop) (d : Document S) : Prop := NodesMeet P Q d.nodes

/-- The numbers are of type `usize`, on a 64-bit platform. -/
def Sp.Usize (s : Sp Nat) : Prop := s.start < 2 ^ 64 ∧ s.stop < 2 ^ 64
/-- The numbers are of type `usize`, on a 64-bit platform. -/
def LinePos.Usize (p : LinePos) : Prop := p.offset < 2 ^ 64 ∧ p.line < 2 ^ 64 ∧ p.column < 2 ^ 64
/-- The numbers are of type `usize`, on a 64-bit platform. -/
def Sp.LineUsize (s : Sp LinePos) : Prop := s.start.Usize ∧ s.stop.Usize

/-! ### Concise Binary Object Representation (RFC 8949) -/

namespace Cbor

/-- The data items that documents are made of. -/
inductive Item where
  | uint (n : Nat)
  | text (s : Str)
  | array (items : List Item)
  | map (entries : List (Item × Item))
  | bool (b : Bool)
  | null

/-- The number written with these bytes, most significant first. -/
def bigEndian : List UInt8 → Nat
  | [] => 0
  | b :: bs => b.toNat * 256 ^ bs.length + bigEndian bs

/-- The head of an item (RFC 8949, section 3), as short as possible (section 4.1): the major type in
the upper three bits and in the lower five the argument, or how many bytes follow with the argument. -/
def IsHead (major n : Nat) (bs : List UInt8) : Prop :=
  ∃ (first : UInt8) (arg : List UInt8) (info : Nat), bs = first :: arg ∧ first.toNat = major * 32 + info ∧
    ((n ≤ 23 ∧ info = n ∧ arg = []) ∨
     (24 ≤ n ∧ n < 2 ^ 8 ∧ info = 24 ∧ arg.length = 1 ∧ bigEndian arg = n) ∨
     (2 ^ 8 ≤ n ∧ n < 2 ^ 16 ∧ info = 25 ∧ arg.length = 2 ∧ bigEndian arg = n) ∨
     (2 ^ 16 ≤ n ∧ n < 2 ^ 32 ∧ info = 26 ∧ arg.length = 4 ∧ bigEndian arg = n) ∨
     (2 ^ 32 ≤ n ∧ n < 2 ^ 64 ∧ info = 27 ∧ arg.length = 8 ∧ bigEndian arg = n))

mutual
/-- The bytes are the encoding of the item. -/
inductive Encodes : Item → List UInt8 → Prop
  | uint {n h} : IsHead 0 n h → Encodes (.uint n) h
  | text {s h} : IsHead 3 (utf8 s).length h → Encodes (.text s) (h ++ utf8 s)
  | array {l h bs} : IsHead 4 l.length h → EncodesAll l bs → Encodes (.array l) (h ++ bs)
  | map {l h bs} : IsHead 5 l.length h → EncodesEntries l bs → Encodes (.map l) (h ++ bs)
  | false : Encodes (.bool false) [0xf4]
  | true : Encodes (.bool true) [0xf5]
  | null : Encodes .null [0xf6]
/-- The bytes are the encodings of the items, one after the other. -/
inductive EncodesAll : List Item → List UInt8 → Prop
  | nil : EncodesAll [] []
  | cons {i l a b} : Encodes i a → EncodesAll l b → EncodesAll (i :: l) (a ++ b)
/-- The bytes are the encodings of keys and values in turn. -/
inductive EncodesEntries : List (Item × Item) → List UInt8 → Prop
  | nil : EncodesEntries [] []
  | cons {k v l a b c} : Encodes k a → Encodes v b → EncodesEntries l c → EncodesEntries ((k, v) :: l) (a ++ (b ++ c))
end

/-! ### The data item of a document -/

section
variable (span : S → Item)

/-- Something with its span. -/
def spannedItem (s : S) (value : Item) : Item := .array [span s, value]
/-- A type name, or null. -/
def typeItem : Option (Spanned TypeName S) → Item
  | none => .null
  | some t => spannedItem span t.span (.text t.value.asStr)
/-- A radix is its base. -/
def radixItem : Radix → Item
  | .bin => .uint 2
  | .oct => .uint 8
  | .dec => .uint 10
  | .hex => .uint 16
/-- A literal: the number of the kind and the array of what belongs to it. -/
def literalItem : Literal → Item
  | .null => .array [.uint 0, .array []]
  | .bool b => .array [.uint 1, .array [.bool b]]
  | .int r ds => .array [.uint 2, .array [.array [radixItem r, .text ds]]]
  | .decimal t => .array [.uint 3, .array [.text t]]
  | .string s => .array [.uint 4, .array [.text s]]
/-- A value: its type name and its literal. -/
def valueItem (v : Value S) : Item := .array [typeItem span v.typeName, spannedItem span v.literal.span (literalItem v.literal.value)]

mutual
/-- A node: type name, name, arguments, properties, and the children if it has braces. -/
def nodeItem : Node S → Item
  | .mk t n args props children =>
    .array ([typeItem span t, spannedItem span n.span (.text n.value), .array (args.map (valueItem span)),
      .map (props.map fun kv => (spannedItem span kv.1.span (.text kv.1.value), valueItem span kv.2))] ++ childrenItem children)
/-- The children, if there are braces. -/
def childrenItem : Option (Spanned (List (Spanned (Node S) S)) S) → List Item
  | none => []
  | some ⟨s, l⟩ => [spannedItem span s (.array (nodeItems l))]
/-- The nodes with their spans. -/
def nodeItems : List (Spanned (Node S) S) → List Item
  | [] => []
  | ⟨s, n⟩ :: l => spannedItem span s (nodeItem n) :: nodeItems l
end

/-- A document: the array of its nodes is its only field. -/
def documentItem (d : Document S) : Item := .array [.array (nodeItems span d.nodes)]

/-- A span of bytes. -/
def spanItem (s : Sp Nat) : Item := .array [.uint s.start, .uint s.stop]
/-- A position with line and column. -/
def posItem (p : LinePos) : Item := .array [.uint p.offset, .uint p.line, .uint p.column]
/-- A span with lines and columns. -/
def lineSpanItem (s : Sp LinePos) : Item := .array [posItem s.start, posItem s.stop]

end
end Cbor

end Knuffel
