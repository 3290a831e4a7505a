import Verif.Spec.Cbor
/-!
# Bytes that stand for a document

More than the encoder writes: numbers may be written with more bytes than necessary, and every
record may have further fields at its end, as a later version might write them.  Nothing here
refers to the codec.
-/

namespace Knuffel
namespace Cbor

/-- The head of an item (RFC 8949, section 3), not necessarily as short as possible. -/
def AnyHead (major n : Nat) (bs : List UInt8) : Prop :=
  ∃ (first : UInt8) (arg : List UInt8) (info : Nat), bs = first :: arg ∧ first.toNat = major * 32 + info ∧
    ((info ≤ 23 ∧ n = info ∧ arg = []) ∨
     (info = 24 ∧ arg.length = 1 ∧ bigEndian arg = n) ∨
     (info = 25 ∧ arg.length = 2 ∧ bigEndian arg = n) ∨
     (info = 26 ∧ arg.length = 4 ∧ bigEndian arg = n) ∨
     (info = 27 ∧ arg.length = 8 ∧ bigEndian arg = n))

mutual
/-- One data item of any type, all lengths being given in the heads. -/
inductive WellFormed : List UInt8 → Prop
  | unsigned {n h} : AnyHead 0 n h → WellFormed h
  | negative {n h} : AnyHead 1 n h → WellFormed h
  | bytes {h bs} : AnyHead 2 bs.length h → WellFormed (h ++ bs)
  | text {s h} : AnyHead 3 (utf8 s).length h → WellFormed (h ++ utf8 s)
  | array {n h bs} : AnyHead 4 n h → Sequence n bs → WellFormed (h ++ bs)
  | map {n h bs} : AnyHead 5 n h → Sequence (2 * n) bs → WellFormed (h ++ bs)
  | tag {n h bs} : AnyHead 6 n h → WellFormed bs → WellFormed (h ++ bs)
  | simple {n h} : AnyHead 7 n h → WellFormed h
/-- So many data items one after the other. -/
inductive Sequence : Nat → List UInt8 → Prop
  | nil : Sequence 0 []
  | cons {n a b} : WellFormed a → Sequence n b → Sequence (n + 1) (a ++ b)
end

/-- Each of the parts is of the form that is asked of it. -/
def Each : List (List UInt8 → Prop) → List UInt8 → Prop
  | [], bs => bs = []
  | p :: ps, bs => ∃ a b, p a ∧ Each ps b ∧ bs = a ++ b

/-- An array that begins with these fields; others may follow. -/
def Record (fields : List (List UInt8 → Prop)) (bs : List UInt8) : Prop :=
  ∃ h a k more, AnyHead 4 (fields.length + k) h ∧ Each fields a ∧ Sequence k more ∧ bs = h ++ (a ++ more)

/-- A text. -/
def TextBytes (s : Str) (bs : List UInt8) : Prop := ∃ h, AnyHead 3 (utf8 s).length h ∧ bs = h ++ utf8 s

section
variable {S : Type} (span : S → List UInt8 → Prop)

/-- A type name, or null. -/
def TypeBytes : Option (Spanned TypeName S) → List UInt8 → Prop
  | none => fun bs => bs = [0xf6]
  | some t => Record [span t.span, TextBytes t.value.asStr]
/-- A radix is its base. -/
def RadixBytes : Radix → List UInt8 → Prop
  | .bin => AnyHead 0 2
  | .oct => AnyHead 0 8
  | .dec => AnyHead 0 10
  | .hex => AnyHead 0 16
/-- A kind of literal with what belongs to it. -/
def KindBytes (kind : Nat) (p : List UInt8 → Prop) (bs : List UInt8) : Prop :=
  ∃ h a, AnyHead 4 2 h ∧ Each [AnyHead 0 kind, p] a ∧ bs = h ++ a
/-- A literal; to a null belongs nothing, and whatever stands there does not matter. -/
def LiteralBytes : Literal → List UInt8 → Prop
  | .null => KindBytes 0 WellFormed
  | .bool b => KindBytes 1 (Record [fun bs => bs = [if b then 0xf5 else 0xf4]])
  | .int r ds => KindBytes 2 (Record [Record [RadixBytes r, TextBytes ds]])
  | .decimal t => KindBytes 3 (Record [TextBytes t])
  | .string s => KindBytes 4 (Record [TextBytes s])
/-- A value: its type name and its literal. -/
def ValueBytes (v : Value S) : List UInt8 → Prop :=
  Record [TypeBytes span v.typeName, Record [span v.literal.span, LiteralBytes v.literal.value]]
/-- Arguments. -/
def ArgsBytes (args : List (Value S)) (bs : List UInt8) : Prop :=
  ∃ h a, AnyHead 4 args.length h ∧ Each (args.map (ValueBytes span)) a ∧ bs = h ++ a
/-- Properties. -/
def PropsBytes (props : List (Spanned Str S × Value S)) (bs : List UInt8) : Prop :=
  ∃ h a, AnyHead 5 props.length h ∧
    Each (props.flatMap fun kv => [Record [span kv.1.span, TextBytes kv.1.value], ValueBytes span kv.2]) a ∧ bs = h ++ a

mutual
/-- A node: type name, name, arguments, properties, children. -/
def NodeBytes : Node S → List UInt8 → Prop
  | .mk t n args props children, bs => ∃ h a k more, AnyHead 4 (4 + k) h ∧
    Each [TypeBytes span t, Record [span n.span, TextBytes n.value], ArgsBytes span args, PropsBytes span props] a ∧
    ChildrenBytes children k more ∧ bs = h ++ (a ++ more)
/-- The children and further fields.  What is not there is null, or is not written if nothing follows. -/
def ChildrenBytes : Option (Spanned (List (Spanned (Node S) S)) S) → Nat → List UInt8 → Prop
  | none, k, bs => (k = 0 ∧ bs = []) ∨ ∃ j more, k = j + 1 ∧ Sequence j more ∧ bs = 0xf6 :: more
  | some ⟨s, l⟩, k, bs => ∃ j a more, k = j + 1 ∧
    Record [span s, fun b => ∃ h c, AnyHead 4 l.length h ∧ NodesBytes l c ∧ b = h ++ c] a ∧ Sequence j more ∧ bs = a ++ more
/-- The nodes with their spans. -/
def NodesBytes : List (Spanned (Node S) S) → List UInt8 → Prop
  | [], bs => bs = []
  | ⟨s, n⟩ :: l, bs => ∃ a b, Record [span s, NodeBytes n] a ∧ NodesBytes l b ∧ bs = a ++ b
end

/-- A document: the array of its nodes is its only field. -/
def DocumentBytes (d : Document S) : List UInt8 → Prop :=
  Record [fun b => ∃ h c, AnyHead 4 d.nodes.length h ∧ NodesBytes span d.nodes c ∧ b = h ++ c]
end

/-- A span of bytes. -/
def SpanBytes (s : Sp Nat) : List UInt8 → Prop := Record [AnyHead 0 s.start, AnyHead 0 s.stop]
/-- A position with line and column. -/
def PosBytes (p : LinePos) : List UInt8 → Prop := Record [AnyHead 0 p.offset, AnyHead 0 p.line, AnyHead 0 p.column]
/-- A span with lines and columns. -/
def LineSpanBytes (s : Sp LinePos) : List UInt8 → Prop := Record [PosBytes s.start, PosBytes s.stop]

end Cbor
end Knuffel
