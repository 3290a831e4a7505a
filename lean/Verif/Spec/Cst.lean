import Verif.Model.Ast
/-!
# Specification: concrete syntax

A declarative description of the KDL syntax accepted by knuffel, independent of
the parser: *concrete syntax trees* that carry every choice a writer of a
document has (which white space, which comments, which newline, how a string is
escaped, ...), together with

* `text`   — the characters of the tree,
* `value`  — what the tree means (the abstract syntax, with spans computed from
             the position of the tree in the text),
* `Ok`     — which trees are legal.  Some conditions mention the text `follow`
             that comes after the tree (e.g. a line comment without newline is
             only legal at the end of the text).

Nothing here refers to the parser; from the model only the abstract syntax is
used.
-/

namespace Knuffel.Cst

/-! ### Character classes -/

/-- The newline characters. -/
def newlineChars : List Char := ['\n', '\r', '\x0c', '\u0085', '\u2028', '\u2029']

/-- Unicode white space other than space, tab and the byte order mark. -/
def uniSpaces : List Char :=
  ['\u00a0', '\u1680', '\u2000', '\u2001', '\u2002', '\u2003', '\u2004', '\u2005', '\u2006',
   '\u2007', '\u2008', '\u2009', '\u200a', '\u202f', '\u205f', '\u3000']

/-- White space inside a line. -/
def wsChars : List Char := [' ', '\t', '\ufeff'] ++ uniSpaces

/-- Punctuation that cannot be part of a bare identifier. -/
def punct : List Char :=
  ['\\', '/', '(', ')', '{', '}', '<', '>', ';', '[', ']', '=', ',', '"']

/-- A character of a bare identifier.  (The byte order mark is one.) -/
def IdentChar (c : Char) : Prop :=
  0x21 < c.toNat ∧ c ∉ punct ∧ c ∉ uniSpaces ∧ c ∉ newlineChars

/-- The decimal digits. -/
def decDigits : List Char := "0123456789".toList

/-- First character of a bare identifier: as the others, or `!`; no digit. -/
def IdentStart (c : Char) : Prop := (IdentChar c ∨ c = '!') ∧ c ∉ decDigits

/-- The reserved words. -/
def keywords : List Str := ["true".toList, "false".toList, "null".toList]

/-- The shape of a bare identifier: no digit at the front, also not after a sign. -/
def IdentShape : Str → Prop
  | [] => False
  | [c] => c = '+' ∨ c = '-' ∨ IdentStart c
  | c :: d :: rest =>
    ((c = '+' ∨ c = '-') ∧ IdentStart d ∨ (c ≠ '+' ∧ c ≠ '-' ∧ IdentStart c ∧ IdentChar d)) ∧
    ∀ x ∈ rest, IdentChar x

/-- A bare identifier. -/
def BareIdent (s : Str) : Prop := IdentShape s ∧ s ∉ keywords

/-! ### Newlines, white space, comments -/

/-- A newline. -/
inductive Newline where
  | lf | crlf | cr | ff | nel | ls | ps
deriving DecidableEq, Repr

/-- Its characters. -/
def Newline.text : Newline → Str
  | .lf => ['\n']
  | .crlf => ['\r', '\n']
  | .cr => ['\r']
  | .ff => ['\x0c']
  | .nel => ['\u0085']
  | .ls => ['\u2028']
  | .ps => ['\u2029']

/-- A carriage return followed by a line feed is one newline, not two. -/
def Newline.Ok (follow : Str) : Newline → Prop
  | .cr => follow.head? ≠ some '\n'
  | _ => True

/-- The inside of a block comment. -/
inductive Block where
  | nil
  | char (c : Char) (rest : Block)
  | nested (inner rest : Block)
deriving DecidableEq, Repr

/-- Characters of the inside of a block comment. -/
def Block.text : Block → Str
  | .nil => []
  | .char c rest => c :: rest.text
  | .nested inner rest => '/' :: '*' :: inner.text ++ '*' :: '/' :: rest.text

/-- A plain character does not close the comment, nor does it open a nested one; but, unless
`strict`, the last one may be a `/` before the `*/` that closes the comment. -/
def Block.Ok (strict : Bool) : Block → Prop
  | .nil => True
  | .char c rest =>
    (c = '*' → (rest.text ++ ['*', '/']).head? ≠ some '/') ∧
    (c = '/' → (rest.text ++ ['*', '/']).head? = some '*' → strict = false ∧ rest = .nil) ∧
    rest.Ok strict
  | .nested inner rest => inner.Ok strict ∧ rest.Ok strict

/-- Reading from left to right with `n` comments open, the text after the end of the
outermost comment; `none` if it does not end.  (The overlapping `/*/` counts as an
opening.) -/
def afterComment : Nat → Str → Option Str
  | 0, s => some s
  | _ + 1, [] => none
  | n + 1, '*' :: '/' :: s => afterComment n s
  | n + 1, '/' :: '*' :: s => afterComment (n + 2) s
  | n + 1, _ :: s => afterComment (n + 1) s

/-- The characters `/*/` do not occur. -/
def NoTie (s : Str) : Prop := ¬ ['/', '*', '/'] <:+: s

/-- White space: a space character or a block comment. -/
inductive Ws where
  | char (c : Char)
  | block (b : Block)
deriving DecidableEq, Repr

/-- Its characters. -/
def Ws.text : Ws → Str
  | .char c => [c]
  | .block b => '/' :: '*' :: b.text ++ ['*', '/']

/-- Legal white space. -/
def Ws.Ok (strict : Bool) : Ws → Prop
  | .char c => c ∈ wsChars
  | .block b => b.Ok strict

/-- A line comment with the newline that ends it (none at the end of the text). -/
structure LineComment where
  body : Str
  stop : Option Newline
deriving DecidableEq, Repr

/-- Characters of an optional newline. -/
def stopText : Option Newline → Str
  | some n => n.text
  | none => []

/-- Its characters. -/
def LineComment.text (c : LineComment) : Str := '/' :: '/' :: c.body ++ stopText c.stop

/-- A line comment extends to the next newline or to the end of the text. -/
def LineComment.Ok (follow : Str) (c : LineComment) : Prop :=
  (∀ x ∈ c.body, x ∉ newlineChars) ∧
  match c.stop with
  | some n => n.Ok follow
  | none => follow = []

/-- What ends an escaped line. -/
inductive EscEnd where
  | comment (c : LineComment)
  | newline (n : Newline)
deriving DecidableEq, Repr

/-- Its characters. -/
def EscEnd.text : EscEnd → Str
  | .comment c => c.text
  | .newline n => n.text

/-- Legality. -/
def EscEnd.Ok (follow : Str) : EscEnd → Prop
  | .comment c => c.Ok follow
  | .newline n => n.Ok follow

/-- Space between the parts of a node: white space or an escaped newline. -/
inductive Space where
  | ws (w : Ws)
  | esc (l : List Ws) (e : EscEnd)
deriving DecidableEq, Repr

/-- Its characters. -/
def Space.text : Space → Str
  | .ws w => w.text
  | .esc l e => '\\' :: (l.flatMap Ws.text ++ e.text)

/-- Legality. -/
def Space.Ok (strict : Bool) (follow : Str) : Space → Prop
  | .ws w => w.Ok strict
  | .esc l e => (∀ w ∈ l, w.Ok strict) ∧ e.Ok follow

/-- Characters of a sequence of spaces. -/
def spacesText (l : List Space) : Str := l.flatMap Space.text

/-- Legality of a sequence of spaces. -/
def SpacesOk (strict : Bool) (follow : Str) : List Space → Prop
  | [] => True
  | x :: l => x.Ok strict (spacesText l ++ follow) ∧ SpacesOk strict follow l

/-- Space between nodes. -/
inductive Line where
  | newline (n : Newline)
  | ws (w : Ws)
  | comment (c : LineComment)
deriving DecidableEq, Repr

/-- Its characters. -/
def Line.text : Line → Str
  | .newline n => n.text
  | .ws w => w.text
  | .comment c => c.text

/-- Legality. -/
def Line.Ok (strict : Bool) (follow : Str) : Line → Prop
  | .newline n => n.Ok follow
  | .ws w => w.Ok strict
  | .comment c => c.Ok follow

/-- Characters of a sequence of lines. -/
def linesText (l : List Line) : Str := l.flatMap Line.text

/-- Legality of a sequence of lines. -/
def LinesOk (strict : Bool) (follow : Str) : List Line → Prop
  | [] => True
  | x :: l => x.Ok strict (linesText l ++ follow) ∧ LinesOk strict follow l

/-! ### Strings -/

/-- The short escapes and what they mean. -/
def escapes : List (Char × Char) :=
  [('"', '"'), ('\\', '\\'), ('/', '/'), ('b', '\x08'), ('f', '\x0c'), ('n', '\n'), ('r', '\r'),
   ('t', '\t')]

/-- The hexadecimal digits with their values. -/
def hexDigits : List (Char × Nat) :=
  [('0', 0), ('1', 1), ('2', 2), ('3', 3), ('4', 4), ('5', 5), ('6', 6), ('7', 7), ('8', 8),
   ('9', 9), ('a', 10), ('b', 11), ('c', 12), ('d', 13), ('e', 14), ('f', 15), ('A', 10), ('B', 11),
   ('C', 12), ('D', 13), ('E', 14), ('F', 15)]

/-- Value of a hexadecimal digit. -/
def hexVal (c : Char) : Nat := ((hexDigits.lookup c)).getD 0

/-- Value of a hexadecimal number. -/
def hexNumber (s : Str) : Nat := s.foldl (fun n c => 16 * n + hexVal c) 0

/-- One character of a quoted string. -/
inductive StrChar where
  | plain (c : Char)
  | esc (c : Char)
  | unicode (hex : Str)
deriving DecidableEq, Repr

/-- Its characters in the source. -/
def StrChar.text : StrChar → Str
  | .plain c => [c]
  | .esc c => ['\\', c]
  | .unicode h => '\\' :: 'u' :: '{' :: h ++ ['}']

/-- The character it stands for. -/
def StrChar.value : StrChar → Char
  | .plain c => c
  | .esc c => (escapes.lookup c).getD c
  | .unicode h => Char.ofNat (hexNumber h)

/-- Legality: short escapes from the table; one to six hexadecimal digits that
denote a Unicode scalar value. -/
def StrChar.Ok : StrChar → Prop
  | .plain c => c ≠ '"' ∧ c ≠ '\\'
  | .esc c => c ∈ escapes.map Prod.fst
  | .unicode h => 1 ≤ h.length ∧ h.length ≤ 6 ∧ (∀ c ∈ h, c ∈ hexDigits.map Prod.fst) ∧
      (hexNumber h < 0xD800 ∨ (0xDFFF < hexNumber h ∧ hexNumber h < 0x110000))

/-- Characters of a quoted string. -/
def quotedText (l : List StrChar) : Str := '"' :: l.flatMap StrChar.text ++ ['"']

/-- A string literal: quoted or raw. -/
inductive StrLit where
  | quoted (l : List StrChar)
  | raw (hashes : Nat) (body : Str)
deriving DecidableEq, Repr

/-- The end of a raw string. -/
def rawClose (n : Nat) : Str := '"' :: List.replicate n '#'

/-- Its characters. -/
def StrLit.text : StrLit → Str
  | .quoted l => quotedText l
  | .raw n b => 'r' :: List.replicate n '#' ++ '"' :: b ++ rawClose n

/-- The string it stands for. -/
def StrLit.value : StrLit → Str
  | .quoted l => l.map StrChar.value
  | .raw _ b => b

/-- Legality: the body of a raw string does not contain the closing sequence. -/
def StrLit.Ok : StrLit → Prop
  | .quoted l => ∀ c ∈ l, c.Ok
  | .raw n b => ¬ rawClose n <:+: b

/-! ### Numbers -/

/-- The digits of a radix. -/
def radixDigits : Radix → List Char
  | .bin => "01".toList
  | .oct => "01234567".toList
  | .dec => decDigits
  | .hex => hexDigits.map Prod.fst

/-- The mark of a radix. -/
def radixMark : Radix → Char
  | .bin => 'b'
  | .oct => 'o'
  | .hex => 'x'
  | .dec => '0' -- not used

/-- A number literal: `digit` is the first digit, the following ones may be
underscores. -/
inductive Num where
  | dec (sign : Option Char) (digit : Char) (digits : Str) (frac : Option (Char × Str))
      (exp : Option (Char × Option Char × Str))
  | radix (sign : Option Char) (r : Radix) (digit : Char) (digits : Str)
deriving DecidableEq, Repr

/-- Characters of the fraction. -/
def fracText : Option (Char × Str) → Str
  | none => []
  | some (d, ds) => '.' :: d :: ds

/-- Characters of the exponent. -/
def expText : Option (Char × Option Char × Str) → Str
  | none => []
  | some (e, s, ds) => e :: s.toList ++ ds

/-- Its characters. -/
def Num.text : Num → Str
  | .dec s d ds fr ex => s.toList ++ d :: ds ++ fracText fr ++ expText ex
  | .radix s r d ds => s.toList ++ '0' :: radixMark r :: d :: ds

/-- Remove the underscores. -/
def strip (s : Str) : Str := s.filter (fun c => c != '_')

/-- What it stands for: with a fraction or an exponent a decimal (kept as text),
otherwise an integer with its radix, sign and digits. -/
def Num.value : Num → Literal
  | .dec s d ds fr ex =>
    if fr.isSome ∨ ex.isSome then .decimal (strip (s.toList ++ d :: ds ++ fracText fr ++ expText ex))
    else .int .dec (strip (s.toList ++ d :: ds))
  | .radix s r d ds => .int r (s.toList ++ strip (d :: ds))

/-- An optional sign. -/
def SignOk (s : Option Char) : Prop := s = none ∨ s = some '+' ∨ s = some '-'

/-- Digits of a radix, with underscores. -/
def DigitsOk (r : Radix) (ds : Str) : Prop := ∀ c ∈ ds, c ∈ radixDigits r ∨ c = '_'

/-- Legality. -/
def Num.Ok : Num → Prop
  | .dec s d ds fr ex =>
    SignOk s ∧ d ∈ decDigits ∧ DigitsOk .dec ds ∧
    (∀ d' ds', fr = some (d', ds') → d' ∈ decDigits ∧ DigitsOk .dec ds') ∧
    (∀ e s' ds', ex = some (e, s', ds') → (e = 'e' ∨ e = 'E') ∧ SignOk s' ∧ DigitsOk .dec ds')
  | .radix s r d ds => SignOk s ∧ r ≠ .dec ∧ d ∈ radixDigits r ∧ DigitsOk r ds

/-! ### Values and entries -/

/-- A literal. -/
inductive Lit where
  | str (s : StrLit)
  | null
  | bool (b : Bool)
  | num (n : Num)
deriving DecidableEq, Repr

/-- Its characters. -/
def Lit.text : Lit → Str
  | .str s => s.text
  | .null => "null".toList
  | .bool true => "true".toList
  | .bool false => "false".toList
  | .num n => n.text

/-- Its value. -/
def Lit.value : Lit → Literal
  | .str s => .string s.value
  | .null => .null
  | .bool b => .bool b
  | .num n => n.value

/-- Legality. -/
def Lit.Ok : Lit → Prop
  | .str s => s.Ok
  | .num n => n.Ok
  | _ => True

/-- A name (of a node or a type): a bare identifier or a quoted string. -/
inductive Name where
  | bare (s : Str)
  | quoted (l : List StrChar)
deriving DecidableEq, Repr

/-- Its characters. -/
def Name.text : Name → Str
  | .bare s => s
  | .quoted l => quotedText l

/-- The name. -/
def Name.value : Name → Str
  | .bare s => s
  | .quoted l => l.map StrChar.value

/-- Legality. -/
def Name.Ok : Name → Prop
  | .bare s => BareIdent s
  | .quoted l => ∀ c ∈ l, c.Ok

/-- Characters of an optional type annotation. -/
def tyText : Option Name → Str
  | none => []
  | some n => '(' :: n.text ++ [')']

/-- Legality of an optional type annotation. -/
def TyOk : Option Name → Prop
  | none => True
  | some n => n.Ok

/-- Its meaning, at position `pos`; `f` makes a span from two positions. -/
def tyValue {S : Type} (f : Nat → Nat → S) (pos : Nat) : Option Name → Option (Spanned TypeName S)
  | none => none
  | some n => some ⟨f pos (pos + (tyText (some n)).length), TypeName.fromString n.value⟩

/-- A value: a literal with an optional type annotation. -/
structure Val where
  ty : Option Name
  lit : Lit
deriving DecidableEq, Repr

/-- Its characters. -/
def Val.text (v : Val) : Str := tyText v.ty ++ v.lit.text

/-- Legality. -/
def Val.Ok (v : Val) : Prop := TyOk v.ty ∧ v.lit.Ok

/-- Its meaning. -/
def Val.value {S : Type} (f : Nat → Nat → S) (pos : Nat) (v : Val) : Value S :=
  ⟨tyValue f pos v.ty,
   ⟨f (pos + (tyText v.ty).length) (pos + (tyText v.ty).length + v.lit.text.length), v.lit.value⟩⟩

/-- The name of a property: a bare identifier or any string literal. -/
inductive PropName where
  | bare (s : Str)
  | str (s : StrLit)
deriving DecidableEq, Repr

/-- Its characters. -/
def PropName.text : PropName → Str
  | .bare s => s
  | .str s => s.text

/-- The name. -/
def PropName.value : PropName → Str
  | .bare s => s
  | .str s => s.value

/-- Legality.  A bare property name must not *begin* with a keyword (knuffel
reads the keyword as an argument; see C25), nor with a byte order mark (which is
read as white space). -/
def PropName.Ok : PropName → Prop
  | .bare s => BareIdent s ∧ (∀ k ∈ keywords, ¬ k <+: s) ∧ s.head? ≠ some '\ufeff'
  | .str s => s.Ok

/-- An argument or a property. -/
inductive Entry where
  | arg (v : Val)
  | prop (n : PropName) (v : Val)
deriving DecidableEq, Repr

/-- Its characters. -/
def Entry.text : Entry → Str
  | .arg v => v.text
  | .prop n v => n.text ++ '=' :: v.text

/-- Legality. -/
def Entry.Ok : Entry → Prop
  | .arg v => v.Ok
  | .prop n v => n.Ok ∧ v.Ok

/-- An entry with the space before it, possibly commented out by a slash-dash
(which may be followed by more space). -/
structure Item where
  before : List Space
  dash : Option (List Space)
  entry : Entry
deriving DecidableEq, Repr

/-- Characters of an optional slash-dash. -/
def dashText : Option (List Space) → Str
  | none => []
  | some l => '/' :: '-' :: spacesText l

/-- Legality of an optional slash-dash. -/
def DashOk (strict : Bool) (follow : Str) : Option (List Space) → Prop
  | none => True
  | some l => SpacesOk strict follow l

/-- Its characters. -/
def Item.text (i : Item) : Str := spacesText i.before ++ dashText i.dash ++ i.entry.text

/-- Legality: at least one space before the entry. -/
def Item.Ok (strict : Bool) (follow : Str) (i : Item) : Prop :=
  i.before ≠ [] ∧
  SpacesOk strict (dashText i.dash ++ i.entry.text ++ follow) i.before ∧
  DashOk strict (i.entry.text ++ follow) i.dash ∧ i.entry.Ok

/-- Characters of the entries of a node. -/
def itemsText (l : List Item) : Str := l.flatMap Item.text

/-- Legality of the entries of a node. -/
def ItemsOk (strict : Bool) (follow : Str) : List Item → Prop
  | [] => True
  | x :: l => x.Ok strict (itemsText l ++ follow) ∧ ItemsOk strict follow l

/-- The arguments: those not commented out, in order. -/
def itemsArgs {S : Type} (f : Nat → Nat → S) : Nat → List Item → List (Value S)
  | _, [] => []
  | pos, i :: l =>
    let here := pos + (spacesText i.before ++ dashText i.dash).length
    match i.dash, i.entry with
    | none, .arg v => v.value f here :: itemsArgs f (pos + i.text.length) l
    | _, _ => itemsArgs f (pos + i.text.length) l

/-- The properties: those not commented out, in order. -/
def itemsProps {S : Type} (f : Nat → Nat → S) : Nat → List Item → List (Spanned Str S × Value S)
  | _, [] => []
  | pos, i :: l =>
    let here := pos + (spacesText i.before ++ dashText i.dash).length
    match i.dash, i.entry with
    | none, .prop n v =>
      (⟨f here (here + n.text.length), n.value⟩, v.value f (here + n.text.length + 1)) ::
        itemsProps f (pos + i.text.length) l
    | _, _ => itemsProps f (pos + i.text.length) l

/-- The property map of a list of properties in source order. -/
def propMap {S : Type} (l : List (Spanned Str S × Value S)) : List (Spanned Str S × Value S) :=
  l.foldl (fun m kv => propInsert kv.1 kv.2 m) []

/-! ### Nodes -/

/-- What ends a node. -/
inductive Term where
  | newline (n : Newline)
  | comment (c : LineComment)
  | semicolon
  | eof
deriving DecidableEq, Repr

/-- Its characters. -/
def Term.text : Term → Str
  | .newline n => n.text
  | .comment c => c.text
  | .semicolon => [';']
  | .eof => []

/-- Legality. -/
def Term.Ok (follow : Str) : Term → Prop
  | .newline n => n.Ok follow
  | .comment c => c.Ok follow
  | .semicolon => True
  | .eof => follow = []

mutual
/-- A node. -/
inductive NodeC where
  | mk (ty : Option Name) (name : Name) (items : List Item) (children : ChildrenC)
      (space : List Space) (term : Term)
/-- An optional children block: the space before it, an optional slash-dash, the
nodes in braces. -/
inductive ChildrenC where
  | none
  | some (space : List Space) (dash : Option (List Space)) (body : BodyC)
/-- A sequence of nodes, each preceded by lines and possibly commented out;
after the last node there may be more lines. -/
inductive BodyC where
  | nil (lines : List Line)
  | cons (lines : List Line) (dash : Option (List Space)) (node : NodeC) (rest : BodyC)
end

mutual
/-- Characters of a node. -/
def NodeC.text : NodeC → Str
  | .mk ty name items children space term =>
    tyText ty ++ name.text ++ itemsText items ++ children.text ++ spacesText space ++ term.text
/-- Characters of a children block. -/
def ChildrenC.text : ChildrenC → Str
  | .none => []
  | .some space dash body => spacesText space ++ dashText dash ++ '{' :: body.text ++ ['}']
/-- Characters of a sequence of nodes. -/
def BodyC.text : BodyC → Str
  | .nil lines => linesText lines
  | .cons lines dash node rest => linesText lines ++ dashText dash ++ node.text ++ rest.text
end

/-- What comes after a bare node name must not be a byte order mark (it would be
read as part of the name). -/
def NameEndOk (follow : Str) : Name → Prop
  | .bare _ => follow.head? ≠ some '\ufeff'
  | .quoted _ => True

/-- A bare name that is not preceded by a type annotation must not begin with a
byte order mark (it would be read as white space). -/
def NameStartOk : Option Name → Name → Prop
  | none, .bare s => s.head? ≠ some '\ufeff'
  | _, _ => True

mutual
/-- Legality of a node. -/
def NodeC.Ok (strict : Bool) (follow : Str) : NodeC → Prop
  | .mk ty name items children space term =>
    TyOk ty ∧ name.Ok ∧ NameStartOk ty name ∧
    NameEndOk (itemsText items ++ children.text ++ spacesText space ++ term.text ++ follow) name ∧
    ItemsOk strict (children.text ++ spacesText space ++ term.text ++ follow) items ∧
    children.Ok strict (spacesText space ++ term.text ++ follow) ∧
    SpacesOk strict (term.text ++ follow) space ∧
    term.Ok follow
/-- Legality of a children block. -/
def ChildrenC.Ok (strict : Bool) (follow : Str) : ChildrenC → Prop
  | .none => True
  | .some space dash body =>
    SpacesOk strict (dashText dash ++ '{' :: body.text ++ '}' :: follow) space ∧
    DashOk strict ('{' :: body.text ++ '}' :: follow) dash ∧
    body.Ok strict ('}' :: follow)
/-- Legality of a sequence of nodes. -/
def BodyC.Ok (strict : Bool) (follow : Str) : BodyC → Prop
  | .nil lines => LinesOk strict follow lines
  | .cons lines dash node rest =>
    LinesOk strict (dashText dash ++ node.text ++ rest.text ++ follow) lines ∧
    DashOk strict (node.text ++ rest.text ++ follow) dash ∧
    node.Ok strict (rest.text ++ follow) ∧
    rest.Ok strict follow
end

mutual
/-- Meaning of a node at position `pos`. -/
def NodeC.value {S : Type} (f : Nat → Nat → S) (pos : Nat) : NodeC → SpannedNode S
  | .mk ty name items children space term =>
    ⟨f pos (pos + (NodeC.mk ty name items children space term).text.length),
     .mk (tyValue f pos ty)
       ⟨f (pos + (tyText ty).length) (pos + (tyText ty).length + name.text.length), name.value⟩
       (itemsArgs f (pos + (tyText ty ++ name.text).length) items)
       (propMap (itemsProps f (pos + (tyText ty ++ name.text).length) items))
       (children.value f (pos + (tyText ty ++ name.text ++ itemsText items).length))⟩
/-- Meaning of a children block: a commented-out block is as no block. -/
def ChildrenC.value {S : Type} (f : Nat → Nat → S) (pos : Nat) :
    ChildrenC → Option (Spanned (List (SpannedNode S)) S)
  | .none => none
  | .some space dash body =>
    match dash with
    | none => some ⟨f (pos + (spacesText space).length)
          (pos + (spacesText space).length + body.text.length + 2),
        body.value f (pos + (spacesText space).length + 1)⟩
    | some _ => none
/-- Meaning of a sequence of nodes: those not commented out, in order. -/
def BodyC.value {S : Type} (f : Nat → Nat → S) (pos : Nat) : BodyC → List (SpannedNode S)
  | .nil _ => []
  | .cons lines dash node rest =>
    let here := pos + (linesText lines ++ dashText dash).length
    match dash with
    | none => node.value f here :: rest.value f (here + node.text.length)
    | some _ => rest.value f (here + node.text.length)
end

end Knuffel.Cst
