import Verif.Spec.Cst
import Verif.Model.Errors
/-!
# Specification: texts with faults that do not stop the parser

Concrete syntax trees as in `Verif.Spec.Cst`, in which two kinds of faults may occur, any number of
times and at any depth: a word (a bare identifier) where an argument should stand, and a `\u` escape
in a quoted string that is none.  `faults` lists them in the order of the text, with their places.

Nothing here models code.
-/

namespace Knuffel.Cst

/-- A fault and where it is; the numbers count characters from the beginning of the text. -/
inductive Fault where
  /-- A word where an argument should stand, from `start` to `stop`. -/
  | word (start stop : Nat)
  /-- In an escape, the character number `i` cannot stand there. -/
  | char (i : Nat)
  /-- The number in the braces from `start` to `stop` is not that of a character. -/
  | code (start stop : Nat)
deriving DecidableEq, Repr

/-! ### Strings with wrong escapes -/

/-- The characters at which the reading of a string resumes after a wrong escape. -/
def resume : List Char := ['}', '"', '\\']

/-- The number of hexadecimal digits, at most six, at the beginning of a text. -/
def hexRun (s : Str) : Nat := ((s.take 6).takeWhile (fun c => decide (c ∈ hexDigits.map Prod.fst))).length

/-- What is wrong with an escape, if `s` are the characters after `\u`, and the first of them is number
`pos`: the number in the braces, or the first character with which it is not an opening brace, one to
six hexadecimal digits and a closing brace. -/
def escFault (pos : Nat) : Str → Fault
  | '{' :: r =>
    if 0 < hexRun r ∧ r[hexRun r]? = some '}' then .code pos (pos + hexRun r + 2)
    else .char (pos + hexRun r + 1)
  | _ => .char pos

/-- A piece of a quoted string: a character as in `StrChar`, or a wrong escape: `\u` and the characters
up to the next closing brace, quote or backslash. -/
inductive Piece where
  | good (c : StrChar)
  | bad (w : Str)
deriving DecidableEq, Repr

/-- Its characters in the source. -/
def Piece.text : Piece → Str
  | .good c => c.text
  | .bad w => '\\' :: 'u' :: w

/-- Which pieces may stand before `follow`. -/
def Piece.Ok (follow : Str) : Piece → Prop
  | .good c => c.Ok
  | .bad w => (∀ c ∈ w, c ∉ resume) ∧ (∃ c ∈ resume, follow.head? = some c) ∧
      ¬ ∃ h, w = '{' :: h ∧ follow.head? = some '}' ∧ (StrChar.unicode h).Ok

/-- Characters of a sequence of pieces. -/
def piecesText (l : List Piece) : Str := l.flatMap Piece.text

/-- Which sequences of pieces may stand before `follow`. -/
def PiecesOk (follow : Str) : List Piece → Prop
  | [] => True
  | p :: l => p.Ok (piecesText l ++ follow) ∧ PiecesOk follow l

/-- The faults in a sequence of pieces that begins at `pos` and stands before `follow`. -/
def piecesFaults (follow : Str) : Nat → List Piece → List Fault
  | _, [] => []
  | pos, .good c :: l => piecesFaults follow (pos + c.text.length) l
  | pos, .bad w :: l =>
    escFault (pos + 2) (w ++ (piecesText l ++ follow)) :: piecesFaults follow (pos + (Piece.bad w).text.length) l

/-- Characters of a quoted string. -/
def quotedTextF (l : List Piece) : Str := '"' :: (piecesText l ++ ['"'])

/-- Which quoted strings are meant. -/
def QuotedOk (l : List Piece) : Prop := PiecesOk ['"'] l

/-- The faults in a quoted string. -/
def quotedFaults (pos : Nat) (l : List Piece) : List Fault := piecesFaults ['"'] (pos + 1) l

/-! ### Names, values, entries -/

/-- A name. -/
inductive NameF where
  | bare (s : Str)
  | quoted (l : List Piece)
deriving DecidableEq, Repr

/-- Its characters. -/
def NameF.text : NameF → Str
  | .bare s => s
  | .quoted l => quotedTextF l

/-- Legality, apart from escapes. -/
def NameF.Ok : NameF → Prop
  | .bare s => BareIdent s
  | .quoted l => QuotedOk l

/-- Its faults. -/
def NameF.faults (pos : Nat) : NameF → List Fault
  | .bare _ => []
  | .quoted l => quotedFaults pos l

/-- Characters of an optional type annotation. -/
def tyTextF : Option NameF → Str
  | none => []
  | some n => '(' :: (n.text ++ [')'])

/-- Legality of an optional type annotation. -/
def TyOkF : Option NameF → Prop
  | none => True
  | some n => n.Ok

/-- Its faults. -/
def tyFaults (pos : Nat) : Option NameF → List Fault
  | none => []
  | some n => n.faults (pos + 1)

/-- A literal: a quoted string with wrong escapes, or one of the grammar. -/
inductive LitF where
  | quoted (l : List Piece)
  | good (l : Lit)
deriving DecidableEq, Repr

/-- Its characters. -/
def LitF.text : LitF → Str
  | .quoted l => quotedTextF l
  | .good l => l.text

/-- Legality, apart from escapes. -/
def LitF.Ok : LitF → Prop
  | .quoted l => QuotedOk l
  | .good l => l.Ok

/-- Its faults. -/
def LitF.faults (pos : Nat) : LitF → List Fault
  | .quoted l => quotedFaults pos l
  | .good _ => []

/-- A value: a literal with an optional type annotation. -/
structure ValF where
  ty : Option NameF
  lit : LitF
deriving DecidableEq, Repr

/-- Its characters. -/
def ValF.text (v : ValF) : Str := tyTextF v.ty ++ v.lit.text

/-- Legality, apart from escapes. -/
def ValF.Ok (v : ValF) : Prop := TyOkF v.ty ∧ v.lit.Ok

/-- Its faults. -/
def ValF.faults (pos : Nat) (v : ValF) : List Fault :=
  tyFaults pos v.ty ++ v.lit.faults (pos + (tyTextF v.ty).length)

/-- The name of a property. -/
inductive PropNameF where
  | quoted (l : List Piece)
  | good (n : PropName)
deriving DecidableEq, Repr

/-- Its characters. -/
def PropNameF.text : PropNameF → Str
  | .quoted l => quotedTextF l
  | .good n => n.text

/-- Legality, apart from escapes. -/
def PropNameF.Ok : PropNameF → Prop
  | .quoted l => QuotedOk l
  | .good n => n.Ok

/-- Its faults. -/
def PropNameF.faults (pos : Nat) : PropNameF → List Fault
  | .quoted l => quotedFaults pos l
  | .good _ => []

/-- An argument, a property, or a word where an argument should stand. -/
inductive EntryF where
  | arg (v : ValF)
  | prop (n : PropNameF) (v : ValF)
  | word (s : Str)
deriving DecidableEq, Repr

/-- Its characters. -/
def EntryF.text : EntryF → Str
  | .arg v => v.text
  | .prop n v => n.text ++ '=' :: v.text
  | .word s => s

/-- Legality, apart from the faults.  (A word is one that may be the name of a property, see
`PropName.Ok`; and a byte order mark after it would be part of it.) -/
def EntryF.Ok (follow : Str) : EntryF → Prop
  | .arg v => v.Ok
  | .prop n v => n.Ok ∧ v.Ok
  | .word s => (PropName.bare s).Ok ∧ follow.head? ≠ some '\ufeff'

/-- Its faults. -/
def EntryF.faults (pos : Nat) : EntryF → List Fault
  | .arg v => v.faults pos
  | .prop n v => n.faults pos ++ v.faults (pos + n.text.length + 1)
  | .word s => [.word pos (pos + s.length)]

/-- An entry with the space before it, possibly commented out by a slash-dash. -/
structure ItemF where
  before : List Space
  dash : Option (List Space)
  entry : EntryF
deriving DecidableEq, Repr

/-- Its characters. -/
def ItemF.text (i : ItemF) : Str := spacesText i.before ++ dashText i.dash ++ i.entry.text

/-- Legality, apart from the faults. -/
def ItemF.Ok (follow : Str) (i : ItemF) : Prop :=
  i.before ≠ [] ∧
  SpacesOk true (dashText i.dash ++ i.entry.text ++ follow) i.before ∧
  DashOk true (i.entry.text ++ follow) i.dash ∧ i.entry.Ok follow

/-- Its faults; also those of an entry that is commented out. -/
def ItemF.faults (pos : Nat) (i : ItemF) : List Fault :=
  i.entry.faults (pos + (spacesText i.before ++ dashText i.dash).length)

/-- Characters of the entries of a node. -/
def itemsTextF (l : List ItemF) : Str := l.flatMap ItemF.text

/-- Legality of the entries of a node, apart from the faults. -/
def ItemsOkF (follow : Str) : List ItemF → Prop
  | [] => True
  | x :: l => x.Ok (itemsTextF l ++ follow) ∧ ItemsOkF follow l

/-- Their faults. -/
def itemsFaults : Nat → List ItemF → List Fault
  | _, [] => []
  | pos, i :: l => i.faults pos ++ itemsFaults (pos + i.text.length) l

/-! ### Nodes -/

mutual
/-- A node. -/
inductive NodeF where
  | mk (ty : Option NameF) (name : NameF) (items : List ItemF) (children : ChildrenF)
      (space : List Space) (term : Term)
/-- An optional children block. -/
inductive ChildrenF where
  | none
  | some (space : List Space) (dash : Option (List Space)) (body : BodyF)
/-- A sequence of nodes. -/
inductive BodyF where
  | nil (lines : List Line)
  | cons (lines : List Line) (dash : Option (List Space)) (node : NodeF) (rest : BodyF)
end

mutual
/-- Characters of a node. -/
def NodeF.text : NodeF → Str
  | .mk ty name items children space term =>
    tyTextF ty ++ name.text ++ itemsTextF items ++ children.text ++ spacesText space ++ term.text
/-- Characters of a children block. -/
def ChildrenF.text : ChildrenF → Str
  | .none => []
  | .some space dash body => spacesText space ++ dashText dash ++ '{' :: body.text ++ ['}']
/-- Characters of a sequence of nodes. -/
def BodyF.text : BodyF → Str
  | .nil lines => linesText lines
  | .cons lines dash node rest => linesText lines ++ dashText dash ++ node.text ++ rest.text
end

/-- As `NameEndOk`. -/
def NameEndOkF (follow : Str) : NameF → Prop
  | .bare _ => follow.head? ≠ some '\ufeff'
  | .quoted _ => True

/-- As `NameStartOk`. -/
def NameStartOkF : Option NameF → NameF → Prop
  | none, .bare s => s.head? ≠ some '\ufeff'
  | _, _ => True

mutual
/-- Legality of a node, apart from the faults. -/
def NodeF.Ok (follow : Str) : NodeF → Prop
  | .mk ty name items children space term =>
    TyOkF ty ∧ name.Ok ∧ NameStartOkF ty name ∧
    NameEndOkF (itemsTextF items ++ children.text ++ spacesText space ++ term.text ++ follow) name ∧
    ItemsOkF (children.text ++ spacesText space ++ term.text ++ follow) items ∧
    children.Ok (spacesText space ++ term.text ++ follow) ∧
    SpacesOk true (term.text ++ follow) space ∧
    term.Ok follow
/-- Legality of a children block, apart from the faults. -/
def ChildrenF.Ok (follow : Str) : ChildrenF → Prop
  | .none => True
  | .some space dash body =>
    SpacesOk true (dashText dash ++ '{' :: body.text ++ '}' :: follow) space ∧
    DashOk true ('{' :: body.text ++ '}' :: follow) dash ∧
    body.Ok ('}' :: follow)
/-- Legality of a sequence of nodes, apart from the faults. -/
def BodyF.Ok (follow : Str) : BodyF → Prop
  | .nil lines => LinesOk true follow lines
  | .cons lines dash node rest =>
    LinesOk true (dashText dash ++ node.text ++ rest.text ++ follow) lines ∧
    DashOk true (node.text ++ rest.text ++ follow) dash ∧
    node.Ok (rest.text ++ follow) ∧
    rest.Ok follow
end

mutual
/-- The faults in a node that begins at `pos`. -/
def NodeF.faults (pos : Nat) : NodeF → List Fault
  | .mk ty name items children _ _ =>
    tyFaults pos ty ++ name.faults (pos + (tyTextF ty).length) ++
      itemsFaults (pos + (tyTextF ty ++ name.text).length) items ++
      children.faults (pos + (tyTextF ty ++ name.text ++ itemsTextF items).length)
/-- The faults in a children block. -/
def ChildrenF.faults (pos : Nat) : ChildrenF → List Fault
  | .none => []
  | .some space dash body => body.faults (pos + (spacesText space ++ dashText dash).length + 1)
/-- The faults in a sequence of nodes, also of those that are commented out. -/
def BodyF.faults (pos : Nat) : BodyF → List Fault
  | .nil _ => []
  | .cons lines dash node rest =>
    node.faults (pos + (linesText lines ++ dashText dash).length) ++
      rest.faults (pos + (linesText lines ++ dashText dash ++ node.text).length)
end

/-! ### What is reported -/

/-- The diagnostic that is due for a fault; `f` makes a span from the numbers of two characters. -/
def Fault.Says {O : Type} (text : Str) (f : Nat → Nat → Sp O) : Fault → PErr O → Prop
  | .word i j, e => e = .messageWithHelp (some "unexpected identifier".toList) (f i j)
      "identifiers cannot be used as arguments".toList "consider enclosing in double quotes \"..\"".toList
  | .char i, e => ∃ c label expected, text[i]? = some c ∧ e = .unexpected label (f i (i + 1)) (.char c) expected
  | .code i j, e => e = .message (some "invalid character code".toList) (f i j)
      "converted integer out of range for `char`".toList

/-- The members of two lists are related one by one. -/
inductive Matching {α β : Type} (R : α → β → Prop) : List α → List β → Prop
  | nil : Matching R [] []
  | cons {a b as bs} : R a b → Matching R as bs → Matching R (a :: as) (b :: bs)

end Knuffel.Cst
