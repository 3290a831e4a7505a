import Verif.Spec.Cst
import Verif.Model.Errors
/-!
# Specification: what a diagnostic says about the text

A diagnostic names what was found, points at a place of the text, and for something not
closed also points at where it was opened.  `PErr.TrueOf text e` says that these are facts
about the text.
-/

namespace Knuffel

open Cst

/-- The span is that of an occurrence of the string `w` in the text: after the bytes of what
precedes it, as long as the bytes of `w`. -/
def Covers (text : Str) (sp : Sp Nat) (w : Str) : Prop :=
  ∃ pre post, text = pre ++ w ++ post ∧ sp = ⟨byteLen pre, byteLen pre + byteLen w⟩

/-- `Covers`, and the next character is an equals sign. -/
def CoversName (text : Str) (sp : Sp Nat) (w : Str) : Prop :=
  ∃ pre post, text = pre ++ w ++ '=' :: post ∧ sp = ⟨byteLen pre, byteLen pre + byteLen w⟩

/-- The span is the (empty) one of some place between two characters of `post`, the text after
the first `n` bytes. -/
def PlaceIn (n : Nat) (post : Str) (sp : Sp Nat) : Prop :=
  ∃ p q, post = p ++ q ∧ sp = ⟨n + byteLen p, n + byteLen p⟩

/-- Something that has to be closed: its name, the opening and the closing token of the
message, the text of the opening token, and what comes after that in the text, which does
not close it. -/
inductive NotClosed : (name : Str) → (opening closing : TokenFormat) → (w : Str) → (after : Str) → Prop where
  /-- `"`, and after it there is no sequence of valid characters and escapes up to a `"`. -/
  | string {after : Str} (h : ∀ (l : List StrChar) (rest : Str), (∀ c ∈ l, c.Ok) →
        after ≠ l.flatMap StrChar.text ++ '"' :: rest) :
      NotClosed "string".toList (.char '"') (.char '"') ['"'] after
  /-- `r##"`, and nowhere after it is `"##`. -/
  | raw {n : Nat} {after : Str} (h : ¬ ('"' :: List.replicate n '#') <:+: after) :
      NotClosed "raw string".toList (.openRaw n) (.closeRaw n) ('r' :: List.replicate n '#' ++ ['"']) after
  /-- `/*`, and after it there is no well-nested comment text up to `*/`. -/
  | comment {after : Str} (h : ∀ (b : Block) (rest : Str), b.Ok true → after ≠ b.text ++ '*' :: '/' :: rest) :
      NotClosed "comment".toList (.token "/*".toList) (.token "*/".toList) ['/', '*'] after
  /-- `{`, and after it there are no nodes (as the grammar has them) up to a `}`. -/
  | braces {after : Str} (h : ∀ (b : BodyC) (rest : Str), b.Ok true ('}' :: rest) → after ≠ b.text ++ '}' :: rest) :
      NotClosed "curly braces".toList (.char '{') (.char '}') ['{'] after

/-- The diagnostic is true of the text. -/
def PErr.TrueOf (text : Str) : PErr Nat → Prop
  /- what is said to be found is what is at the span -/
  | .unexpected _ sp found _ =>
    match found with
    | .char c => Covers text sp [c]
    | .eoi => sp = ⟨byteLen text, byteLen text⟩
    | .token w => w ∈ keywords ∧ Covers text sp w
    | .kind k =>
      (k = "number".toList ∧ ∃ n : Num, n.Ok ∧ Covers text sp n.text) ∨
      (k = "keyword".toList ∧ ∃ w ∈ keywords, CoversName text sp w)
    | .openRaw _ => False
    | .closeRaw _ => False
  /- the opening token is where it is said to be and is not closed, the place where the closing
  token is missed is after it -/
  | .unclosed name openedAt opening expectedAt closing found =>
    found = .eoi ∧ ∃ pre w after, text = pre ++ w ++ after ∧
      openedAt = ⟨byteLen pre, byteLen pre + byteLen w⟩ ∧ PlaceIn (byteLen (pre ++ w)) after expectedAt ∧
      NotClosed name opening closing w after
  /- the code of an escape is not that of a character -/
  | .message label sp msg =>
    label = some "invalid character code".toList ∧ msg = "converted integer out of range for `char`".toList ∧
      ∃ h : Str, h ≠ [] ∧ h.length ≤ 6 ∧ (∀ c ∈ h, c ∈ hexDigits.map Prod.fst) ∧
        ((0xD800 ≤ hexNumber h ∧ hexNumber h ≤ 0xDFFF) ∨ 0x10FFFF < hexNumber h) ∧
        Covers text sp ('{' :: h ++ ['}'])
  /- a number before an equals sign, or a bare identifier -/
  | .messageWithHelp label sp msg help =>
    help = "consider enclosing in double quotes \"..\"".toList ∧
    ((label = some "unexpected number".toList ∧ msg = "numbers cannot be used as property names".toList ∧
        ∃ n : Num, n.Ok ∧ CoversName text sp n.text) ∨
      (label = some "unexpected identifier".toList ∧ msg = "identifiers cannot be used as arguments".toList ∧
        ∃ v, BareIdent v ∧ Covers text sp v))

end Knuffel
