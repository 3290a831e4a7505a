import Verif.Spec.Diag
/-!
# Specification: how messages quote the text
-/

namespace Knuffel
open Cst

/-- The character `c` is shown as `t`: visible ASCII characters and the space as they are, the others
as an escape. -/
inductive ShownAs : Char → Str → Prop where
  | visible {c : Char} : ' ' ≤ c → c ≤ '~' → ShownAs c [c]
  | tab : ShownAs '\t' ['\\', 't']
  | return : ShownAs '\r' ['\\', 'r']
  | newline : ShownAs '\n' ['\\', 'n']
  | code {c : Char} {hex : Str} : (c < ' ' ∨ '~' < c) → c ≠ '\t' → c ≠ '\r' → c ≠ '\n' →
    hex ≠ [] → (∀ h ∈ hex, h ∈ "0123456789abcdef".toList) → hexNumber hex = c.toNat → ShownAs c ("\\u{".toList ++ hex ++ "}".toList)

/-- The token that closes what the first one opens. -/
inductive ClosedBy : Str → Str → Prop where
  | string : ClosedBy ['"'] ['"']
  | raw (n : Nat) : ClosedBy ('r' :: List.replicate n '#' ++ ['"']) ('"' :: List.replicate n '#')
  | comment : ClosedBy ['/', '*'] ['*', '/']
  | braces : ClosedBy ['{'] ['}']

/-- A text in backquotes. -/
def quoted (t : Str) : Str := "`".toList ++ t ++ "`".toList

/-- What the message says to be found is shown as it is in the text. -/
def Found (text : Str) (sp : Sp Nat) (shown : Str) : Prop :=
  (∃ c t, Covers text sp [c] ∧ ShownAs c t ∧ shown = quoted t) ∨
  (sp = ⟨byteLen text, byteLen text⟩ ∧ shown = "end of input".toList) ∨
  (∃ w ∈ keywords, Covers text sp w ∧ shown = quoted w) ∨
  (∃ n : Num, n.Ok ∧ Covers text sp n.text ∧ shown = "number".toList) ∨
  (∃ w ∈ keywords, CoversName text sp w ∧ shown = "keyword".toList)

end Knuffel
