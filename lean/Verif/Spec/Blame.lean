import Verif.Spec.Cst
/-!
# Specification: texts in which the reported place can be trusted

Used to say when the character that the parser complains about is really where things
went wrong.  Nothing here models code.
-/

namespace Knuffel.Cst

/-- A word may begin after `pre`: at the beginning of the text, and after anything but a letter or
a digit of a word (the characters of bare identifiers, save the signs and the byte order mark). -/
def WordStart (pre : Str) : Prop :=
  ∀ c, pre.getLast? = some c → ¬ IdentChar c ∨ c ∈ wsChars ∨ c = '+' ∨ c = '-'

/-- Nothing in the text leads the parser astray: there is no `/*/`, and every `\u` is followed by the code of a
character in braces; where a word may begin, raw strings that are opened are also closed, and no number with a sign stands before an
equals sign. -/
structure Straight (s : Str) : Prop where
  tie : ¬ ['/', '*', '/'] <:+: s
  code : ∀ pre post, s = pre ++ '\\' :: 'u' :: post → ∃ hex rest, (StrChar.unicode hex).Ok ∧ post = '{' :: hex ++ '}' :: rest
  raw : ∀ pre n post, s = pre ++ ('r' :: List.replicate n '#' ++ '"' :: post) → WordStart pre → rawClose n <:+: post
  num : ∀ pre (n : Num) post, n.Ok → s = pre ++ (n.text ++ '=' :: post) → WordStart pre →
    n.text.head? ≠ some '+' ∧ n.text.head? ≠ some '-'

end Knuffel.Cst
