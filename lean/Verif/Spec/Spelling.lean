import Verif.Spec.Cst
/-!
# Specification: spellings of strings

The ways to write a given string between double quotes.  Nothing here models
code, and nothing refers to the parser.
-/

namespace Knuffel.Cst

/-- The ways to write the character `c` in a quoted string: as it is, with a short
escape, or by its number with one to six hexadecimal digits. -/
inductive Spelling : Char → Str → Prop where
  | plain (c : Char) (h1 : c ≠ '"') (h2 : c ≠ '\\') : Spelling c [c]
  | short (e c : Char) (h : (e, c) ∈ escapes) : Spelling c ['\\', e]
  | hex (c : Char) (digits : Str) (h1 : 1 ≤ digits.length) (h2 : digits.length ≤ 6)
      (h3 : ∀ d ∈ digits, d ∈ hexDigits.map Prod.fst) (h4 : hexNumber digits = c.toNat) :
      Spelling c ("\\u{".toList ++ digits ++ ['}'])

/-- The ways to write a string, character by character. -/
inductive Spelled : Str → Str → Prop where
  | nil : Spelled [] []
  | cons {c : Char} {s t t' : Str} (h : Spelling c t) (h' : Spelled s t') : Spelled (c :: s) (t ++ t')

end Knuffel.Cst
