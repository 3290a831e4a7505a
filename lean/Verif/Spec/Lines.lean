import Verif.Spec.Cst
/-!
# Specification: lines and columns

What line and column numbers should be.  Nothing here models code.
-/

namespace Knuffel

/-- The number of newlines in a text; a carriage return followed by a line feed
is one newline. -/
def newlines : Str → Nat
  | [] => 0
  | c :: rest =>
    if c = '\r' ∧ rest.head? = some '\n' then newlines rest
    else if c ∈ Cst.newlineChars then newlines rest + 1
    else newlines rest

/-- The part of a text after its last newline character. -/
def currentLine (s : Str) : Str := (s.reverse.takeWhile (fun c => decide (c ∉ Cst.newlineChars))).reverse

/-- The columns a character takes; a tab takes eight. -/
def columns (width : Char → Nat) (c : Char) : Nat := if c = '\t' then 8 else width c

/-- The position after the text `before`: its length in bytes, its number of
newlines, the columns of its last line. -/
def linePos (width : Char → Nat) (before : Str) : LinePos :=
  { offset := byteLen before
    line := newlines before
    column := ((currentLine before).map (columns width)).sum }

/-- The span of the characters number `i` up to `j` (exclusive) of a text. -/
def lineSpan (width : Char → Nat) (text : Str) (i j : Nat) : Sp LinePos :=
  ⟨linePos width (text.take i), linePos width (text.take j)⟩

end Knuffel
