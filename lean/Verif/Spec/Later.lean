import Verif.Spec.Doc
import Verif.Model.Errors
/-!
# Positions further down

Independent specification for C77: what happens to a position when complete lines are put
before the text.
-/

namespace Knuffel

/-- The position `bytes` bytes and `lines` lines further down, in the same column. -/
def LinePos.later (bytes lines : Nat) (p : LinePos) : LinePos := ⟨p.offset + bytes, p.line + lines, p.column⟩

/-- The span with both ends further down. -/
def laterSp (bytes lines : Nat) (s : Sp LinePos) : Sp LinePos := ⟨s.start.later bytes lines, s.stop.later bytes lines⟩

/-- The document with all spans further down. -/
def Document.later (bytes lines : Nat) (d : Document (Sp LinePos)) : Document (Sp LinePos) := d.mapSpan (laterSp bytes lines)

/-- The diagnostic with all spans further down. -/
def PErr.later (bytes lines : Nat) (e : PErr LinePos) : PErr LinePos := e.mapSpan (laterSp bytes lines)

/-- A text that ends a line, with a line feed that is not the second half of CR LF. -/
def EndsLine (pre : Str) : Prop := ∃ x, pre = x ++ ['\n'] ∧ x.getLast? ≠ some '\r'

end Knuffel
