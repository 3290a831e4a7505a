/-!
# Spans and token streams

Models `src/span.rs` and the sealed part of `src/traits.rs`.

Rust's `Span(usize, usize)` and `LineSpan(LinePos, LinePos)` are both pairs of
an offset type, so both are instances of `Sp O`; the operations that the code
uses on offsets are collected in the class `Offset`.
`usize` is modelled by `Nat`: offsets are bounded by the length of the text, so
machine overflow cannot happen for any text that fits in memory.
-/

namespace Knuffel

/-- Text: Rust's `str` / `Box<str>` as the list of its `char`s. Used for src/ast.rs:79-80, 88-89. -/
abbrev Str := List Char

/-- A pair of offsets. src/span.rs:36-41 (`Span`) and src/span.rs:62-67 (`LineSpan`). -/
structure Sp (O : Type) where
  start : O
  stop : O
deriving DecidableEq, Repr

/-- What the spans need to know about an offset type: its byte offset, and
moving it by a number of bytes (assumed ASCII, single-width characters by the
code).  src/span.rs:126-142 (`Span`), src/span.rs:205-231 (`LineSpan`). -/
class Offset (O : Type) where
  byte : O → Nat
  fwd : O → Nat → O
  back : O → Nat → O

/-- `usize` offsets. src/span.rs:128-142; `saturating_sub` is `Nat` subtraction. -/
instance : Offset Nat where
  byte o := o
  fwd o n := o + n
  back o n := o - n

/-- src/span.rs:47-57. -/
structure LinePos where
  offset : Nat
  line : Nat
  column : Nat
deriving DecidableEq, Repr

/-- src/span.rs:208-231. -/
instance : Offset LinePos where
  byte o := o.offset
  fwd o n := { o with offset := o.offset + n, column := o.column + n }
  back o n := { o with offset := o.offset - n, column := o.column - n }

namespace Sp
variable {O : Type} [Offset O]

/-- src/span.rs:128-130, 208-214. -/
def atStart (s : Sp O) (chars : Nat) : Sp O := ⟨s.start, Offset.fwd s.start chars⟩
/-- src/span.rs:132-134, 216-218. -/
def atEnd (s : Sp O) : Sp O := ⟨s.stop, s.stop⟩
/-- src/span.rs:136-138, 221-227. -/
def beforeStart (s : Sp O) (chars : Nat) : Sp O := ⟨Offset.back s.start chars, s.start⟩
/-- src/span.rs:140-142, 229-231 (also 89-91). -/
def length (s : Sp O) : Nat := Offset.byte s.stop - Offset.byte s.start
/-- `Into<ErrorSpan>`, the offset and the length of the region that `miette` underlines.
src/span.rs:94-104; `saturating_sub` is `Nat` subtraction. -/
def errorSpan (s : Sp O) : Nat × Nat := (Offset.byte s.start, Offset.byte s.stop - Offset.byte s.start)

end Sp

/-- A token of the stream: a character together with its span. Used for src/traits.rs:130-138. -/
abbrev Tok (O : Type) := Char × Sp O

/-- `str::len`: the length in bytes of the UTF-8 encoding. Used for src/span.rs:148, 172. -/
def byteLen : Str → Nat
  | [] => 0
  | c :: cs => c.utf8Size + byteLen cs

/-- The token stream of `Span::stream`, from a given tracker offset.
src/span.rs:116-123 (`OffsetTracker::next_span`) iterated as in
src/traits.rs:130-138 (`Map::next`). -/
def offsetToks : Nat → Str → List (Tok Nat)
  | _, [] => []
  | off, c :: cs => (c, ⟨off, off + c.utf8Size⟩) :: offsetToks (off + c.utf8Size) cs

/-- End-of-input span of `Span::stream`. src/span.rs:148. -/
def offsetEoi (text : Str) : Sp Nat := ⟨byteLen text, byteLen text⟩

/-- State of `LineTracker`. src/span.rs:77-82. -/
structure LineTracker where
  offset : Nat
  caretReturn : Bool
  line : Nat
  column : Nat
deriving DecidableEq, Repr

/-- The newline characters of src/span.rs:178 and src/span.rs:243. -/
def isLineBreak (c : Char) : Bool :=
  c == '\r' || c == '\n' || c == '\x0c' || c == '\u0085' || c == '\u2028' || c == '\u2029'

/-- `LineTracker::next_span`: new state and the span of the character.
src/span.rs:171-201.  `width` is
`unicode_width::UnicodeWidthChar::width(c).unwrap_or(0)` (external crate,
arbitrary here). -/
def LineTracker.next (width : Char → Nat) (t : LineTracker) (c : Char) : LineTracker × Sp LinePos :=
  let offset' := t.offset + c.utf8Size
  let (line', column') :=
    if c == '\n' && t.caretReturn then (t.line, t.column)
    else if isLineBreak c then (t.line + 1, 0)
    else if c == '\t' then (t.line, t.column + 8)
    else (t.line, t.column + width c)
  ({ offset := offset', caretReturn := c == '\r', line := line', column := column' },
   ⟨⟨t.offset, t.line, t.column⟩, ⟨offset', line', column'⟩⟩)

/-- The token stream of `LineSpan::stream`. src/span.rs:257-268, src/traits.rs:130-138. -/
def lineToks (width : Char → Nat) : LineTracker → Str → List (Tok LinePos)
  | _, [] => []
  | t, c :: cs => (c, (t.next width c).2) :: lineToks width (t.next width c).1 cs

/-- Initial tracker. src/span.rs:261-266. -/
def LineTracker.init : LineTracker := ⟨0, false, 0, 0⟩

/-- The loop computing line and last line of `LineSpan::stream`.
src/span.rs:236-250: arguments are `caret_return`, `line`, `last_line` and the
remaining text; result is `(line, last_line)`. -/
def lastLine : Bool → Nat → Str → Str → Nat × Str
  | _, line, last, [] => (line, last)
  | cr, line, last, c :: cs =>
    if c == '\n' && cr then lastLine (c == '\r') line last cs
    else if isLineBreak c then lastLine (c == '\r') (line + 1) cs cs
    else lastLine (c == '\r') line last cs

/-- End-of-input span of `LineSpan::stream`. src/span.rs:236-258.  `strWidth` is
`unicode_width::UnicodeWidthStr::width` (external crate, arbitrary here). -/
def lineEoi (strWidth : Str → Nat) (text : Str) : Sp LinePos :=
  let r := lastLine false 0 text text
  let eoi : LinePos := { line := r.1, column := strWidth r.2, offset := byteLen text }
  ⟨eoi, eoi⟩

/-- A value with its span. src/span.rs:26-31. -/
structure Spanned (α : Type) (S : Type) where
  span : S
  value : α
deriving DecidableEq, Repr

namespace Spanned
variable {α β S T : Type}

/-- src/span.rs:286-291. -/
def map (f : α → β) (x : Spanned α S) : Spanned β S := ⟨x.span, f x.value⟩
/-- src/span.rs:293-298. -/
def mapSpan (f : S → T) (x : Spanned α S) : Spanned α T := ⟨f x.span, x.value⟩

end Spanned

/-- `DecodeSpan<LineSpan> for Span`. src/span.rs:276-282. -/
def LinePos.toOffsetSpan (s : Sp LinePos) : Sp Nat := ⟨s.start.offset, s.stop.offset⟩

end Knuffel
