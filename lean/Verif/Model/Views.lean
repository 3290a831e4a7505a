import Verif.Model.Display
/-!
# The small views of values

What `Display`, `From` and `Into` make of spans, kinds and type names, and the two constructors of parse errors that the grammar does not use
but `chumsky` could.
-/

namespace Knuffel

/-- `Display` of an unsigned number (std). Used for src/errors.rs:151-159, 216-240. -/
def showNat (n : Nat) : Str := Nat.toDigits 10 n

/-- `Display for Span`. src/span.rs:385-392. -/
def Sp.show (s : Sp Nat) : Str := showNat s.start ++ "..".toList ++ showNat s.stop

/-- `From<Range<usize>> for Span`. src/span.rs:394-398. -/
def Sp.ofRange (start stop : Nat) : Sp Nat := ⟨start, stop⟩

/-- `Display for Kind`. src/decode.rs:197-201. -/
def Kind.show (k : Kind) : Str := k.asStr

/-- `ExpectedKind`. src/errors.rs:528-534 (with `From<Kind>`). -/
structure ExpectedKind where
  kind : Kind

/-- `Display for ExpectedKind`. src/errors.rs:536-540. -/
def ExpectedKind.show (k : ExpectedKind) : Str := k.kind.asStr

/-- `Display for TypeName`. src/ast.rs:285-289 (`Deref` to `str`, 278-283, gives
the same text). -/
def TypeName.show (t : TypeName) : Str := t.asStr

/-- `Into<TypeName> for BuiltinType`. src/ast.rs:291-295. -/
def BuiltinType.into (b : BuiltinType) : TypeName := b.asType

namespace PErr
variable {O : Type}

/-- `with_label`. src/errors.rs:349-358. -/
def withLabel (l : Str) : PErr O → PErr O
  | unexpected _ s f e => unexpected (some l) s f e
  | unclosed _ a o b e f => unclosed l a o b e f
  | message _ s m => message (some l) s m
  | messageWithHelp _ s m h => messageWithHelp (some l) s m h

/-- `unclosed_delimiter`. src/errors.rs:373-388. -/
def unclosedDelimiter (unclosedSpan : Sp O) (unclosed : Char) (span : Sp O) (expected : Char)
    (found : Option Char) : PErr O :=
  .unclosed "delimited".toList unclosedSpan (.char unclosed) span (.char expected) (TokenFormat.ofOpt found)

end PErr

end Knuffel
