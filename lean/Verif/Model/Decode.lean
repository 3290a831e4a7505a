import Verif.Model.Ast
/-!
# Decode errors, the decoding context and the decoder traits

Models `src/decode.rs`, the decode-error half of `src/errors.rs` and the
decoder traits of `src/traits.rs`.

A Rust function `fn(.., ctx: &mut Context<S>) -> Result<T, DecodeError<S>>` is
`D E S T`: it takes the context and either returns a value or an error together
with the updated context, or panics.  `E` is the type of the extension map of
the context (`HashMap<TypeId, Box<dyn Any>>`), which nothing but
`Context::get`/`set` looks into (`Model/Context.lean` gives it).
-/

namespace Knuffel

/-- src/decode.rs:28-43. -/
inductive Kind where
  | int | decimal | string | bool | null
deriving DecidableEq, Repr

/-- `From<&Literal>`. src/decode.rs:203-215. -/
def Kind.ofLiteral : Literal → Kind
  | .int _ _ => .int
  | .decimal _ => .decimal
  | .string _ => .string
  | .bool _ => .bool
  | .null => .null

/-- src/decode.rs:217-231. -/
def Kind.asStr : Kind → Str
  | .int => "integer".toList
  | .decimal => "decimal".toList
  | .string => "string".toList
  | .bool => "boolean".toList
  | .null => "null".toList

/-- src/errors.rs:463-467. -/
structure ExpectedType where
  types : List TypeName
  noType : Bool
deriving DecidableEq, Repr

namespace ExpectedType
/-- `no_type()`. src/errors.rs:471-476. -/
def none : ExpectedType := ⟨[], true⟩
/-- src/errors.rs:478-483. -/
def required (t : TypeName) : ExpectedType := ⟨[t], false⟩
/-- src/errors.rs:488-493. -/
def optional (t : TypeName) : ExpectedType := ⟨[t], true⟩
end ExpectedType

/-- `std::num::IntErrorKind` (std), the kinds `from_str_radix` produces. Used for src/convert.rs:16-27
(its source) and src/errors.rs:122-129. -/
inductive IntErrorKind where
  | empty | invalidDigit | posOverflow | negOverflow
deriving DecidableEq, Repr

/-- What is boxed as the source of `DecodeError::Conversion`
(src/errors.rs:122-129): a `ParseIntError`, a `ParseFloatError` or any other
error, of which only the message is kept. -/
inductive ErrSource where
  | parseInt (k : IntErrorKind)
  | parseFloat (empty : Bool)
  | text (message : Str)
deriving DecidableEq, Repr

/-- `DecodeError`. src/errors.rs:35-149. -/
inductive DErr (S : Type) where
  | typeName (span : S) (found : Option TypeName) (expected : ExpectedType) (rustType : Str)
  | scalarKind (span : S) (expected : Kind) (found : Kind)
  | missing (span : S) (message : Str)
  | missingNode (message : Str)
  | unexpected (span : S) (kind : Str) (message : Str)
  | conversion (span : S) (source : ErrSource)
  | unsupported (span : S) (message : Str)
  | custom (message : Str)
deriving DecidableEq, Repr

namespace DErr
variable {S T : Type}
/-- `DecodeError::conversion`. src/errors.rs:393-400. -/
def conv {α : Type} (x : Spanned α S) (e : ErrSource) : DErr S := .conversion x.span e
/-- `DecodeError::scalar_kind`. src/errors.rs:402-408. -/
def kind (expected : Kind) (found : Spanned Literal S) : DErr S :=
  .scalarKind found.span expected (Kind.ofLiteral found.value)
/-- `DecodeError::missing`. src/errors.rs:410-415. -/
def missingIn (node : SpannedNode S) (message : Str) : DErr S :=
  .missing node.value.nodeName.span message
/-- `DecodeError::unexpected`. src/errors.rs:417-426. -/
def unexp {α : Type} (x : Spanned α S) (kind message : Str) : DErr S := .unexpected x.span kind message
/-- `DecodeError::unsupported`. src/errors.rs:428-435. -/
def unsup {α : Type} (x : Spanned α S) (message : Str) : DErr S := .unsupported x.span message
/-- `DecodeError::map_span`. src/errors.rs:437-459. -/
def mapSpan (f : S → T) : DErr S → DErr T
  | typeName s a b c => typeName (f s) a b c
  | scalarKind s a b => scalarKind (f s) a b
  | missing s m => missing (f s) m
  | missingNode m => missingNode m
  | unexpected s k m => unexpected (f s) k m
  | conversion s e => conversion (f s) e
  | unsupported s m => unsupported (f s) m
  | custom m => custom m
end DErr

/-- Hexadecimal digits of a number, lower case, as `{:x}` prints them (std). Used for src/errors.rs:238,
239 (through `escape_default`). -/
def lowerHex (n : Nat) : Str := Nat.toDigits 16 n

/-- `char::escape_default` (std). Used in src/errors.rs:238, 239 and in the
messages of src/decode.rs and of the derives. -/
def escapeChar (c : Char) : Str :=
  if c = '\t' then "\\t".toList
  else if c = '\r' then "\\r".toList
  else if c = '\n' then "\\n".toList
  else if c = '\'' then "\\'".toList
  else if c = '"' then "\\\"".toList
  else if c = '\\' then "\\\\".toList
  else if 0x20 ≤ c.toNat ∧ c.toNat ≤ 0x7e then [c]
  else "\\u{".toList ++ lowerHex c.toNat ++ "}".toList

/-- `str::escape_default` (std). Used for src/decode.rs:119, 126. -/
def escapeDefault (s : Str) : Str := s.flatMap escapeChar

/-- `Context`. src/decode.rs:18-22. -/
structure Ctx (E S : Type) where
  errors : List (DErr S)
  extensions : E

namespace Ctx
variable {E S : Type}
/-- `emit_error`. src/decode.rs:164-166. -/
def emitError (c : Ctx E S) (e : DErr S) : Ctx E S := { c with errors := c.errors ++ [e] }
/-- src/decode.rs:168-170. -/
def hasErrors (c : Ctx E S) : Bool := !c.errors.isEmpty
/-- src/decode.rs:171-173. -/
def intoErrors (c : Ctx E S) : List (DErr S) := c.errors
end Ctx

/-- How a call that takes `ctx: &mut Context<S>` and returns
`Result<_, DecodeError<S>>` can end (signatures of src/traits.rs:18, 25, 69). -/
inductive Out (E S α : Type) where
  | ok (a : α) (ctx : Ctx E S)
  | err (e : DErr S) (ctx : Ctx E S)
  | panic

/-- A decoding computation (src/traits.rs:18, 25, 69): see the head of the file. -/
def D (E S α : Type) := Ctx E S → Out E S α

namespace D
variable {E S α β : Type}

/-- `Ok(a)`. Used for src/traits.rs:18, 25, 69. -/
protected def pure (a : α) : D E S α := fun c => .ok a c
/-- Sequencing with `?`. Used for src/traits.rs:76-79. -/
protected def bind (x : D E S α) (f : α → D E S β) : D E S β := fun c =>
  match x c with
  | .ok a c' => f a c'
  | .err e c' => .err e c'
  | .panic => .panic

/-- `?` and `Ok` in the functions with the signatures of src/traits.rs:18, 25, 69. -/
instance : Monad (D E S) where
  pure := D.pure
  bind := D.bind

/-- `ctx.emit_error(e)`. src/decode.rs:164-166. -/
def emit (e : DErr S) : D E S Unit := fun c => .ok () (c.emitError e)
/-- `return Err(e)`. Used for src/traits.rs:18, 25, 69. -/
def fail (e : DErr S) : D E S α := fun c => .err e c
/-- `panic!()`. Used for src/containers.rs:75-76, 121-122. -/
def panic : D E S α := fun _ => .panic
/-- `for x in xs { f(x)?; }`. Used for src/decode.rs:108-132. -/
def forEach (f : α → D E S Unit) : List α → D E S Unit
  | [] => pure ()
  | x :: xs => do f x; forEach f xs
/-- `xs.iter().map(f).collect::<Result<Vec<_>, _>>()?` (std): stops at the first error. Used for
derive/src/node.rs:437-439. -/
def collect (f : α → D E S β) : List α → D E S (List β)
  | [] => pure []
  | x :: xs => do
    let y ← f x
    let ys ← collect f xs
    pure (y :: ys)
end D

/-- `DecodeScalar`. src/traits.rs:57-81.  `decode` may be overridden by an
implementation (src/convert_ast.rs:67). -/
structure Scalar (E S α : Type) where
  typeCheck : Option (Spanned TypeName S) → D E S Unit
  rawDecode : Spanned Literal S → D E S α
  decode : Value S → D E S α

/-- The provided method `DecodeScalar::decode`. src/traits.rs:75-80. -/
def Scalar.provided {E S α : Type} (typeCheck : Option (Spanned TypeName S) → D E S Unit)
    (rawDecode : Spanned Literal S → D E S α) : Scalar E S α where
  typeCheck := typeCheck
  rawDecode := rawDecode
  decode v := do
    typeCheck v.typeName
    rawDecode v.literal

/-- `Decode::decode_node`. src/traits.rs:17-20. -/
abbrev NodeDecoder (E S α : Type) := SpannedNode S → D E S α

/-- `DecodeChildren::decode_children`. src/traits.rs:24-27. -/
abbrev ChildrenDecoder (E S α : Type) := List (SpannedNode S) → D E S α

/-- `DecodePartial`. src/traits.rs:33-53.  `&mut self` becomes the returned new
value of `self`. -/
structure Partial (E S α : Type) where
  insertChild : α → SpannedNode S → D E S (Bool × α)
  insertProperty : α → Spanned Str S → Value S → D E S (Bool × α)

/-- `DecodeSpan::decode_span`. src/traits.rs:89-92. It may record errors but not fail. -/
abbrev SpanDecoder (E S T : Type) := S → Ctx E S → T × Ctx E S

namespace SpanDecoder
variable {E S T : Type}
/-- The blanket `impl DecodeSpan<T> for T`. src/traits.rs:94-98. -/
def same : SpanDecoder E S S := fun s c => (s, c)
/-- `DecodeSpan<LineSpan> for Span`. src/span.rs:284-290. -/
def lineToByte : SpanDecoder E (Sp LinePos) (Sp Nat) := fun s c => (⟨s.start.offset, s.stop.offset⟩, c)
/-- Using a span decoder inside a decoder. Used for src/span.rs:306-315. -/
def run (d : SpanDecoder E S T) (s : S) : D E S T := fun c => .ok (d s c).1 (d s c).2
end SpanDecoder

/-- `Spanned::clone_as`. src/span.rs:306-315. -/
def Spanned.cloneAs {E S T α : Type} (d : SpanDecoder E S T) (x : Spanned α S) : D E S (Spanned α T) := do
  let s ← d.run x.span
  pure ⟨s, x.value⟩

/-- UTF-8 bytes of a text (`str::as_bytes`, std). Used for src/decode.rs:57, 92. -/
def utf8 (s : Str) : List UInt8 := s.flatMap String.utf8EncodeChar

/-- The other crates the decoders call; every theorem holds for all of them.
* `b64`: the STANDARD engine of `base64`, which decodes or gives an error message (src/decode.rs:53-60).
* `kebab`: `heck::ToKebabCase` (derive/src/definition.rs:281, 439, 477). -/
class Externals where
  b64 : List UInt8 → Except Str (List UInt8)
  kebab : Str → Str

/-- `decode::bytes`. src/decode.rs:49-100, with the `base64` feature (the
default, Cargo.toml). -/
def decodeBytes {E S : Type} [Externals] (v : Value S) : D E S (List UInt8) :=
  match v.typeName with
  | some typ =>
    match typ.value.asBuiltin with
    | some .base64 =>
      match v.literal.value with
      | .string s =>
        match Externals.b64 (utf8 s) with
        | .ok bytes => pure bytes
        | .error m => do
          D.emit (DErr.conv v.literal (.text m))
          pure []
      | _ => do
        D.emit (DErr.kind .string v.literal)
        pure []
    | _ => do
      D.emit (.typeName typ.span (some typ.value) (ExpectedType.optional (.builtin .base64)) "bytes".toList)
      pure []
  | none =>
    match v.literal.value with
    | .string s => pure (utf8 s)
    | _ => do
      D.emit (DErr.kind .string v.literal)
      pure []

/-- Message of an unexpected property. src/decode.rs:118-121 and
derive/src/node.rs:551-554. -/
def unexpectedProperty {S : Type} (name : Spanned Str S) : DErr S :=
  DErr.unexp name "property".toList
    ("unexpected property `".toList ++ escapeDefault name.value ++ "`".toList)

/-- Message of an unexpected argument. src/decode.rs:112-114 and
derive/src/node.rs:444-446. -/
def unexpectedArgument {S : Type} (arg : Value S) : DErr S :=
  DErr.unexp arg.literal "argument".toList "unexpected argument".toList

/-- Message of an unexpected child node. src/decode.rs:124-129 and
derive/src/node.rs:934-937. -/
def unexpectedNode {S : Type} (child : SpannedNode S) : DErr S :=
  DErr.unexp child "node".toList
    ("unexpected node `".toList ++ escapeDefault child.value.nodeName.value ++ "`".toList)

/-- `check_flag_node`. src/decode.rs:108-132. -/
def checkFlagNode {E S : Type} (node : SpannedNode S) : D E S Unit := do
  D.forEach (fun arg => D.emit (unexpectedArgument arg)) node.value.arguments
  D.forEach (fun p => D.emit (unexpectedProperty p.1)) node.value.properties
  match node.value.children with
  | some children => D.forEach (fun child => D.emit (unexpectedNode child)) children.value
  | none => pure ()

/-- How a top-level decoding run ends. src/decode.rs:139-149, src/wrappers.rs:45-54:
`none` is a panic; otherwise the value, or all the errors. -/
def finish {E S α : Type} : Out E S α → Option (Except (List (DErr S)) α)
  | .ok v c => if c.hasErrors then some (.error c.intoErrors) else some (.ok v)
  | .err e c => some (.error (c.emitError e).intoErrors)
  | .panic => none

/-- `decode::node`. src/decode.rs:135-150. -/
def decodeNodeTop {E S α : Type} (empty : E) (dec : NodeDecoder E S α) (ast : SpannedNode S) :
    Option (Except (List (DErr S)) α) :=
  finish (dec ast ⟨[], empty⟩)

end Knuffel
