import Verif.Model.Decode
/-!
# `decode::bytes` in a build without the feature `base64`

Models the branches that `src/decode.rs` has under `cfg(not(feature="base64"))`.
-/

namespace Knuffel

/-- `decode::bytes` without the `base64` feature. src/decode.rs:49-100, with lines 73-78 in place of 53-72. -/
def decodeBytesPlain {E S : Type} (v : Value S) : D E S (List UInt8) :=
  match v.typeName with
  | some typ =>
    match typ.value.asBuiltin with
    | some .base64 => do
      D.emit (DErr.unsup v.literal "base64 support is not compiled in".toList)
      pure []
    | _ => do
      D.emit (.typeName typ.span (some typ.value) (ExpectedType.optional (.builtin .base64)) "bytes".toList)
      pure []
  | none =>
    match v.literal.value with
    | .string s => pure (utf8 s)
    | _ => do
      D.emit (DErr.kind .string v.literal)
      pure []

end Knuffel
