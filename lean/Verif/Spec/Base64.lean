import Verif.Model.Decode
/-!
# Specification: Base 64 (RFC 4648, section 4)

Nothing here models code; the decoder of the `base64` crate is external.
-/

namespace Knuffel

/-- The alphabet: table 1 of RFC 4648. -/
def b64Alphabet : Str := "ABCDEFGHIJKLMNOPQRSTUVWXYZabcdefghijklmnopqrstuvwxyz0123456789+/".toList

/-- The character of a value below 64. -/
def b64Char (n : Nat) : Char := b64Alphabet.getD n '='

/-- The text of some bytes: four characters for three bytes, padded with `=`. -/
def b64Text : List UInt8 → Str
  | [] => []
  | [a] => [b64Char (a.toNat / 4), b64Char (a.toNat % 4 * 16), '=', '=']
  | [a, b] => [b64Char (a.toNat / 4), b64Char (a.toNat % 4 * 16 + b.toNat / 16), b64Char (b.toNat % 16 * 4), '=']
  | a :: b :: c :: rest =>
    b64Char (a.toNat / 4) :: b64Char (a.toNat % 4 * 16 + b.toNat / 16) ::
      b64Char (b.toNat % 16 * 4 + c.toNat / 64) :: b64Char (c.toNat % 64) :: b64Text rest

/-- The `STANDARD` engine of the `base64` crate decodes exactly the texts of bytes (with the
padding, and nothing but zeros in the unused bits), to those bytes. -/
def StandardB64 (ext : Externals) : Prop :=
  ∀ (t : List UInt8) (bytes : List UInt8), ext.b64 t = .ok bytes ↔ t = utf8 (b64Text bytes)

end Knuffel
