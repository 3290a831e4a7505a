import Verif.Model.Ast
/-!
# Character classes of the grammar

Models the `filter`/`matches!` predicates of `src/grammar.rs` and Rust's
`char::is_digit`.
-/

namespace Knuffel

/-- `lo..=hi` on code points. Used for src/grammar.rs:66, 75, 89-90, 104-105. -/
def inRange (lo hi : Nat) (c : Char) : Bool := lo ≤ c.toNat && c.toNat ≤ hi

/-- Unicode white space other than tab and space that the grammar excludes from
identifiers. src/grammar.rs:78-80, 93-95, 108-110 (also part of 65-67). -/
def isUniSpace (c : Char) : Bool :=
  c.toNat == 0x00a0 || c.toNat == 0x1680 || inRange 0x2000 0x200A c ||
  c.toNat == 0x202F || c.toNat == 0x205F || c.toNat == 0x3000

/-- `ws_char`. src/grammar.rs:64-69. -/
def isWsChar (c : Char) : Bool :=
  c == '\t' || c == ' ' || isUniSpace c || c.toNat == 0xFEFF

/-- Newlines above 0x20. src/grammar.rs:82, 97, 112. -/
def isUniNewline (c : Char) : Bool :=
  c.toNat == 0x0085 || c.toNat == 0x2028 || c.toNat == 0x2029

/-- The punctuation excluded from identifiers. src/grammar.rs:76, 91, 106. -/
def isIdPunct (c : Char) : Bool :=
  c == '\\' || c == '/' || c == '(' || c == ')' || c == '{' || c == '}' || c == '<' || c == '>' ||
  c == ';' || c == '[' || c == ']' || c == '=' || c == ',' || c == '"'

/-- `id_char`. src/grammar.rs:74-83. -/
def isIdChar (c : Char) : Bool :=
  !(inRange 0 0x21 c || isIdPunct c || isUniSpace c || isUniNewline c)

/-- `'0'..='9'`. Used for src/grammar.rs:89, 104. -/
def isDec (c : Char) : Bool := inRange 0x30 0x39 c

/-- `id_sans_dig`. src/grammar.rs:88-98. -/
def isIdSansDig (c : Char) : Bool :=
  !(isDec c || inRange 0 0x20 c || isIdPunct c || isUniSpace c || isUniNewline c)

/-- `id_sans_sign_dig`. src/grammar.rs:103-113. -/
def isIdSansSignDig (c : Char) : Bool :=
  !(c == '-' || c == '+' || isDec c || inRange 0 0x20 c || isIdPunct c || isUniSpace c || isUniNewline c)

/-- `char::to_digit(radix)` for radix ≤ 16 (std): the value of a digit. Used for src/grammar.rs:210, 326, 330. -/
def digitVal (radix : Nat) (c : Char) : Option Nat :=
  let v := if inRange 0x30 0x39 c then some (c.toNat - 0x30)
    else if inRange 0x61 0x66 c then some (c.toNat - 0x61 + 10)
    else if inRange 0x41 0x46 c then some (c.toNat - 0x41 + 10)
    else none
  match v with
  | some n => if n < radix then some n else none
  | none => none

/-- `char::is_digit(radix)` (std). Used for src/grammar.rs:210, 326, 330. -/
def isDigit (radix : Nat) (c : Char) : Bool := (digitVal radix c).isSome

/-- `u32::from_str_radix(s, radix)` on digit strings, without the overflow check
(see `parseHexChar` for where it is used). Used for src/grammar.rs:224. -/
def digitsVal (radix : Nat) (s : Str) : Nat :=
  s.foldl (fun acc c => acc * radix + (digitVal radix c).getD 0) 0

/-- `char::try_from(u32)` (std): Unicode scalar values only. Used for src/grammar.rs:225. -/
def charOfNat? (n : Nat) : Option Char :=
  if n.isValidChar then some (Char.ofNat n) else none

end Knuffel
