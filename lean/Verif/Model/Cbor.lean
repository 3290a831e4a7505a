import Verif.Model.Decode
/-!
# CBOR

Models the `minicbor` feature: `src/ast.rs:297-319` and what the derive macros of
`minicbor` 0.19 make of the attributes in `src/ast.rs` and `src/span.rs`.

The crate is not part of the repository; its wire format (see the documentation of
`minicbor-derive`) is modelled as follows.  A struct is an array of its fields by
index, without the trailing `None`s.  An enum is an array of the index of the
variant and the array of the variant's fields, or only the index (`index_only`).
Decoding reads the fields that are there, skips those it does not know, and
refuses if a field that is not optional is missing.

Simplified: arrays, maps and texts of indefinite length, which the encoders never
write, are refused; decoding errors are not told apart (`none`).
-/

namespace Knuffel
namespace Cbor

/-- Input and output of the codec. Needed for src/ast.rs:305,312. -/
abbrev Bytes := List UInt8
/-- `Decode::decode`: the value and the bytes not read. Needed for src/ast.rs:304-306. -/
abbrev Dec (α : Type) := Bytes → Option (α × Bytes)

/-! ### Data items (`minicbor::Encoder`, `minicbor::Decoder`) -/

/-- The `k` bytes of a number, most significant first (`to_be_bytes`). Needed for src/span.rs:37-40. -/
def be : Nat → Nat → Bytes
  | 0, _ => []
  | k + 1, n => be k (n / 256) ++ [UInt8.ofNat (n % 256)]
/-- `from_be_bytes`. Needed for src/span.rs:37-40. -/
def unbe (bs : Bytes) : Nat := bs.foldl (fun n b => n * 256 + b.toNat) 0

/-- `Encoder::type_len`, and `u32`, `u64` with major type 0: the shortest head. Needed for src/ast.rs:31-58. -/
def head (major n : Nat) : Bytes :=
  if n ≤ 23 then [UInt8.ofNat (major * 32 + n)]
  else if n ≤ 0xff then UInt8.ofNat (major * 32 + 24) :: be 1 n
  else if n ≤ 0xffff then UInt8.ofNat (major * 32 + 25) :: be 2 n
  else if n ≤ 0xffffffff then UInt8.ofNat (major * 32 + 26) :: be 4 n
  else UInt8.ofNat (major * 32 + 27) :: be 8 n

/-- `Decoder::read_array`. Needed for src/span.rs:37-40. -/
def readBe (k : Nat) : Dec Nat := fun bs =>
  if k ≤ bs.length then some (unbe (bs.take k), bs.drop k) else none
/-- `Decoder::unsigned`. Needed for src/ast.rs:31-58. -/
def unsigned (info : Nat) : Dec Nat := fun bs =>
  if info ≤ 23 then some (info, bs)
  else if info = 24 then readBe 1 bs
  else if info = 25 then readBe 2 bs
  else if info = 26 then readBe 4 bs
  else if info = 27 then readBe 8 bs
  else none
/-- The beginning of `Decoder::array`, `map`, `str`, and `u64` with major type 0. Needed for src/ast.rs:31-58. -/
def readHead (major : Nat) : Dec Nat
  | [] => none
  | b :: bs => if b.toNat / 32 = major then unsigned (b.toNat % 32) bs else none

/-- `Encode for usize`. Needed for src/span.rs:37-40,49-56. -/
def encUsize (n : Nat) : Bytes := head 0 n
/-- `Decode for usize` on a 64-bit platform. Needed for src/span.rs:37-40,49-56. -/
def decUsize : Dec Nat := readHead 0
/-- `Decoder::u32`. Needed for src/ast.rs:60-70,148-175. -/
def decU32 : Dec Nat := fun bs =>
  match readHead 0 bs with
  | some (n, rest) => if n < 2 ^ 32 then some (n, rest) else none
  | none => none
/-- `Encode for str`. Needed for src/ast.rs:79-80,88-89,315. -/
def encStr (s : Str) : Bytes := head 3 (utf8 s).length ++ utf8 s
/-- `std::str::from_utf8`. Needed for src/ast.rs:307. -/
def fromUtf8 (bs : Bytes) : Option Str := (ByteArray.utf8Decode? ⟨bs.toArray⟩).map Array.toList
/-- `Decode for Box<str>`: `Decoder::str`. Needed for src/ast.rs:79-80,88-89,307. -/
def decStr : Dec Str := fun bs =>
  match readHead 3 bs with
  | some (n, rest) =>
    if n ≤ rest.length then
      match fromUtf8 (rest.take n) with
      | some s => some (s, rest.drop n)
      | none => none
    else none
  | none => none
/-- `Encode for bool`. Needed for src/ast.rs:154-158. -/
def encBool (b : Bool) : Bytes := [if b then 0xf5 else 0xf4]
/-- `Decode for bool`. Needed for src/ast.rs:154-158. -/
def decBool : Dec Bool
  | [] => none
  | b :: bs => if b = 0xf5 then some (true, bs) else if b = 0xf4 then some (false, bs) else none
/-- `Encode for Option`. Needed for src/ast.rs:33-35,96-98. -/
def encOption {α : Type} (enc : α → Bytes) : Option α → Bytes
  | none => [0xf6]
  | some x => enc x
/-- `Decode for Option`. Needed for src/ast.rs:33-35,96-98. -/
def decOption {α : Type} (dec : Dec α) : Dec (Option α)
  | [] => none
  | b :: bs =>
    if b = 0xf6 then some (none, bs)
    else match dec (b :: bs) with
      | some (x, rest) => some (some x, rest)
      | none => none
/-- `Decode for Vec`: the items one by one. Needed for src/ast.rs:39-41,54-56. -/
def decItems {α : Type} (dec : Dec α) : Nat → Dec (List α)
  | 0, bs => some ([], bs)
  | n + 1, bs =>
    match dec bs with
    | some (x, rest) =>
      match decItems dec n rest with
      | some (xs, rest) => some (x :: xs, rest)
      | none => none
    | none => none
/-- `Encode for Vec`. Needed for src/ast.rs:39-41,54-56. -/
def encVec {α : Type} (enc : α → Bytes) (xs : List α) : Bytes := head 4 xs.length ++ xs.flatMap enc
/-- `Decode for Vec`. Needed for src/ast.rs:39-41,54-56. -/
def decVec {α : Type} (dec : Dec α) : Dec (List α) := fun bs =>
  match readHead 4 bs with
  | some (n, rest) => decItems dec n rest
  | none => none
/-- One after the other. Needed for src/ast.rs:42-44. -/
def decPair {α β : Type} (d1 : Dec α) (d2 : Dec β) : Dec (α × β) := fun bs =>
  match d1 bs with
  | some (x, rest) =>
    match d2 rest with
    | some (y, rest) => some ((x, y), rest)
    | none => none
  | none => none

/-- `Decoder::skip`: `rounds` items still have to be passed; of arrays and maps the
items are counted in.  The first argument bounds the number of steps and is taken
larger than the number of bytes, of which each step reads one at least. Needed for src/ast.rs:31-58. -/
def skipLoop : Nat → Nat → Bytes → Option Bytes
  | _, 0, bs => some bs
  | 0, _ + 1, _ => none
  | _ + 1, _ + 1, [] => none
  | fuel + 1, rounds + 1, b :: bs =>
    match unsigned (b.toNat % 32) bs with
    | some (n, rest) =>
      match b.toNat / 32 with
      | 2 | 3 => if n ≤ rest.length then skipLoop fuel rounds (rest.drop n) else none
      | 4 => skipLoop fuel (rounds + n) rest
      | 5 => skipLoop fuel (rounds + 2 * n) rest
      | 6 => skipLoop fuel (rounds + 1) rest
      | _ => skipLoop fuel rounds rest
    | none => none
/-- Skip `n` items. Needed for src/ast.rs:31-58. -/
def skip (n : Nat) (bs : Bytes) : Option Bytes := skipLoop (bs.length + 1) n bs

/-! ### What the derive macros make of a struct -/

/-- A field for the derived `Encode`: whether it `is_nil`, and its encoding. Needed for src/ast.rs:33-47. -/
structure Fld where
  nil : Bool
  bytes : Bytes
/-- The number of fields written: up to the last one that is not nil. Needed for src/ast.rs:33-47. -/
def written : List Fld → Nat
  | [] => 0
  | f :: fs => if written fs = 0 && f.nil then 0 else written fs + 1
/-- The derived `Encode` of a struct (fields by index from 0). Needed for src/ast.rs:33-47. -/
def encFields (fs : List Fld) : Bytes :=
  head 4 (written fs) ++ (fs.take (written fs)).flatMap Fld.bytes
/-- The derived `Decode` of a struct reads field number `k` if the array of `n` items has it. Needed for src/ast.rs:33-47. -/
def decField {α : Type} (n k : Nat) (dec : Dec α) : Dec (Option α) := fun bs =>
  if k < n then
    match dec bs with
    | some (x, rest) => some (some x, rest)
    | none => none
  else some (none, bs)

/-- A struct of one field that is not optional. Needed for src/ast.rs:52-57. -/
def decStruct1 {α : Type} (d0 : Dec α) : Dec α := fun bs =>
  match readHead 4 bs with
  | none => none
  | some (n, bs) =>
  match decField n 0 d0 bs with
  | none => none
  | some (x, bs) =>
  match skip (n - 1) bs with
  | none => none
  | some bs =>
  match x with
  | some x => some (x, bs)
  | none => none
/-- A struct of two fields that are not optional. Needed for src/ast.rs:75-81. -/
def decStruct2 {α β : Type} (d0 : Dec α) (d1 : Dec β) : Dec (α × β) := fun bs =>
  match readHead 4 bs with
  | none => none
  | some (n, bs) =>
  match decField n 0 d0 bs with
  | none => none
  | some (x, bs) =>
  match decField n 1 d1 bs with
  | none => none
  | some (y, bs) =>
  match skip (n - 2) bs with
  | none => none
  | some bs =>
  match x, y with
  | some x, some y => some ((x, y), bs)
  | _, _ => none
/-- A struct of three fields that are not optional. Needed for src/span.rs:46-57. -/
def decStruct3 {α β γ : Type} (d0 : Dec α) (d1 : Dec β) (d2 : Dec γ) : Dec (α × β × γ) := fun bs =>
  match readHead 4 bs with
  | none => none
  | some (n, bs) =>
  match decField n 0 d0 bs with
  | none => none
  | some (x, bs) =>
  match decField n 1 d1 bs with
  | none => none
  | some (y, bs) =>
  match decField n 2 d2 bs with
  | none => none
  | some (z, bs) =>
  match skip (n - 3) bs with
  | none => none
  | some bs =>
  match x, y, z with
  | some x, some y, some z => some ((x, y, z), bs)
  | _, _, _ => none

/-! ### The types of `src/span.rs` -/

/-- How the spans of a document are encoded. Needed for src/span.rs:25-67. -/
structure Codec (S : Type) where
  enc : S → Bytes
  dec : Dec S

/-- `Span`. src/span.rs:35-41. -/
def spanCodec : Codec (Sp Nat) where
  enc s := encFields [⟨false, encUsize s.start⟩, ⟨false, encUsize s.stop⟩]
  dec bs := (decStruct2 decUsize decUsize bs).map fun (x, rest) => (⟨x.1, x.2⟩, rest)
/-- `LinePos`. src/span.rs:46-57. -/
def encLinePos (p : LinePos) : Bytes :=
  encFields [⟨false, encUsize p.offset⟩, ⟨false, encUsize p.line⟩, ⟨false, encUsize p.column⟩]
/-- `LinePos`. src/span.rs:46-57. -/
def decLinePos : Dec LinePos := fun bs =>
  (decStruct3 decUsize decUsize decUsize bs).map fun (x, rest) => (⟨x.1, x.2.1, x.2.2⟩, rest)
/-- `LineSpan`. src/span.rs:61-67. -/
def lineSpanCodec : Codec (Sp LinePos) where
  enc s := encFields [⟨false, encLinePos s.start⟩, ⟨false, encLinePos s.stop⟩]
  dec bs := (decStruct2 decLinePos decLinePos bs).map fun (x, rest) => (⟨x.1, x.2⟩, rest)

variable {S : Type} (cs : Codec S)

/-- `Spanned`. src/span.rs:25-31. -/
def encSpanned {α : Type} (enc : α → Bytes) (x : Spanned α S) : Bytes :=
  encFields [⟨false, cs.enc x.span⟩, ⟨false, enc x.value⟩]
/-- `Spanned`. src/span.rs:25-31. -/
def decSpanned {α : Type} (dec : Dec α) : Dec (Spanned α S) := fun bs =>
  (decStruct2 cs.dec dec bs).map fun (x, rest) => (⟨x.1, x.2⟩, rest)

/-! ### The types of `src/ast.rs` -/

/-- `Encode for TypeName`. src/ast.rs:311-318. -/
def encTypeName (t : TypeName) : Bytes := encStr t.asStr
/-- `Decode for TypeName`. src/ast.rs:304-310. -/
def decTypeName : Dec TypeName := fun bs =>
  (decStr bs).map fun (s, rest) => (TypeName.fromString s, rest)
/-- The index of a `Radix`. src/ast.rs:60-71. -/
def radixIndex : Radix → Nat
  | .bin => 2
  | .hex => 16
  | .oct => 8
  | .dec => 10
/-- `Encode for Radix`. src/ast.rs:60-71. -/
def encRadix (r : Radix) : Bytes := head 0 (radixIndex r)
/-- `Decode for Radix`. src/ast.rs:60-71. -/
def decRadix : Dec Radix := fun bs =>
  match decU32 bs with
  | some (2, rest) => some (.bin, rest)
  | some (16, rest) => some (.hex, rest)
  | some (8, rest) => some (.oct, rest)
  | some (10, rest) => some (.dec, rest)
  | _ => none
/-- A variant of an enum: its index and its fields. Needed for src/ast.rs:148-177. -/
def encVariant (idx : Nat) (fields : Bytes) : Bytes := head 4 2 ++ head 0 idx ++ fields
/-- `Literal`, with `Integer` (src/ast.rs:75-81) and `Decimal` (84-90, transparent).
src/ast.rs:148-177. -/
def encLiteral : Literal → Bytes
  | .null => encVariant 0 (head 4 0)
  | .bool b => encVariant 1 (encFields [⟨false, encBool b⟩])
  | .int r s => encVariant 2 (encFields [⟨false, encFields [⟨false, encRadix r⟩, ⟨false, encStr s⟩]⟩])
  | .decimal s => encVariant 3 (encFields [⟨false, encStr s⟩])
  | .string s => encVariant 4 (encFields [⟨false, encStr s⟩])
/-- `Literal`. src/ast.rs:148-177. -/
def decLiteral : Dec Literal := fun bs =>
  match readHead 4 bs with
  | some (2, bs) =>
    match decU32 bs with
    | some (0, bs) => (skip 1 bs).map fun rest => (.null, rest)
    | some (1, bs) => (decStruct1 decBool bs).map fun (b, rest) => (.bool b, rest)
    | some (2, bs) => (decStruct1 (decStruct2 decRadix decStr) bs).map fun (x, rest) => (.int x.1 x.2, rest)
    | some (3, bs) => (decStruct1 decStr bs).map fun (s, rest) => (.decimal s, rest)
    | some (4, bs) => (decStruct1 decStr bs).map fun (s, rest) => (.string s, rest)
    | _ => none
  | _ => none

/-- A struct of an optional field and one that is not. Needed for src/ast.rs:94-102. -/
def decOpt1 {α β : Type} (d0 : Dec α) (d1 : Dec β) : Dec (Option α × β) := fun bs =>
  match readHead 4 bs with
  | none => none
  | some (n, bs) =>
  match decField n 0 (decOption d0) bs with
  | none => none
  | some (x, bs) =>
  match decField n 1 d1 bs with
  | none => none
  | some (y, bs) =>
  match skip (n - 2) bs with
  | none => none
  | some bs =>
  match y with
  | some y => some ((x.join, y), bs)
  | none => none
/-- `Value`. src/ast.rs:94-102. -/
def encValue (v : Value S) : Bytes :=
  encFields [⟨v.typeName.isNone, encOption (encSpanned cs encTypeName) v.typeName⟩,
    ⟨false, encSpanned cs encLiteral v.literal⟩]
/-- `Value`. src/ast.rs:94-102. -/
def decValue : Dec (Value S) := fun bs =>
  (decOpt1 (decSpanned cs decTypeName) (decSpanned cs decLiteral) bs).map fun (x, rest) => (⟨x.1, x.2⟩, rest)
/-- `Encode for BTreeMap`, of properties. src/ast.rs:43-44. -/
def encProps (ps : List (Spanned Str S × Value S)) : Bytes :=
  head 5 ps.length ++ ps.flatMap fun kv => encSpanned cs encStr kv.1 ++ encValue cs kv.2
/-- `Decode for BTreeMap`, of properties: the entries are inserted one after the other.
src/ast.rs:43-44. -/
def decProps : Dec (List (Spanned Str S × Value S)) := fun bs =>
  match readHead 5 bs with
  | none => none
  | some (n, bs) =>
  match decItems (decPair (decSpanned cs decStr) (decValue cs)) n bs with
  | none => none
  | some (kvs, rest) => some (kvs.foldl (fun m kv => propInsert kv.1 kv.2 m) [], rest)

mutual
/-- `Node`. src/ast.rs:31-48. -/
def encNode : Node S → Bytes
  | .mk t n args props children =>
    encFields [⟨t.isNone, encOption (encSpanned cs encTypeName) t⟩, ⟨false, encSpanned cs encStr n⟩,
      ⟨false, encVec (encValue cs) args⟩, ⟨false, encProps cs props⟩, ⟨children.isNone, encChildren children⟩]
/-- The children of a node, with `Option`, `Spanned` and `Vec`. src/ast.rs:46-47. -/
def encChildren : Option (Spanned (List (Spanned (Node S) S)) S) → Bytes
  | none => [0xf6]
  | some ⟨s, l⟩ => encFields [⟨false, cs.enc s⟩, ⟨false, head 4 l.length ++ encNodes l⟩]
/-- The nodes one after the other. src/ast.rs:46-47,54-56. -/
def encNodes : List (Spanned (Node S) S) → Bytes
  | [] => []
  | ⟨s, n⟩ :: l => encFields [⟨false, cs.enc s⟩, ⟨false, encNode n⟩] ++ encNodes l
end

/-- `Node`. src/ast.rs:31-48.  The first argument bounds the depth of the nodes and is taken
larger than the number of bytes. -/
def decNode : Nat → Dec (Node S)
  | 0, _ => none
  | fuel + 1, bs =>
    match readHead 4 bs with
    | none => none
    | some (n, bs) =>
    match decField n 0 (decOption (decSpanned cs decTypeName)) bs with
    | none => none
    | some (t, bs) =>
    match decField n 1 (decSpanned cs decStr) bs with
    | none => none
    | some (name, bs) =>
    match decField n 2 (decVec (decValue cs)) bs with
    | none => none
    | some (args, bs) =>
    match decField n 3 (decProps cs) bs with
    | none => none
    | some (props, bs) =>
    match decField n 4 (decOption (decSpanned cs (decVec (decSpanned cs (decNode fuel))))) bs with
    | none => none
    | some (children, bs) =>
    match skip (n - 5) bs with
    | none => none
    | some bs =>
    match name, args, props with
    | some name, some args, some props => some (.mk t.join name args props children.join, bs)
    | _, _, _ => none

/-- `Document`. src/ast.rs:51-57. -/
def encDocument (d : Document S) : Bytes := encFields [⟨false, head 4 d.nodes.length ++ encNodes cs d.nodes⟩]
/-- `Document`. src/ast.rs:51-57. -/
def decDocument : Dec (Document S) := fun bs =>
  (decStruct1 (decVec (decSpanned cs (decNode cs (bs.length + 1)))) bs).map fun (l, rest) => (⟨l⟩, rest)

end Cbor
end Knuffel
