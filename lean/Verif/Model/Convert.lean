import Verif.Model.Decode
/-!
# Scalar decoders

Models `src/convert.rs` and the parts of `std` it relies on: `from_str_radix`
of the integer types and the syntax accepted by `f64::from_str`.
-/

namespace Knuffel

/-- The types of the `impl_integer!` invocations. src/convert.rs:68-77. -/
inductive IntTy where
  | i8 | u8 | i16 | u16 | i32 | u32 | i64 | u64 | isize | usize
deriving DecidableEq, Repr

namespace IntTy
/-- Signedness (std). Used for src/convert.rs:16-27. -/
def signed : IntTy → Bool
  | i8 | i16 | i32 | i64 | isize => true
  | u8 | u16 | u32 | u64 | usize => false
/-- Width in bits (std); `ptr` is the pointer width of the target. Used for src/convert.rs:16-27. -/
def bits (ptr : Nat) : IntTy → Nat
  | i8 | u8 => 8
  | i16 | u16 => 16
  | i32 | u32 => 32
  | i64 | u64 => 64
  | isize | usize => ptr
/-- `MIN` (std). Used for src/convert.rs:16-27. -/
def min (ptr : Nat) (t : IntTy) : Int := if t.signed then -(2 ^ (t.bits ptr - 1)) else 0
/-- `MAX` (std). Used for src/convert.rs:16-27. -/
def max (ptr : Nat) (t : IntTy) : Int :=
  if t.signed then 2 ^ (t.bits ptr - 1) - 1 else 2 ^ (t.bits ptr) - 1
/-- The `$marker` argument of `impl_integer!`. src/convert.rs:68-77. -/
def marker : IntTy → BuiltinType
  | i8 => .i8 | u8 => .u8 | i16 => .i16 | u16 => .u16 | i32 => .i32 | u32 => .u32
  | i64 => .i64 | u64 => .u64 | isize => .isize | usize => .usize
/-- `stringify!($typ)`. src/convert.rs:59. -/
def name : IntTy → Str
  | i8 => "i8".toList | u8 => "u8".toList | i16 => "i16".toList | u16 => "u16".toList
  | i32 => "i32".toList | u32 => "u32".toList | i64 => "i64".toList | u64 => "u64".toList
  | isize => "isize".toList | usize => "usize".toList
end IntTy

/-- `char::to_digit` (std). Used for src/convert.rs:16-27. -/
def toDigit (radix : Nat) (c : Char) : Option Nat :=
  let v :=
    if '0' ≤ c ∧ c ≤ '9' then some (c.toNat - '0'.toNat)
    else if 'a' ≤ c ∧ c ≤ 'z' then some (c.toNat - 'a'.toNat + 10)
    else if 'A' ≤ c ∧ c ≤ 'Z' then some (c.toNat - 'A'.toNat + 10)
    else none
  match v with
  | some d => if d < radix then some d else none
  | none => none

/-- Checked arithmetic of a machine integer type with range `lo..=hi` (std). Used for src/convert.rs:16-27. -/
def checked (lo hi x : Int) : Option Int := if lo ≤ x ∧ x ≤ hi then some x else none

/-- The loop of `from_str_radix` (std `core::num`): `neg` subtracts digits
instead of adding them.  The unchecked fast path for short inputs, which gives
the same results, is not modelled. Used for src/convert.rs:16-27. -/
def radixLoop (lo hi : Int) (radix : Nat) (neg : Bool) : Str → Int → Except IntErrorKind Int
  | [], acc => .ok acc
  | c :: cs, acc =>
    match toDigit radix c with
    | none => .error .invalidDigit
    | some d =>
      match checked lo hi (acc * radix) with
      | none => .error (if neg then .negOverflow else .posOverflow)
      | some m =>
        match checked lo hi (if neg then m - d else m + d) with
        | none => .error (if neg then .negOverflow else .posOverflow)
        | some acc' => radixLoop lo hi radix neg cs acc'

/-- `<$typ>::from_str_radix` (std `core::num`). Used for src/convert.rs:16-27. -/
def fromStrRadix (signed : Bool) (lo hi : Int) (radix : Nat) (s : Str) : Except IntErrorKind Int :=
  match s with
  | [] => .error .empty
  | ['+'] => .error .invalidDigit
  | ['-'] => .error .invalidDigit
  | '+' :: cs => radixLoop lo hi radix false cs 0
  | '-' :: cs => if signed then radixLoop lo hi radix true cs 0
    else radixLoop lo hi radix false ('-' :: cs) 0
  | cs => radixLoop lo hi radix false cs 0

/-- The radix passed to `from_str_radix`. src/convert.rs:19-24. -/
def Radix.base : Radix → Nat
  | .bin => 2
  | .oct => 8
  | .dec => 10
  | .hex => 16

/-- `TryFrom<&Integer> for $typ`. src/convert.rs:15-26; `from_str` is
`from_str_radix` with radix 10 (std). -/
def IntTy.tryFrom (ptr : Nat) (t : IntTy) (radix : Radix) (s : Str) : Except IntErrorKind Int :=
  fromStrRadix t.signed (t.min ptr) (t.max ptr) radix.base s

variable {E S : Type}

/-- `type_check` of the number types. src/convert.rs:49-63, 110-124. -/
def numTypeCheck (marker : BuiltinType) (rustType : Str) (tn : Option (Spanned TypeName S)) : D E S Unit :=
  match tn with
  | some typ =>
    if typ.value.asBuiltin ≠ some marker then
      D.emit (.typeName typ.span (some typ.value) (ExpectedType.optional (.builtin marker)) rustType)
    else pure ()
  | none => pure ()

/-- `DecodeScalar for $typ` of `impl_integer!`. src/convert.rs:28-64. -/
def intScalar (ptr : Nat) (t : IntTy) : Scalar E S Int :=
  Scalar.provided (numTypeCheck t.marker t.name) fun val =>
    match val.value with
    | .int radix digits =>
      match t.tryFrom ptr radix digits with
      | .ok v => pure v
      | .error e => do
        D.emit (DErr.conv val (.parseInt e))
        pure 0
    | _ => do
      D.emit (DErr.kind .string val)
      pure 0

/-- The types of the `impl_float!` invocations. src/convert.rs:129-130. -/
inductive FloatTy where
  | f32 | f64
deriving DecidableEq, Repr

/-- src/convert.rs:129-130. -/
def FloatTy.marker : FloatTy → BuiltinType
  | f32 => .f32 | f64 => .f64
/-- src/convert.rs:120. -/
def FloatTy.name : FloatTy → Str
  | f32 => "f32".toList | f64 => "f64".toList

/-- ASCII digits at the start of a text, and the rest. Used for src/convert.rs:82-88. -/
def spanDigits : Str → Str × Str
  | [] => ([], [])
  | c :: cs => if '0' ≤ c ∧ c ≤ '9' then (c :: (spanDigits cs).1, (spanDigits cs).2) else ([], c :: cs)

/-- An optional sign is dropped (std `dec2flt`). Used for src/convert.rs:82-88. -/
def dropSign : Str → Str
  | '+' :: cs => cs
  | '-' :: cs => cs
  | cs => cs

/-- The exponent part of a float: nothing, or `e`/`E`, an optional sign and at
least one digit, up to the end (std `dec2flt`). Used for src/convert.rs:82-88. -/
def exponentSyntax : Str → Bool
  | [] => true
  | c :: cs =>
    (c = 'e' || c = 'E') && !(spanDigits (dropSign cs)).1.isEmpty && (spanDigits (dropSign cs)).2.isEmpty

/-- The number part of a float without sign: digits with an optional point
among them, at least one digit, and an exponent (std `dec2flt`). Used for src/convert.rs:82-88. -/
def numberSyntax (s : Str) : Bool :=
  match (spanDigits s).2 with
  | '.' :: rest =>
    !((spanDigits s).1.isEmpty && (spanDigits rest).1.isEmpty) && exponentSyntax (spanDigits rest).2
  | rest => !(spanDigits s).1.isEmpty && exponentSyntax rest

/-- The non-finite words, whatever the case (std `dec2flt`). Used for src/convert.rs:82-88. -/
def specialFloat (s : Str) : Bool :=
  let l := s.map Char.toLower
  l = "inf".toList || l = "infinity".toList || l = "nan".toList

/-- The texts `f32::from_str` and `f64::from_str` accept (std `dec2flt`). Used for src/convert.rs:82-88. -/
def floatSyntax (s : Str) : Bool :=
  !s.isEmpty && (numberSyntax (dropSign s) || specialFloat (dropSign s))

/-- `DecodeScalar for $typ` of `impl_float!`. src/convert.rs:79-127.  `F` is the
float type, `round` the value of a well-formed text (correct rounding is not
modelled), `zero` the literal `0.0`. -/
def floatScalar {F : Type} (t : FloatTy) (round : Str → F) (zero : F) : Scalar E S F :=
  Scalar.provided (numTypeCheck t.marker t.name) fun val =>
    match val.value with
    | .decimal text =>
      if floatSyntax text then pure (round text)
      else do
        D.emit (DErr.conv val (.parseFloat text.isEmpty))
        pure zero
    | _ => do
      D.emit (DErr.kind .string val)
      pure zero

/-- `type_check` of the types that take no annotation. src/convert.rs:144-155,
171-182, 197-208, 223-234, 249-260; derive/src/scalar.rs:125-137. -/
def noTypeCheck (rustType : Str) (tn : Option (Spanned TypeName S)) : D E S Unit :=
  match tn with
  | some typ => D.emit (.typeName typ.span (some typ.value) ExpectedType.none rustType)
  | none => pure ()

/-- `raw_decode` of the text types. src/convert.rs:133-143, 160-170, 186-196,
212-222: `String`, `PathBuf`, `Arc<Path>` and `Arc<str>` are all made from the
text of the literal unchanged. -/
def textRaw (val : Spanned Literal S) : D E S Str :=
  match val.value with
  | .string s => pure s
  | _ => do
    D.emit (DErr.kind .string val)
    pure []

/-- `DecodeScalar for String`. src/convert.rs:132-156. -/
def stringScalar : Scalar E S Str := Scalar.provided (noTypeCheck "String".toList) textRaw
/-- `DecodeScalar for PathBuf`. src/convert.rs:159-183. -/
def pathBufScalar : Scalar E S Str := Scalar.provided (noTypeCheck "PathBuf".toList) textRaw
/-- `DecodeScalar for Arc<Path>`. src/convert.rs:185-209. -/
def arcPathScalar : Scalar E S Str := Scalar.provided (noTypeCheck "Arc<Path>".toList) textRaw
/-- `DecodeScalar for Arc<str>`. src/convert.rs:211-235. -/
def arcStrScalar : Scalar E S Str := Scalar.provided (noTypeCheck "Arc<str>".toList) textRaw

/-- `DecodeScalar for bool`. src/convert.rs:237-261. -/
def boolScalar : Scalar E S Bool :=
  Scalar.provided (noTypeCheck "bool".toList) fun val =>
    match val.value with
    | .bool b => pure b
    | _ => do
      D.emit (DErr.kind .bool val)
      pure false

end Knuffel
