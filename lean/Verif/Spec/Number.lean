import Verif.Model.Convert
/-!
# Specification: numbers and their texts

What number a text of digits denotes, written without reference to `from_str_radix`, and
the ranges of the integer types.
-/

namespace Knuffel

/-- The number of different digits of a radix. -/
def baseOf : Radix → Nat
  | .bin => 2
  | .oct => 8
  | .dec => 10
  | .hex => 16

/-- `c` is the digit `d` in the base: the `d`-th of the usual digits, in either case. -/
def DigitIs (base : Nat) (c : Char) (d : Nat) : Prop :=
  d < base ∧ ("0123456789abcdef".toList[d]? = some c ∨ "0123456789ABCDEF".toList[d]? = some c)

/-- The text consists of one or more digits and denotes this number. -/
inductive Denotes (base : Nat) : Str → Nat → Prop where
  | one {c : Char} {d : Nat} (h : DigitIs base c d) : Denotes base [c] d
  | snoc {s : Str} {n : Nat} {c : Char} {d : Nat} (hs : Denotes base s n) (h : DigitIs base c d) :
      Denotes base (s ++ [c]) (n * base + d)

/-- The text is a number with an optional sign; `minus` says whether the sign is a minus,
and `v` is the number. -/
inductive IntText (base : Nat) : Str → (minus : Bool) → (v : Int) → Prop where
  | plain {s : Str} {n : Nat} (h : Denotes base s n) : IntText base s false n
  | plus {s : Str} {n : Nat} (h : Denotes base s n) : IntText base ('+' :: s) false n
  | minus {s : Str} {n : Nat} (h : Denotes base s n) : IntText base ('-' :: s) true (-n)

/-- The least and the greatest value of a Rust integer type; `ptr` is the number of bits
of a pointer. -/
def rangeOf (ptr : Nat) : IntTy → Int × Int
  | .i8 => (-128, 127)
  | .u8 => (0, 255)
  | .i16 => (-32768, 32767)
  | .u16 => (0, 65535)
  | .i32 => (-2147483648, 2147483647)
  | .u32 => (0, 4294967295)
  | .i64 => (-9223372036854775808, 9223372036854775807)
  | .u64 => (0, 18446744073709551615)
  | .isize => (-2 ^ (ptr - 1), 2 ^ (ptr - 1) - 1)
  | .usize => (0, 2 ^ ptr - 1)

/-- The types without negative values. -/
def unsignedTypes : List IntTy := [.u8, .u16, .u32, .u64, .usize]

/-- `v` is what the text stands for in the type `t`: the number denoted is in the range of
the type, and there is no minus sign if the type has no negative numbers (not even `-0`). -/
def FitsAs (ptr : Nat) (t : IntTy) (r : Radix) (s : Str) (v : Int) : Prop :=
  ∃ minus, IntText (baseOf r) s minus v ∧ (rangeOf ptr t).1 ≤ v ∧ v ≤ (rangeOf ptr t).2 ∧
    (t ∈ unsignedTypes → minus = false)

/-- Decimal digits only. -/
def AllDigits (s : Str) : Prop := ∀ c ∈ s, c ∈ "0123456789".toList

/-- The exponent of a float: nothing, or `e` or `E`, an optional sign and at least one digit. -/
def FloatExponent (s : Str) : Prop :=
  s = [] ∨ ∃ x sign ds, s = x :: (sign ++ ds) ∧ (x = 'e' ∨ x = 'E') ∧ (sign = [] ∨ sign = ['+'] ∨ sign = ['-']) ∧
    AllDigits ds ∧ ds ≠ []

/-- The texts Rust reads as floats: an optional sign, and then digits with an optional point,
at least one digit in all, and an exponent; or one of the words for infinity and
not-a-number, whatever the case. -/
def FloatText (s : Str) : Prop :=
  ∃ sign u, s = sign ++ u ∧ (sign = [] ∨ sign = ['+'] ∨ sign = ['-']) ∧
    ((∃ a b e, (u = a ++ e ∧ b = [] ∨ u = a ++ '.' :: (b ++ e)) ∧ AllDigits a ∧ AllDigits b ∧ a ++ b ≠ [] ∧ FloatExponent e) ∨
     u.map Char.toLower ∈ ["inf".toList, "infinity".toList, "nan".toList])

end Knuffel
