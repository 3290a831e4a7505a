import Verif.Spec.Quoting
import Verif.Spec.Complaints
/-!
# Specification: the words of messages about values and names
-/

namespace Knuffel
open Cst

/-- What a literal is called. -/
inductive CalledBy : Literal → Str → Prop where
  | integer (r : Radix) (s : Str) : CalledBy (.int r s) "integer".toList
  | decimal (s : Str) : CalledBy (.decimal s) "decimal".toList
  | string (s : Str) : CalledBy (.string s) "string".toList
  | boolean (b : Bool) : CalledBy (.bool b) "boolean".toList
  | null : CalledBy .null "null".toList

/-- How a character is shown inside of a name: like `ShownAs`, but with a backslash before the
quotes and the backslash. -/
inductive ShownIn : Char → Str → Prop where
  | escaped {c : Char} : c ∈ ['"', '\'', '\\'] → ShownIn c ['\\', c]
  | other {c : Char} {t : Str} : c ∉ ['"', '\'', '\\'] → ShownAs c t → ShownIn c t

/-- How a name is shown: character by character. -/
inductive NameShown : Str → Str → Prop where
  | nil : NameShown [] []
  | cons {c : Char} {s t u : Str} : ShownIn c t → NameShown s u → NameShown (c :: s) (t ++ u)

/-- A number in decimal notation, without zeros before it. -/
inductive DecimalOf : Nat → Str → Prop where
  | digit {d : Nat} : d < 10 → DecimalOf d [Char.ofNat (48 + d)]
  | more {n d : Nat} {t : Str} : 0 < n → d < 10 → DecimalOf n t → DecimalOf (10 * n + d) (t ++ [Char.ofNat (48 + d)])

end Knuffel
