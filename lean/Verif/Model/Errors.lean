import Verif.Model.Span
/-!
# Parse errors

Models the parse-error half of `src/errors.rs`.  `&'static str` and `String`
are `Str`; `BTreeSet<TokenFormat>` is a strictly sorted list.
-/

namespace Knuffel

/-- src/errors.rs:151-159. -/
inductive TokenFormat where
  | char (c : Char)
  | token (s : Str)
  | kind (s : Str)
  | openRaw (n : Nat)
  | closeRaw (n : Nat)
  | eoi
deriving DecidableEq, Repr

/-- Order of `str`: bytewise, which for UTF-8 is the lexicographic order of the
code points.  Used by the derived `Ord` of src/errors.rs:151 and by the
`BTreeMap` of src/ast.rs:44. -/
def strLt : Str → Str → Bool
  | [], [] => false
  | [], _ :: _ => true
  | _ :: _, [] => false
  | a :: as, b :: bs => if a.val < b.val then true else if a = b then strLt as bs else false

namespace TokenFormat

/-- Constructor index for the derived `Ord`. src/errors.rs:151-159. -/
def tag : TokenFormat → Nat
  | char _ => 0 | token _ => 1 | kind _ => 2 | openRaw _ => 3 | closeRaw _ => 4 | eoi => 5

/-- Derived `Ord` (strict part). src/errors.rs:151. -/
def lt : TokenFormat → TokenFormat → Bool
  | char a, char b => a.val < b.val
  | token a, token b => strLt a b
  | kind a, kind b => strLt a b
  | openRaw a, openRaw b => a < b
  | closeRaw a, closeRaw b => a < b
  | a, b => a.tag < b.tag

/-- `From<Option<char>>`. src/errors.rs:206-214. -/
def ofOpt : Option Char → TokenFormat
  | some c => char c
  | none => eoi

end TokenFormat

/-- `BTreeSet::insert` on a sorted list (external, std). Used for src/errors.rs:342-347, 366. -/
def setInsert (t : TokenFormat) : List TokenFormat → List TokenFormat
  | [] => [t]
  | x :: xs => if t = x then x :: xs else if t.lt x then t :: x :: xs else x :: setInsert t xs

/-- `BTreeSet::extend`. Used for src/errors.rs:366. -/
def setExtend (dest : List TokenFormat) (other : List TokenFormat) : List TokenFormat :=
  other.foldl (fun d t => setInsert t d) dest

/-- `collect::<BTreeSet<_>>()`. Used for src/errors.rs:342-347; src/grammar.rs:206. -/
def setOf (l : List TokenFormat) : List TokenFormat := setExtend [] l

/-- `ParseError`. src/errors.rs:163-203. -/
inductive PErr (O : Type) where
  | unexpected (label : Option Str) (span : Sp O) (found : TokenFormat) (expected : List TokenFormat)
  | unclosed (label : Str) (openedAt : Sp O) (opened : TokenFormat) (expectedAt : Sp O)
      (expected : TokenFormat) (found : TokenFormat)
  | message (label : Option Str) (span : Sp O) (message : Str)
  | messageWithHelp (label : Option Str) (span : Sp O) (message : Str) (help : Str)
deriving DecidableEq, Repr

namespace PErr
variable {O O' : Type}

/-- src/errors.rs:285-294. -/
def withExpectedToken (t : Str) : PErr O → PErr O
  | unexpected l s f _ => unexpected l s f [.token t]
  | e => e
/-- src/errors.rs:295-304. -/
def withExpectedKind (t : Str) : PErr O → PErr O
  | unexpected l s f _ => unexpected l s f [.kind t]
  | e => e
/-- src/errors.rs:305-314. -/
def withNoExpected : PErr O → PErr O
  | unexpected l s f _ => unexpected l s f []
  | e => e
/-- src/errors.rs:316-331. -/
def mapSpan (g : Sp O → Sp O') : PErr O → PErr O'
  | unexpected l s f e => unexpected l (g s) f e
  | unclosed l oa o ea e f => unclosed l (g oa) o (g ea) e f
  | message l s m => message l (g s) m
  | messageWithHelp l s m h => messageWithHelp l (g s) m h
/-- `expected_input_found`. src/errors.rs:337-348. -/
def expectedFound (span : Sp O) (expected : List (Option Char)) (found : Option Char) : PErr O :=
  unexpected none span (.ofOpt found) (setOf (expected.map .ofOpt))
/-- `merge`. src/errors.rs:359-372.  `none` is the `todo!` panic of line 370. -/
def merge : PErr O → PErr O → Option (PErr O)
  | unclosed l oa o ea e f, _ => some (unclosed l oa o ea e f)
  | _, unclosed l oa o ea e f => some (unclosed l oa o ea e f)
  | unexpected l s f dest, unexpected _ _ _ expected =>
    some (unexpected l s f (setExtend dest expected))
  | _, _ => none
/-- `matches!(&e, Error::Unexpected { found: TokenFormat::Eoi, .. })`.
src/grammar.rs:137, 165, 245, 519. -/
def isEoi : PErr O → Bool
  | unexpected _ _ .eoi _ => true
  | _ => false

end PErr

end Knuffel
