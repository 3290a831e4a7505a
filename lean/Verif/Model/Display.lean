import Verif.Model.Errors
import Verif.Model.Decode
/-!
# Messages of the errors

Models the `Display` implementations of `src/errors.rs` and what the derives of
`thiserror` and `miette` make of the attributes there: the message, the labels
and the help of each error.  How `miette` lays them out on the terminal is not
modelled.
-/

namespace Knuffel

/-- `Display for TokenFormat`. src/errors.rs:228-262. -/
def TokenFormat.show : TokenFormat → Str
  | .char c =>
    if c = '"' then ['`', '"', '`']
    else if c = '\'' then ['`', '\'', '`']
    else if c = '\\' then ['`', '\\', '`']
    else '`' :: (escapeChar c ++ ['`'])
  | .token s => '`' :: (escapeDefault s ++ ['`'])
  | .kind s => s
  | .eoi => "end of input".toList
  | .openRaw n => "`r".toList ++ List.replicate n '#' ++ "\"`".toList
  | .closeRaw n => "`\"".toList ++ List.replicate n '#' ++ "`".toList

/-- `Display for FormatUnexpected`. src/errors.rs:266-283: the first item, the
last one (`next_back`), and those between. -/
def formatUnexpected (found : TokenFormat) (expected : List TokenFormat) : Str :=
  "found ".toList ++ found.show ++
    match expected with
    | [] => []
    | item :: iter =>
      ", expected ".toList ++ item.show ++
      (iter.dropLast.flatMap fun item => ", ".toList ++ item.show) ++
      match iter.getLast? with
      | none => []
      | some item => " or ".toList ++ item.show

namespace PErr
variable {O : Type}

/-- The message: the `#[error]` attributes of src/errors.rs:163-203. -/
def text : PErr O → Str
  | unexpected _ _ found expected => formatUnexpected found expected
  | unclosed label _ opened _ _ _ => "unclosed ".toList ++ label ++ " ".toList ++ opened.show
  | message _ _ m => m
  | messageWithHelp _ _ m _ => m

/-- The labels with their places: the `#[label]` attributes of
src/errors.rs:163-203. -/
def labels : PErr O → List (Str × Sp O)
  | unexpected label span _ _ => [(label.getD "unexpected token".toList, span)]
  | unclosed _ openedAt _ expectedAt expected _ =>
    [("opened here".toList, openedAt), ("expected ".toList ++ expected.show, expectedAt)]
  | message label span _ => [(label.getD "unexpected token".toList, span)]
  | messageWithHelp label span _ _ => [(label.getD "unexpected token".toList, span)]

/-- The `help` of src/errors.rs:195. -/
def help : PErr O → Option Str
  | messageWithHelp _ _ _ h => some h
  | _ => none

end PErr

/-- `Display for ExpectedType`. src/errors.rs:496-521. -/
def ExpectedType.show (e : ExpectedType) : Str :=
  match e.types with
  | [] => "no type".toList
  | first :: iter =>
    let last := if e.noType then Option.none else iter.getLast?
    let iter := if e.noType then iter else iter.dropLast
    first.asStr ++ (iter.flatMap fun item => ", ".toList ++ item.asStr) ++
      if e.noType then " or no type".toList
      else match last with
        | some last => " or ".toList ++ last.asStr
        | .none => []

/-- `Display for ParseIntError` (std). Used for src/errors.rs:122-129. -/
def IntErrorKind.show : IntErrorKind → Str
  | .empty => "cannot parse integer from empty string".toList
  | .invalidDigit => "invalid digit found in string".toList
  | .posOverflow => "number too large to fit in target type".toList
  | .negOverflow => "number too small to fit in target type".toList

/-- `Display` of the boxed errors (std for the numbers). src/errors.rs:122. -/
def ErrSource.show : ErrSource → Str
  | .parseInt k => k.show
  | .parseFloat true => "cannot parse float from empty string".toList
  | .parseFloat false => "invalid float literal".toList
  | .text m => m

namespace DErr
variable {S : Type}

/-- The message: the `#[error]` attributes of src/errors.rs:37-149. -/
def message : DErr S → Str
  | typeName _ found expected rustType =>
    expected.show ++ " for ".toList ++ rustType ++ ", found ".toList ++
      (found.map TypeName.asStr).getD "no type name".toList
  | scalarKind _ expected found =>
    "expected ".toList ++ expected.asStr ++ " scalar, found ".toList ++ found.asStr
  | missing _ m => m
  | missingNode m => m
  | unexpected _ _ m => m
  | conversion _ source => source.show
  | unsupported _ m => m
  | custom m => m

/-- The labels with their places: the `#[label]` attributes of
src/errors.rs:37-149. -/
def labels : DErr S → List (Str × S)
  | typeName s _ _ _ => [("unexpected type name".toList, s)]
  | scalarKind s _ found => [("unexpected ".toList ++ found.asStr, s)]
  | missing s _ => [("node starts here".toList, s)]
  | missingNode _ => []
  | unexpected s kind _ => [("unexpected ".toList ++ kind, s)]
  | conversion s _ => [("invalid value".toList, s)]
  | unsupported s _ => [("unsupported value".toList, s)]
  | custom _ => []

end DErr

end Knuffel
