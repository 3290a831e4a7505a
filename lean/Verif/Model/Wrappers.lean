import Verif.Model.Grammar
/-!
# Entry points

Models `parse_ast` of `src/wrappers.rs`.
-/

namespace Knuffel

/-- `parse_ast::<Span>`. src/wrappers.rs:13-24.  `none` is a panic; the error
value carries the individual parse errors (the file name and source text that
are attached for display are not modelled). -/
def parseAst (text : Str) : Option (Except (List (PErr Nat)) (Document (Sp Nat))) :=
  runParser document (offsetEoi text) (offsetToks 0 text)

/-- `parse_ast::<LineSpan>`. src/wrappers.rs:13-24, for arbitrary width functions
of the `unicode-width` crate. -/
def parseAstLine (width : Char → Nat) (strWidth : Str → Nat) (text : Str) :
    Option (Except (List (PErr LinePos)) (Document (Sp LinePos))) :=
  runParser document (lineEoi strWidth text) (lineToks width .init text)

end Knuffel
