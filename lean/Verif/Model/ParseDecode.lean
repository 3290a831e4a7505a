import Verif.Model.Wrappers
import Verif.Model.Context
/-!
# Parsing and decoding in one go

Models `parse` and `parse_with_context` of `src/wrappers.rs`.
-/

namespace Knuffel

/-- The errors collected in `Error::errors`: `miette::Report`s made from parse
errors or from decode errors. src/errors.rs:24-32. -/
inductive AnyErr (O : Type) where
  | parse (e : PErr O)
  | decode (e : DErr (Sp O))
deriving DecidableEq, Repr

/-- `parse_with_context`. src/wrappers.rs:35-59; `ast` is the result of
`parse_ast` on the text.  `none` is a panic.  The file name and source text
attached for display are not modelled, and `set_ctx` does not panic. -/
def decodeParsed {O α : Type} {T : TypeId → Type}
    (ast : Option (Except (List (PErr O)) (Document (Sp O))))
    (setCtx : Ctx (Extensions T) (Sp O) → Ctx (Extensions T) (Sp O))
    (dec : ChildrenDecoder (Extensions T) (Sp O) α) : Option (Except (List (AnyErr O)) α) :=
  match ast with
  | none => none
  | some (.error errors) => some (.error (errors.map .parse))
  | some (.ok doc) =>
    match dec doc.nodes (setCtx Ctx.new) with
    | .ok v c => if c.hasErrors then some (.error (c.intoErrors.map .decode)) else some (.ok v)
    | .err e c => some (.error ((c.emitError e).intoErrors.map .decode))
    | .panic => none

/-- `parse_with_context::<T, Span, _>`. src/wrappers.rs:35-59. -/
def parseWithContext {α : Type} {T : TypeId → Type}
    (setCtx : Ctx (Extensions T) (Sp Nat) → Ctx (Extensions T) (Sp Nat))
    (dec : ChildrenDecoder (Extensions T) (Sp Nat) α) (text : Str) :
    Option (Except (List (AnyErr Nat)) α) :=
  decodeParsed (parseAst text) setCtx dec

/-- `parse_with_context::<T, LineSpan, _>`. src/wrappers.rs:35-59. -/
def parseWithContextLine {α : Type} {T : TypeId → Type} (width : Char → Nat) (strWidth : Str → Nat)
    (setCtx : Ctx (Extensions T) (Sp LinePos) → Ctx (Extensions T) (Sp LinePos))
    (dec : ChildrenDecoder (Extensions T) (Sp LinePos) α) (text : Str) :
    Option (Except (List (AnyErr LinePos)) α) :=
  decodeParsed (parseAstLine width strWidth text) setCtx dec

/-- `parse`. src/wrappers.rs:27-31. -/
def parseDecode {α : Type} {T : TypeId → Type} (dec : ChildrenDecoder (Extensions T) (Sp Nat) α)
    (text : Str) : Option (Except (List (AnyErr Nat)) α) :=
  parseWithContext id dec text

end Knuffel
