import Verif.Spec.Cst
import Verif.Model.Wrappers
/-!
# Specification: how deep the recursion goes

The parsers of nodes and of block comments call themselves.  A call inside `k` others is made of the parser with the
bound `k`: where the bound is exceeded the run is marked as failed for good (`tooDeep`, which counts as a panic).
-/

namespace Knuffel

section
variable {O : Type} [Offset O]

/-- The parser of documents, in which at most `k` calls of the parser of nodes are inside one another.
src/grammar.rs:511-595. -/
def documentTo (k : Nat) : P O (Document (Sp O)) := pmap (fun nodes => ⟨nodes⟩) (thenIgnore (nodesRec k) endP)

/-- The parser of block comments, in which at most `k` calls of it are inside one another. src/grammar.rs:127-153. -/
def mlCommentTo (k : Nat) : P O Unit := mapErrWithSpan mlCommentErr (mlCommentRec k)

end

/-- `parse_ast` in which at most `k` calls of the parser of nodes are inside one another; `none` is that there would
be more of them (or another panic). src/wrappers.rs:13-24. -/
def parseAstTo (k : Nat) (text : Str) : Option (Except (List (PErr Nat)) (Document (Sp Nat))) :=
  runParser (documentTo k) (offsetEoi text) (offsetToks 0 text)

/-- The same with spans of lines and columns. src/wrappers.rs:13-24. -/
def parseAstLineTo (k : Nat) (width : Char → Nat) (strWidth : Str → Nat) (text : Str) :
    Option (Except (List (PErr LinePos)) (Document (Sp LinePos))) :=
  runParser (documentTo k) (lineEoi strWidth text) (lineToks width .init text)

namespace Cst

mutual
/-- How many blocks are inside one another in a node, also where they are commented out. -/
def NodeC.depth : NodeC → Nat
  | .mk _ _ _ children _ _ => children.depth
/-- The same for an optional block. -/
def ChildrenC.depth : ChildrenC → Nat
  | .none => 0
  | .some _ _ body => body.depth + 1
/-- The same for a sequence of nodes. -/
def BodyC.depth : BodyC → Nat
  | .nil _ => 0
  | .cons _ _ node rest => max node.depth rest.depth
end

/-- How many comments are inside one another in the inside of a block comment. -/
def Block.depth : Block → Nat
  | .nil => 0
  | .char _ rest => rest.depth
  | .nested inner rest => max (inner.depth + 1) rest.depth

end Cst

/-- The number of `{` in a text, wherever they are. -/
def braces (text : Str) : Nat := text.count '{'

/-- The number of places in a text where there is `/*`. -/
def slashStars : Str → Nat
  | '/' :: '*' :: rest => slashStars ('*' :: rest) + 1
  | _ :: rest => slashStars rest
  | [] => 0

end Knuffel
