import Verif.Model.Decode
/-!
# Decoding into the syntax tree

Models `src/convert_ast.rs`.
-/

namespace Knuffel
variable {E S T : Type}

/-- `as_ref().map(|n| n.clone_as(ctx))`. src/convert_ast.rs:15, 71. -/
def cloneOpt {α : Type} (ds : SpanDecoder E S T) : Option (Spanned α S) → D E S (Option (Spanned α T))
  | some n => do
    let n' ← n.cloneAs ds
    pure (some n')
  | none => pure none

/-- `DecodeScalar for Value<T>`. src/convert_ast.rs:54-75. -/
def valueScalar (ds : SpanDecoder E S T) : Scalar E S (Value T) where
  typeCheck _ := pure ()
  rawDecode _ := D.panic
  decode v := do
    let t ← cloneOpt ds v.typeName
    let l ← v.literal.cloneAs ds
    pure ⟨t, l⟩

/-- `DecodeScalar for Literal`. src/convert_ast.rs:77-89. -/
def literalScalar : Scalar E S Literal :=
  Scalar.provided (fun _ => pure ()) fun value => pure value.value

/-- The properties of a decoded node: `collect` into a `BTreeMap` inserts them
one after the other. src/convert_ast.rs:20-24. -/
def astProperties (ds : SpanDecoder E S T) (ps : List (Spanned Str S × Value S)) :
    D E S (List (Spanned Str T × Value T)) := do
  let l ← D.collect (fun p => do
    let k ← p.1.cloneAs ds
    let v ← (valueScalar ds).decode p.2
    pure (k, v)) ps
  pure (l.foldl (fun m p => propInsert p.1 p.2 m) [])

mutual
/-- `Decode for Node<T>`. src/convert_ast.rs:7-38. -/
def astNode (ds : SpanDecoder E S T) : Node S → D E S (Node T)
  | .mk typeName nodeName arguments properties children => do
    let t ← cloneOpt ds typeName
    let n ← nodeName.cloneAs ds
    let a ← D.collect (valueScalar ds).decode arguments
    let p ← astProperties ds properties
    let c ← astChildren ds children
    pure (.mk t n a p c)
/-- The `children` field. src/convert_ast.rs:25-35. -/
def astChildren (ds : SpanDecoder E S T) :
    Option (Spanned (List (Spanned (Node S) S)) S) → D E S (Option (Spanned (List (Spanned (Node T) T)) T))
  | none => pure none
  | some ⟨span, nodes⟩ => do
    let s ← ds.run span
    let l ← astNodes ds nodes
    pure (some ⟨s, l⟩)
/-- The nodes of the `children` field. src/convert_ast.rs:28-33. -/
def astNodes (ds : SpanDecoder E S T) : List (Spanned (Node S) S) → D E S (List (Spanned (Node T) T))
  | [] => pure []
  | ⟨span, node⟩ :: rest => do
    let s ← ds.run span
    let n ← astNode ds node
    let l ← astNodes ds rest
    pure (⟨s, n⟩ :: l)
end

/-- `Decode for Node<T>`. src/convert_ast.rs:7-38. -/
def astNodeDecoder (ds : SpanDecoder E S T) : NodeDecoder E S (Node T) := fun node => astNode ds node.value

/-- `Decode for SpannedNode<T>`. src/convert_ast.rs:40-52. -/
def astSpannedDecoder (ds : SpanDecoder E S T) : NodeDecoder E S (SpannedNode T) := fun node => do
  let s ← ds.run node.span
  let n ← astNode ds node.value
  pure ⟨s, n⟩

end Knuffel
