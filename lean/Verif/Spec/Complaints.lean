import Verif.Spec.Derive
/-!
# Specification: what decode errors say

When is an error that a decoder reports true of what was decoded?  First for a value, then for
the parts of a node: which complaints there can be about the arguments, the properties, the
children and the head of a node that is decoded into a struct.
-/

namespace Knuffel
variable {E S V α : Type}

/-- Whatever the context, `d` reports nothing but errors of which `P` holds (unless it panics). -/
def OnlyReports (P : DErr S → Prop) (d : D E S α) : Prop :=
  ∀ c, d c ≠ .panic → ∃ es, Reports d c es ∧ ∀ e ∈ es, P e

/-- In some context `d` reports `e`. -/
def ReportedBy (d : D E S α) (e : DErr S) : Prop := ∃ c es, Reports d c es ∧ e ∈ es

/-! ### Values -/

/-- What the error says of the value `v` is true, for a type that is written by literals of
the kinds `kinds` and takes the annotations `types` or none:
* "expected `shown`, found …": at the literal, which is of the kind found, which is none of `kinds`;
* "unexpected type name": at the annotation, which is not one of `types`, and those are what is said to be expected;
* a conversion error: at the literal, which is of one of the kinds. -/
def DErr.TrueOf (kinds : List Kind) (shown : Kind) (types : List TypeName) (v : Value S) : DErr S → Prop
  | .scalarKind span expected found =>
    span = v.literal.span ∧ found = v.literal.value.kind ∧ found ∉ kinds ∧ expected = shown
  | .typeName span found expected _ =>
    ∃ tn, v.typeName = some tn ∧ span = tn.span ∧ found = some tn.value ∧ tn.value ∉ types ∧ expected = ⟨types, true⟩
  | .conversion span _ => span = v.literal.span ∧ v.literal.value.kind ∈ kinds
  | _ => False

/-- All that the decoder reports of a value is true of it; so is what its parts report of an
annotation and of a literal. -/
structure Scalar.Truthful (d : Scalar E S α) (kinds : List Kind) (shown : Kind) (types : List TypeName) : Prop where
  decode : ∀ v, OnlyReports (DErr.TrueOf kinds shown types v) (d.decode v)
  typeCheck : ∀ v : Value S, OnlyReports (fun e => ∃ span found expected rust, e = .typeName span found expected rust ∧
    e.TrueOf kinds shown types v) (d.typeCheck v.typeName)
  rawDecode : ∀ lit : Spanned Literal S, OnlyReports (DErr.TrueOf kinds shown types ⟨none, lit⟩) (d.rawDecode lit)

/-! ### Nodes that should be mere flags -/

/-- The errors for a node that should have no content: one for each argument, each property and
each child node. -/
inductive FlagComplaint (node : SpannedNode S) : DErr S → Prop where
  | argument {v : Value S} : v ∈ node.value.arguments →
    FlagComplaint node (.unexpected v.literal.span "argument".toList "unexpected argument".toList)
  | property {p : Spanned Str S × Value S} : p ∈ node.value.properties →
    FlagComplaint node (.unexpected p.1.span "property".toList
      ("unexpected property `".toList ++ escapeDefault p.1.value ++ "`".toList))
  | child {block : Spanned (List (SpannedNode S)) S} {n : SpannedNode S} : node.value.children = some block → n ∈ block.value →
    FlagComplaint node (.unexpected n.span "node".toList
      ("unexpected node `".toList ++ escapeDefault n.value.nodeName.value ++ "`".toList))

/-! ### The parts of a node -/

section
variable [Externals] (s : Struct E S V)

/-- The complaints about the head of a node: its name and type name. -/
inductive HeadComplaint (node : SpannedNode S) : DErr S → Prop where
  /-- what a `span` field says of the span -/
  | span {f : SpanField E S V} {e : DErr S} : f ∈ s.spans → ReportedBy (f.impls.span.run node.span) e →
    HeadComplaint node e
  /-- the node name is not what a `node_name` field wants -/
  | nodeName {f : NodeNameField E S V} {m : Str} : f ∈ s.nodeNames →
    f.impls.fromStr node.value.nodeName.value = .error m →
    HeadComplaint node (.conversion node.value.nodeName.span (.text m))
  /-- the type name is not what a `type_name` field wants -/
  | typeName {f : TypeNameField E S V} {tn : Spanned TypeName S} {m : Str} : f ∈ s.typeNames →
    node.value.typeName = some tn → f.impls.fromStr tn.value.asStr = .error m →
    HeadComplaint node (.conversion tn.span (.text m))
  /-- there is no type name, but a `type_name` field that is not optional -/
  | noTypeName {f : TypeNameField E S V} : f ∈ s.typeNames → f.option = false → node.value.typeName = none →
    HeadComplaint node (.missing node.value.nodeName.span "type name required".toList)
  /-- there is a type name, but no `type_name` field -/
  | strayTypeName {tn : Spanned TypeName S} : s.typeNames = [] → node.value.typeName = some tn →
    HeadComplaint node (.unexpected tn.span "type name".toList "no type name expected for this node".toList)

/-- The complaints about the arguments. -/
inductive ArgComplaint (node : SpannedNode S) : DErr S → Prop where
  /-- what the `i`-th argument field says of the `i`-th argument -/
  | value {i : Nat} {a : Arg E S V} {v : Value S} {e : DErr S} : s.arguments[i]? = some a →
    node.value.arguments[i]? = some v → ReportedBy (decodeValue a.decode a.option a.impls v) e →
    ArgComplaint node e
  /-- what the `arguments` field says of one of the further arguments -/
  | rest {va : VarArgs E S V} {i : Nat} {v : Value S} {e : DErr S} : s.varArgs = some va → s.arguments.length ≤ i →
    node.value.arguments[i]? = some v → ReportedBy (decodeValue va.decode false va.impls v) e →
    ArgComplaint node e
  /-- there is no argument for a field with a name that needs one -/
  | missingNamed {i : Nat} {a : Arg E S V} {name : Str} : s.arguments[i]? = some a → node.value.arguments.length ≤ i →
    absent a.default a.option = none → a.field = .named name →
    ArgComplaint node (.missing node.value.nodeName.span ("additional argument `".toList ++ name ++ "` is required".toList))
  /-- there is no argument for a field without name that needs one -/
  | missing {i j : Nat} {a : Arg E S V} : s.arguments[i]? = some a → node.value.arguments.length ≤ i →
    absent a.default a.option = none → a.field = .indexed j →
    ArgComplaint node (.missing node.value.nodeName.span "additional argument is required".toList)
  /-- the first argument for which there is no field -/
  | surplus {v : Value S} : s.varArgs = none → node.value.arguments[s.arguments.length]? = some v →
    ArgComplaint node (.unexpected v.literal.span "argument".toList "unexpected argument".toList)

/-- The complaints about the properties. -/
inductive PropComplaint (takes : Prop' E S V → Str → Bool) (node : SpannedNode S) : DErr S → Prop where
  /-- what a `property` field says of a property with its name -/
  | value {i : Nat} {p : Prop' E S V} {q : Spanned Str S × Value S} {e : DErr S} : s.properties[i]? = some p →
    p.flatten = false → q ∈ s.propsFor takes node (some i) → ReportedBy (decodeValue p.decode p.option p.impls q.2) e →
    PropComplaint takes node e
  /-- what the type of a flattened field says of a property it takes -/
  | flattened {i : Nat} {p : Prop' E S V} {q : Spanned Str S × Value S} {x : FVal V} {e : DErr S} :
    s.properties[i]? = some p → p.flatten = true → q ∈ s.propsFor takes node (some i) →
    ReportedBy (p.impls.part.insertProperty x q.1 q.2) e → PropComplaint takes node e
  /-- the name of a property of no other field is not what the keys of the `properties` field should be -/
  | key {vp : VarProps E S V} {q : Spanned Str S × Value S} {m : Str} : s.varProps = some vp →
    q ∈ s.propsFor takes node none → vp.impls.keyFromStr q.1.value = .error m →
    PropComplaint takes node (.conversion q.1.span (.text m))
  /-- what the `properties` field says of a property of no other field -/
  | rest {vp : VarProps E S V} {q : Spanned Str S × Value S} {e : DErr S} : s.varProps = some vp →
    q ∈ s.propsFor takes node none → ReportedBy (decodeValue vp.decode false vp.impls q.2) e →
    PropComplaint takes node e
  /-- a property of no field -/
  | unexpected {q : Spanned Str S × Value S} : s.varProps = none → q ∈ s.propsFor takes node none →
    PropComplaint takes node (.unexpected q.1.span "property".toList
      ("unexpected property `".toList ++ escapeDefault q.1.value ++ "`".toList))
  /-- there is no property for a field that needs one -/
  | missing {i : Nat} {p : Prop' E S V} : s.properties[i]? = some p → p.flatten = false →
    s.propsFor takes node (some i) = [] → absent p.default p.option = none →
    PropComplaint takes node (.missing node.value.nodeName.span ("property `".toList ++ p.name ++ "` is required".toList))

/-- The complaints about the children; `place` is where a missing child is reported, if anywhere. -/
inductive ChildComplaint (takes : Child E S V → Str → Bool) (place : Option S) (nodes : List (SpannedNode S)) :
    DErr S → Prop where
  /-- what the type of a `child` or `children(name)` field says of a node that belongs to it -/
  | node {i : Nat} {ch : Child E S V} {n : SpannedNode S} {e : DErr S} : s.children[i]? = some ch →
    ch.mode = .normal ∨ ch.mode = .multi → n ∈ s.nodesFor takes nodes (some i) → ReportedBy (ch.decoder n) e →
    ChildComplaint takes place nodes e
  /-- the node of a `bool` field has some content -/
  | flag {i : Nat} {ch : Child E S V} {n : SpannedNode S} {e : DErr S} : s.children[i]? = some ch →
    ch.mode = .bool → n ∈ s.nodesFor takes nodes (some i) → FlagComplaint n e →
    ChildComplaint takes place nodes e
  /-- what the type of a flattened field says of a node it takes -/
  | flattened {i : Nat} {ch : Child E S V} {n : SpannedNode S} {x : FVal V} {e : DErr S} : s.children[i]? = some ch →
    ch.mode = .flatten → n ∈ s.nodesFor takes nodes (some i) → ReportedBy (ch.impls.part.insertChild x n) e →
    ChildComplaint takes place nodes e
  /-- a second node for a field that takes one -/
  | duplicate {i : Nat} {ch : Child E S V} {pre post : List (SpannedNode S)} {n : SpannedNode S} :
    s.children[i]? = some ch → ch.mode = .normal ∨ ch.mode = .bool →
    s.nodesFor takes nodes (some i) = pre ++ n :: post → pre ≠ [] →
    ChildComplaint takes place nodes (.unexpected n.value.nodeName.span "node".toList
      ("duplicate node `".toList ++ escapeDefault ch.name ++ "`, single node expected".toList))
  /-- what the type of the `children` field says of a node of no other field -/
  | rest {vc : VarChildren E S V} {n : SpannedNode S} {e : DErr S} : s.varChildren = some vc →
    n ∈ s.nodesFor takes nodes none → ReportedBy (vc.decoder n) e →
    ChildComplaint takes place nodes e
  /-- a node of no field -/
  | unexpected {n : SpannedNode S} : s.varChildren = none → n ∈ s.nodesFor takes nodes none →
    ChildComplaint takes place nodes (.unexpected n.span "node".toList
      ("unexpected node `".toList ++ escapeDefault n.value.nodeName.value ++ "`".toList))
  /-- there is no node for a field that needs one -/
  | missingIn {i : Nat} {ch : Child E S V} {span : S} : s.children[i]? = some ch → ch.mode = .normal →
    s.nodesFor takes nodes (some i) = [] → absent ch.default ch.option = none → place = some span →
    ChildComplaint takes place nodes (.missing span ("child node `".toList ++ ch.name ++ "` is required".toList))
  /-- there is no node in the document for a field that needs one -/
  | missing {i : Nat} {ch : Child E S V} : s.children[i]? = some ch → ch.mode = .normal →
    s.nodesFor takes nodes (some i) = [] → absent ch.default ch.option = none → place = none →
    ChildComplaint takes place nodes (.missingNode ("child node `".toList ++ ch.name ++ "` is required".toList))

/-- The complaints about the arguments, properties and children of a node. -/
def ContentComplaint (takesP : Prop' E S V → Str → Bool) (takesC : Child E S V → Str → Bool) (node : SpannedNode S)
    (e : DErr S) : Prop :=
  ArgComplaint s node e ∨ PropComplaint s takesP node e ∨
    ChildComplaint s takesC (some node.span) node.value.childNodes e

/-- The complaints about a property that is inserted into a partial struct. -/
inductive InsertPropComplaint (takes : Prop' E S V → Str → Bool) (name : Spanned Str S) (val : Value S) : DErr S → Prop where
  /-- what a `property` field says of a property with its name -/
  | value {i : Nat} {p : Prop' E S V} {e : DErr S} : s.propField takes name.value = some i → s.properties[i]? = some p →
    p.flatten = false → ReportedBy (decodeValue p.decode p.option p.impls val) e → InsertPropComplaint takes name val e
  /-- what the type of a flattened field says of a property it takes -/
  | flattened {i : Nat} {p : Prop' E S V} {x : FVal V} {e : DErr S} : s.propField takes name.value = some i →
    s.properties[i]? = some p → p.flatten = true → ReportedBy (p.impls.part.insertProperty x name val) e →
    InsertPropComplaint takes name val e

/-- The complaints about a node that is inserted into the partial struct `self`. -/
inductive InsertChildComplaint (takes : Child E S V → Str → Bool) (self : FVal V) (node : SpannedNode S) : DErr S → Prop where
  /-- what the type of a `child` or `children(name)` field says of a node that belongs to it -/
  | node {i : Nat} {ch : Child E S V} {e : DErr S} : s.childField takes node.value.nodeName.value = some i →
    s.children[i]? = some ch → ch.mode = .normal ∨ ch.mode = .multi → ReportedBy (ch.decoder node) e →
    InsertChildComplaint takes self node e
  /-- the node of a `bool` field has some content -/
  | flag {i : Nat} {ch : Child E S V} {e : DErr S} : s.childField takes node.value.nodeName.value = some i →
    s.children[i]? = some ch → ch.mode = .bool → FlagComplaint node e →
    InsertChildComplaint takes self node e
  /-- what the type of a flattened field says of a node it takes -/
  | flattened {i : Nat} {ch : Child E S V} {x : FVal V} {e : DErr S} : s.childField takes node.value.nodeName.value = some i →
    s.children[i]? = some ch → ch.mode = .flatten → ReportedBy (ch.impls.part.insertChild x node) e →
    InsertChildComplaint takes self node e
  /-- the field for the node is set already -/
  | duplicate {i : Nat} {ch : Child E S V} : s.childField takes node.value.nodeName.value = some i → s.children[i]? = some ch →
    ch.mode ≠ .flatten → (∃ x, self.field ch.field = .some x) ∨ (ch.mode = .bool ∧ self.field ch.field = .bool true) →
    InsertChildComplaint takes self node (.unexpected node.value.nodeName.span "node".toList
      ("duplicate node `".toList ++ escapeDefault ch.name ++ "`, single node expected".toList))

end

/-- The complaints about a node that is decoded into an enum; `tuple s` are those about the content of a tuple
variant with the fields `s`. -/
inductive EnumComplaint (variants : List (Variant E S V)) (tuple : Struct E S V → DErr S → Prop) (node : SpannedNode S) :
    DErr S → Prop where
  /-- there is no variant of that name -/
  | unknown {m : Str} : (∀ v ∈ variants, v.name ≠ node.value.nodeName.value) →
    EnumComplaint variants tuple node (.conversion node.value.nodeName.span (.text m))
  /-- the variant has no fields, but the node has content -/
  | flag {v : Variant E S V} {e : DErr S} : v ∈ variants → v.name = node.value.nodeName.value → v.kind = .unit →
    FlagComplaint node e → EnumComplaint variants tuple node e
  /-- what the type inside the variant says of the node; an optional one is not asked about an empty node -/
  | nested {v : Variant E S V} {option : Bool} {inner : NodeDecoder E S (FVal V)} {e : DErr S} : v ∈ variants →
    v.name = node.value.nodeName.value → v.kind = .nested option inner →
    (option = true → node.value.arguments ≠ [] ∨ node.value.properties ≠ [] ∨ node.value.children ≠ none) →
    ReportedBy (inner node) e → EnumComplaint variants tuple node e
  /-- the fields of a tuple variant -/
  | tuple {v : Variant E S V} {s : Struct E S V} {e : DErr S} : v ∈ variants → v.name = node.value.nodeName.value →
    v.kind = .tuple s → tuple s e → EnumComplaint variants tuple node e

end Knuffel
