import Verif.Model.Derive
/-!
# The front end of the derive macros

Models the part of `derive/src/definition.rs` that reads the attributes
`#[knuffel(..)]` and decides what is derived for a struct or an enum, and the
same for `derive/src/scalar.rs`.  Rust tokens, and the parsers for expressions and types, are
those of `syn` and `proc_macro2` (external crates).

`emit_error!` records an error and goes on, and in the end the macro fails
(`proc_macro_error`, derive/src/lib.rs:23, 37); the model stops at the first error.
-/

namespace Knuffel

/-- Rust tokens, as far as the attributes look at them: identifiers, single
punctuation characters, string literals (their values), groups in
parentheses, and everything else (told apart by a number). Used for derive/src/definition.rs:787-900
(the input of `parse`). -/
inductive TT where
  | ident (s : Str)
  | punct (c : Char)
  | str (s : Str)
  | parens (ts : List TT)
  | other (n : Nat)

/-- How many tokens, those in groups included. Used for derive/src/definition.rs:787-792 (bounds the
recursion of the parser). -/
def TT.size : TT → Nat
  | .parens ts => 1 + go ts
  | _ => 1
where
  /-- The same for lists. -/
  go : List TT → Nat
  | [] => 0
  | t :: ts => t.size + go ts

/-- The parsers of `syn` for expressions and types, used at
derive/src/definition.rs:885, 902: the value and the tokens left. -/
structure Syn (X T : Type) where
  expr : List TT → Option (X × List TT)
  type : List TT → Option (T × List TT)

/-- derive/src/definition.rs:75-81.  The span of the decode mode is left out. -/
structure RawAttrs (X : Type) where
  mode : Option FieldMode
  decode : Option DecodeMode
  unwrap : Option (RawAttrs X)
  default : Option (Option X)

/-- derive/src/definition.rs:65-73. -/
inductive Attr (X T : Type) where
  | skip
  | decodeMode (m : DecodeMode)
  | fieldMode (m : FieldMode)
  | unwrap (a : RawAttrs X)
  | default (x : Option X)
  | spanType (t : T)

/-- derive/src/definition.rs:47-50. -/
inductive FlattenItem where
  | child | property
deriving DecidableEq, Repr

variable {X T : Type}

/-- `FieldAttrs::new`. derive/src/definition.rs:687-694. -/
def RawAttrs.new : RawAttrs X := ⟨none, none, none, none⟩

/-- One round of the loop of `FieldAttrs::update`. derive/src/definition.rs:698-733. -/
def RawAttrs.add (f : RawAttrs X) : Attr X T → Except Str (RawAttrs X)
  | .fieldMode m =>
    if f.mode.isSome then
      .error "only single attribute that defines mode of the field is allowed. Perhaps you mean `unwrap`?".toList
    else .ok { f with mode := some m }
  | .unwrap u =>
    if f.unwrap.isSome then .error "`unwrap` specified twice".toList
    else .ok { f with unwrap := some u }
  | .decodeMode m =>
    if f.decode.isSome then
      .error "only single attribute that defines parser of the field is allowed".toList
    else .ok { f with decode := some m }
  | .default x =>
    if f.default.isSome then .error "only single default is allowed".toList
    else .ok { f with default := some x }
  | .skip | .spanType _ => .error "this attribute is not supported on fields".toList

/-- `FieldAttrs::update`. derive/src/definition.rs:695-734. -/
def RawAttrs.update (f : RawAttrs X) (attrs : List (Attr X T)) : Except Str (RawAttrs X) :=
  attrs.foldlM RawAttrs.add f

/-- `VariantAttrs::update`; the result says whether to skip the variant.
derive/src/definition.rs:753-769. -/
def variantSkip : List (Attr X T) → Bool → Except Str Bool
  | [], skip => .ok skip
  | .skip :: as, _ => variantSkip as true
  | _ :: _, _ => .error "not supported on enum variants".toList

/-- `TraitProps::pick_from` and the check for what is left: the last
`span_type`. derive/src/definition.rs:232-247, 296-302, 633-639. -/
def containerProps : List (Attr X T) → Option T → Except Str (Option T)
  | [], ty => .ok ty
  | .spanType t :: as, _ => containerProps as (some t)
  | _ :: _, _ => .error "unexpected container attribute".toList

/-- The error of `lookahead.error()` and of `input.parse()`. Used for derive/src/definition.rs:794-900. -/
def unexpectedToken : Str := "unexpected token".toList

/-- `Punctuated::<_, Token![,]>::parse_terminated_with` (syn), used at
derive/src/definition.rs:790, 868: elements with commas between them, and
maybe one at the end.  Each round takes tokens, so that their number is enough
fuel. -/
def punctuated {α : Type} (p : List TT → Except Str (α × List TT)) : Nat → List TT → Except Str (List α)
  | _, [] => .ok []
  | 0, _ :: _ => .error "no fuel".toList
  | n + 1, ts => do
    let r ← p ts
    match r.2 with
    | [] => pure [r.1]
    | .punct c :: rest =>
      if c = ',' then do
        let as ← punctuated p n rest
        pure (r.1 :: as)
      else .error unexpectedToken
    | _ :: _ => .error unexpectedToken

/-- `FlattenItem::parse`. derive/src/definition.rs:910-923. -/
def flattenItem : List TT → Except Str (FlattenItem × List TT)
  | .ident w :: ts =>
    if w = "child".toList then .ok (.child, ts)
    else if w = "property".toList then .ok (.property, ts)
    else .error unexpectedToken
  | _ => .error unexpectedToken

/-- `!input.is_empty() && !input.lookahead1().peek(Token![,])`.
derive/src/definition.rs:810, 830, 883. -/
def hasMore : List TT → Bool
  | [] => false
  | .punct c :: _ => c ≠ ','
  | _ => true

/-- The optional `(name="..")`. derive/src/definition.rs:809-822, 829-842.
Tokens left over in the parentheses are an error of `syn` in the end. -/
def nameArg (ts : List TT) : Except Str (Option Str × List TT) :=
  if hasMore ts then
    match ts with
    | .parens [.ident w, .punct c, .str s] :: rest =>
      if w = "name".toList ∧ c = '=' then .ok (some s, rest) else .error unexpectedToken
    | _ => .error unexpectedToken
  else .ok (none, ts)

/-- `syn::Token![=]`. derive/src/definition.rs:884, 901. -/
def eqSign : List TT → Except Str (List TT)
  | .punct c :: ts => if c = '=' then .ok ts else .error unexpectedToken
  | _ => .error unexpectedToken

/-- `syn::parenthesized!`: the tokens in the parentheses, and those after them.
derive/src/definition.rs:850, 867. -/
def parenthesized : List TT → Except Str (List TT × List TT)
  | .parens inner :: rest => .ok (inner, rest)
  | _ => .error unexpectedToken

/-- `input.parse()` with one of the external parsers. derive/src/definition.rs:885, 902. -/
def external {α : Type} (r : Option (α × List TT)) : Except Str (α × List TT) :=
  match r with
  | some x => .ok x
  | none => .error unexpectedToken

/-- `Attr::parse`. derive/src/definition.rs:794-908.  The number bounds the
nesting of `unwrap`; the number of tokens is enough. -/
def Attr.parse (syn : Syn X T) : Nat → List TT → Except Str (Attr X T × List TT)
  | 0, _ => .error "no fuel".toList
  | n + 1, .ident w :: ts =>
    if w = "argument".toList then .ok (.fieldMode .argument, ts)
    else if w = "arguments".toList then .ok (.fieldMode .arguments, ts)
    else if w = "property".toList then do
      let r ← nameArg ts
      pure (.fieldMode (.property r.1), r.2)
    else if w = "properties".toList then .ok (.fieldMode .properties, ts)
    else if w = "children".toList then do
      let r ← nameArg ts
      pure (.fieldMode (.children r.1), r.2)
    else if w = "child".toList then .ok (.fieldMode .child, ts)
    else if w = "unwrap".toList then do
      let g ← parenthesized ts
      let chunk ← punctuated (Attr.parse syn n) g.1.length g.1
      let attrs ← RawAttrs.new.update chunk
      pure (.unwrap attrs, g.2)
    else if w = "skip".toList then .ok (.skip, ts)
    else if w = "str".toList then .ok (.decodeMode .str, ts)
    else if w = "bytes".toList then .ok (.decodeMode .bytes, ts)
    else if w = "flatten".toList then do
      let g ← parenthesized ts
      let items ← punctuated flattenItem g.1.length g.1
      pure (.fieldMode (.flatten (items.contains .child) (items.contains .property)), g.2)
    else if w = "default".toList then
      if hasMore ts then do
        let ts ← eqSign ts
        let r ← external (syn.expr ts)
        pure (.default (some r.1), r.2)
      else .ok (.default none, ts)
    else if w = "span".toList then .ok (.fieldMode .span, ts)
    else if w = "node_name".toList then .ok (.fieldMode .nodeName, ts)
    else if w = "type_name".toList then .ok (.fieldMode .typeName, ts)
    else if w = "span_type".toList then do
      let ts ← eqSign ts
      let r ← external (syn.type ts)
      pure (.spanType r.1, r.2)
    else .error unexpectedToken
  | _ + 1, _ => .error unexpectedToken

/-- `parse_attrs`. derive/src/definition.rs:787-792. -/
def parseAttrs (syn : Syn X T) (ts : List TT) : Except Str (List (Attr X T)) :=
  punctuated (Attr.parse syn (TT.size.go ts)) ts.length ts

/-- An attribute `#[path args]` or `#![path args]`: `args` are the tokens between
the delimiters, if what follows the path is just that. Used for derive/src/definition.rs:752-785. -/
structure Attribute where
  outer : Bool
  path : Str
  args : Option (List TT)

/-- `parse_attr_list`. derive/src/definition.rs:771-785. -/
def parseAttrList (syn : Syn X T) : List Attribute → Except Str (List (Attr X T))
  | [] => .ok []
  | a :: as =>
    if a.outer ∧ a.path = "knuffel".toList then
      match a.args with
      | some ts => do
        let x ← parseAttrs syn ts
        let xs ← parseAttrList syn as
        pure (x ++ xs)
      | none => .error "expected attribute arguments in parentheses".toList
    else parseAttrList syn as

/-- Types, as far as the macro looks at them: paths (with or without `<T as ..>`,
leading `::`; of each segment the name and whether it has arguments), and others. Used for
derive/src/definition.rs:257-275. -/
inductive Ty where
  | path (qself leadingColon : Bool) (segments : List (Str × Bool))
  | other
deriving DecidableEq, Repr

/-- `is_option`. derive/src/definition.rs:257-268. -/
def Ty.isOption : Ty → Bool
  | .path false false [(name, _)] => name = "Option".toList
  | _ => false

/-- `is_bool`. derive/src/definition.rs:270-275. -/
def Ty.isBool : Ty → Bool
  | .path false false [(name, false)] => name = "bool".toList
  | _ => false

/-- A field in a definition (`syn::Field`).  `impls` are the implementations that the generated code
uses at each level of `unwrap`, as in `PlainAttrs`. Used for derive/src/definition.rs:592-605. -/
structure FieldSyn (E S V : Type) where
  ident : Option Str
  ty : Ty
  attrs : List Attribute
  impls : Nat → Impls E S V

/-- `syn::Fields`. Used for derive/src/definition.rs:304-345. -/
inductive FieldsSyn (E S V : Type) where
  | named (fields : List (FieldSyn E S V))
  | unnamed (fields : List (FieldSyn E S V))
  | unit

/-- `syn::Variant`. Used for derive/src/definition.rs:304-345. -/
structure VariantSyn (E S V : Type) where
  ident : Str
  attrs : List Attribute
  fields : FieldsSyn E S V

/-- `syn::ItemStruct`, `syn::ItemEnum`, and other items. Used for derive/src/definition.rs:622-650. -/
inductive Item (E S V : Type) where
  | struct (attrs : List Attribute) (fields : FieldsSyn E S V)
  | enum (attrs : List Attribute) (variants : List (VariantSyn E S V))
  | other

/-- derive/src/definition.rs:14-20, with the `span_type` (173-176).  The names and the generics of the
types are left out; of a newtype its decoder is kept. -/
inductive Definition (E S V T : Type) where
  | unitStruct (spanType : Option T) (s : Struct E S V)
  | tupleStruct (spanType : Option T) (s : Struct E S V)
  | newType (spanType : Option T) (option : Bool) (inner : NodeDecoder E S (FVal V))
  | struct (spanType : Option T) (s : Struct E S V)
  | enum (spanType : Option T) (variants : List (Variant E S V))

variable {E S V : Type}

/-- The attributes of a field with the implementations of its type: what the other half of
the macro works with (`Model/Derive.lean`).  `eval` gives the value of an expression. Used for
derive/src/definition.rs:75-81. -/
def RawAttrs.withImpls (impls : Nat → Impls E S V) (eval : X → FVal V) : Nat → RawAttrs X → FieldAttrs E S V
  | k, ⟨mode, decode, none, default⟩ => .plain ⟨mode, decode, default.map (·.map eval), impls k⟩
  | k, ⟨mode, decode, some u, default⟩ =>
    .unwrapped ⟨mode, decode, default.map (·.map eval), impls k⟩ (u.withImpls impls eval (k + 1))

/-- `Field::new`. derive/src/definition.rs:933-948. -/
def FieldSyn.access (f : FieldSyn E S V) (idx : Nat) : AttrAccess :=
  match f.ident with
  | some id => .named id
  | none => .indexed idx

section
variable [Externals] (syn : Syn X T) (eval : X → FVal V)

/-- The body of the loop of `Struct::new` before `add_field`.
derive/src/definition.rs:597-601. -/
def FieldSyn.toDef (idx : Nat) (f : FieldSyn E S V) : Except Str (FieldDef E S V) := do
  let list ← parseAttrList syn f.attrs
  let attrs ← RawAttrs.new.update list
  pure ⟨f.access idx, f.ty.isOption, f.ty.isBool, attrs.withImpls f.impls eval 0⟩

/-- The fields from index `idx` on. derive/src/definition.rs:597 (`enumerate`). -/
def fieldDefs : Nat → List (FieldSyn E S V) → Except Str (List (FieldDef E S V))
  | _, [] => .ok []
  | idx, f :: fs => do
    let d ← f.toDef syn eval idx
    let ds ← fieldDefs (idx + 1) fs
    pure (d :: ds)

/-- `Struct::new`. derive/src/definition.rs:591-605. -/
def Struct.parse (fields : List (FieldSyn E S V)) : Except Str (Struct E S V) := do
  let defs ← fieldDefs syn eval 0 fields
  Struct.new defs

/-- The fields of a variant. derive/src/definition.rs:311-343. -/
def FieldsSyn.toVariant : FieldsSyn E S V → Except Str (VariantFields E S V)
  | .named fs => do
    let ds ← fieldDefs syn eval 0 fs
    pure (.named ds)
  | .unnamed fs => do
    let ds ← fieldDefs syn eval 0 fs
    pure (.unnamed ds)
  | .unit => .ok .unit

/-- The fields of a variant are not looked at if it is skipped.
derive/src/definition.rs:305-310. -/
def VariantSyn.kept (v : VariantSyn E S V) (skip : Bool) : Except Str (VariantFields E S V) :=
  if skip then .ok .unit else v.fields.toVariant syn eval

/-- The variants with their attributes.  derive/src/definition.rs:303-337. -/
def variantDefs : List (VariantSyn E S V) → Except Str (List (VariantDef E S V))
  | [] => .ok []
  | v :: vs => do
    let list ← parseAttrList syn v.attrs
    let skip ← variantSkip list false
    let fields ← v.kept syn eval skip
    let ds ← variantDefs vs
    pure (⟨v.ident, skip, fields⟩ :: ds)

/-- `Definition::parse` with `Enum::new`. derive/src/definition.rs:290-353, 622-684. -/
def Definition.parse : Item E S V → Except Str (Definition E S V T)
  | .struct attrs fields => do
    let list ← parseAttrList syn attrs
    let ty ← containerProps list none
    match fields with
    | .named fs => do
      let s ← Struct.parse syn eval fs
      pure (.struct ty s)
    | .unnamed fs => do
      let tup ← Struct.parse syn eval fs
      match tup.allFields, tup.extraFields with
      | [_], [f] => pure (.newType ty f.option f.impls.node)
      | _, _ => pure (.tupleStruct ty tup)
    | .unit => do
      let s ← Struct.parse syn eval ([] : List (FieldSyn E S V))
      pure (.unitStruct ty s)
  | .enum attrs variants => do
    let list ← parseAttrList syn attrs
    let ty ← containerProps list none
    let defs ← variantDefs syn eval variants
    let vs ← enumVariants defs
    pure (.enum ty vs)
  | .other => .error unexpectedToken

end

/-- `Field::as_index`. derive/src/definition.rs:958-963. -/
def AttrAccess.index? : AttrAccess → Option Nat
  | .indexed i => some i
  | .named _ => none

/-- The assertion of `emit_struct` for tuple structs: sorted by index, the fields are those
from 0 on. derive/src/node.rs:58-73. -/
def Struct.filled (s : Struct E S V) : Bool :=
  let idx := s.allFields.filterMap AttrAccess.index?
  idx.mergeSort (fun a b => decide (a ≤ b)) = List.range idx.length

/-- The same assertion for the variants. derive/src/node.rs:193-208. -/
def Variant.filled (v : Variant E S V) : Bool :=
  match v.kind with
  | .tuple s => s.filled
  | _ => true

/-- `emit_decoder`: the derived `Decode`. derive/src/lib.rs:13-21.  The code generated for a newtype
around something that is not an `Option` does not type-check (derive/src/node.rs:170-176). -/
def Definition.node [Externals] : Definition E S V T → Except Str (NodeDecoder E S (FVal V))
  | .unitStruct _ s => .ok s.node
  | .struct _ s => .ok s.node
  | .tupleStruct _ s =>
    if s.filled then .ok s.node else .error "all tuple structure fields should be filled in".toList
  | .newType _ true inner => .ok (newTypeNode inner)
  | .newType _ false _ => .error "mismatched types".toList
  | .enum _ vs =>
    if vs.all Variant.filled then .ok (enumNode vs)
    else .error "all tuple structure fields should be filled in".toList

/-- Whether the match on the fields takes the branch for `syn::Fields::Unit`. derive/src/scalar.rs:29-42. -/
def FieldsSyn.isUnit : FieldsSyn E S V → Bool
  | .unit => true
  | _ => false

/-- `Scalar::parse` with `Enum::new` of scalar enums. derive/src/scalar.rs:22-68. -/
def scalarParse [Externals] : Item E S V → Except Str (List ScalarVariant)
  | .enum _ vs =>
    if vs.all (·.fields.isUnit) then
      .ok (scalarVariants (vs.map (·.ident)))
    else .error "only unit variants are allowed for DecodeScalar".toList
  | _ => .error unexpectedToken

end Knuffel
