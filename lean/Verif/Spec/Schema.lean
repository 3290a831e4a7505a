import Verif.Spec.Derive
import Verif.Spec.Number
import Verif.Model.Containers
import Verif.Model.Convert
/-!
# Specification: declared types and what their values look like in a document

A small language of type declarations, as one writes them with the derives: structs with
arguments, properties and children, enums of nodes, and scalars.  For each declaration,
`Reads` says which nodes are a way of writing a value of the type, and which value.
`Reads` is written without decoders; there is no order of reading, no state, no error in it.

The second half of the file says which implementations rustc selects for such a declaration
(`Decl.node`), in terms of the model of the generated code.
-/

namespace Knuffel
namespace Schema

/-- Values that are not made of others: an integer, a float (kept as its text), a text, bytes. -/
inductive Leaf where
  | int (n : Int)
  | float (text : Str)
  | text (s : Str)
  | bytes (b : List UInt8)
deriving DecidableEq, Repr

/-- Types of arguments and properties: the integers and floats, `bool`, the text types, an enum
with `DecodeScalar`, a type with `FromStr` (`#[knuffel(.., str)]`), bytes (`#[knuffel(.., bytes)]`). -/
inductive Scal where
  | int (t : IntTy)
  | float (t : FloatTy)
  | bool
  | text
  | choice (rustType : Str) (variants : List ScalarVariant)
  | str (parse : Str → Except Str (FVal Leaf))
  | bytes

/-- A field for one argument; with `option` its type is `Option<..>`. -/
structure ArgD where
  field : AttrAccess
  option : Bool
  default : Option (FVal Leaf)
  ty : Scal

/-- A field for the property with the given name. -/
structure PropD where
  field : AttrAccess
  name : Str
  option : Bool
  default : Option (FVal Leaf)
  ty : Scal

/-- A field for all further arguments or properties. -/
structure RestD where
  field : AttrAccess
  ty : Scal

/-- The fields of a struct for the name of the node, those for its type name (with `option` of type
`Option<..>`), each with `FromStr` of its type, and those without attributes, with their defaults. -/
structure Own where
  names : List (AttrAccess × (Str → Except Str (FVal Leaf))) := []
  types : List (AttrAccess × Bool × (Str → Except Str (FVal Leaf))) := []
  extras : List (AttrAccess × FVal Leaf) := []

mutual
/-- A type of nodes: a struct, or an enum. -/
inductive Decl where
  | struct (own : Own) (c : Content)
  | enum (cases : List Case)
/-- The fields of a struct, by their roles. -/
inductive Content where
  | mk (args : List ArgD) (rest : Option RestD) (props : List PropD) (restProps : Option RestD)
      (kids : List Kid) (restKids : RestKids)
/-- A field for the children with a certain name: a `bool`; a `child` that there must be; one
of type `Option<..>`; one with a default; `children(name="..")`. -/
inductive Kid where
  | flag (field : Str)
  | one (field : Str) (inner : Inner)
  | opt (field : Str) (inner : Inner)
  | orElse (field : Str) (default : FVal Leaf) (inner : Inner)
  | many (field : AttrAccess) (name : Str) (inner : Inner)
/-- A field for all other children. -/
inductive RestKids where
  | none
  | some (field : AttrAccess) (inner : Inner)
/-- What is inside a field for children: a type of nodes, or `unwrap(..)` with the only field. -/
inductive Inner where
  | type (d : Decl)
  | unwrap (field : AttrAccess) (c : Content)
/-- A variant of an enum: `A`, `A(T)`, `A(Option<T>)`, or `A(..)` with attributes on the fields. -/
inductive Case where
  | unit (ident : Str)
  | nested (ident : Str) (d : Decl)
  | nestedOpt (ident : Str) (d : Decl)
  | tuple (ident : Str) (c : Content)
end

section Reads
variable {S : Type} [Externals] (ptr : Nat)

/-! ### Values -/

/-- The annotations that a type takes; for a `null` in place of bytes, all of them. -/
def Scal.Annotation (t : Scal) (ty : Option (Spanned TypeName S)) : Prop :=
  match t with
  | .int t => ∀ tn, ty = some tn → tn.value = .builtin t.marker
  | .float t => ∀ tn, ty = some tn → tn.value = .builtin t.marker
  | .bytes => True
  | _ => ty = none

/-- The value `v` in a document is a way of writing `x`. -/
def Scal.Reads (t : Scal) (v : Value S) (x : FVal Leaf) : Prop :=
  t.Annotation v.typeName ∧
  match t with
  | .int t => ∃ r ds n, v.literal.value = .int r ds ∧ FitsAs ptr t r ds n ∧ x = .leaf (.int n)
  | .float _ => ∃ s, v.literal.value = .decimal s ∧ FloatText s ∧ x = .leaf (.float s)
  | .bool => ∃ b, v.literal.value = .bool b ∧ x = .bool b
  | .text => ∃ s, v.literal.value = .string s ∧ x = .leaf (.text s)
  | .choice _ vs => ∃ s w, v.literal.value = .string s ∧ vs.find? (fun w => s = w.name) = some w ∧
      x = .variant w.ident (.record [])
  | .str parse => ∃ s, v.literal.value = .string s ∧ parse s = .ok x
  | .bytes => ∃ s b, v.literal.value = .string s ∧ x = .leaf (.bytes b) ∧
      match v.typeName with
      | none => b = utf8 s
      | some tn => tn.value = .builtin .base64 ∧ Externals.b64 (utf8 s) = .ok b

/-- The same for a field that may be of type `Option<..>`: `None` is written `null`. -/
def Scal.ReadsIn (t : Scal) (option : Bool) (v : Value S) (x : FVal Leaf) : Prop :=
  if option then
    (v.literal.value = .null ∧ t.Annotation v.typeName ∧ x = .none) ∨ ∃ y, t.Reads ptr v y ∧ x = .some y
  else t.Reads ptr v x

/-- What a field for an argument gets. -/
def ArgD.Reads (a : ArgD) (v : Option (Value S)) (x : FVal Leaf) : Prop :=
  match v with
  | some v => a.ty.ReadsIn ptr a.option v x
  | none => absent a.default a.option = some x

/-- What a field for a property gets, given the properties with its name.  (In a document there is
at most one; of several, the last one counts.) -/
def PropD.Reads (p : PropD) (mine : List (Spanned Str S × Value S)) (x : FVal Leaf) : Prop :=
  ∃ ys, Each2 (fun q y => p.ty.ReadsIn ptr p.option q.2 y) mine ys ∧
    match ys.getLast? with
    | some y => x = y
    | none => absent p.default p.option = some x

/-! ### Nodes -/

/-- The field of a `Kid`. -/
def Kid.field : Kid → AttrAccess
  | .flag f | .one f _ | .opt f _ | .orElse f _ _ => .named f
  | .many f _ _ => f

/-- The name of the children that belong to a field. -/
def Kid.name : Kid → Str
  | .flag f | .one f _ | .opt f _ | .orElse f _ _ => Externals.kebab f
  | .many _ name _ => name

/-- The name of the nodes that stand for a variant. -/
def Case.name : Case → Str
  | .unit i | .nested i _ | .nestedOpt i _ | .tuple i _ => Externals.kebab i

/-- The fields, role by role. -/
def Content.fields : Content → List AttrAccess
  | .mk args rest props restProps kids restKids =>
    args.map (·.field) ++ rest.toList.map (·.field) ++ props.map (·.field) ++ restProps.toList.map (·.field) ++
      kids.map Kid.field ++ (match restKids with | .none => [] | .some f _ => [f])

/-- A node that has a name and nothing else. -/
def Bare (n : SpannedNode S) : Prop :=
  n.value.arguments = [] ∧ n.value.properties = [] ∧ n.value.childNodes = []

/-- A node after whose name there is something, be it an empty block. -/
def NonEmpty (n : SpannedNode S) : Prop :=
  n.value.arguments ≠ [] ∨ n.value.properties ≠ [] ∨ n.value.children ≠ none

/-- The name of a node, read for the fields `a`. -/
def Own.ReadsName (o : Own) (name : Str) (a : List (AttrAccess × FVal Leaf)) : Prop :=
  Each2 (fun f y => y.1 = f.1 ∧ f.2 name = .ok y.2) o.names a

/-- The type name of a node, read for the fields `t`; without such fields, there must be none. -/
def Own.ReadsType (o : Own) (ty : Option TypeName) (t : List (AttrAccess × FVal Leaf)) : Prop :=
  (o.types = [] → ty = none) ∧
  Each2 (fun f y => y.1 = f.1 ∧ match ty with
    | some tn => ∃ x, f.2.2 tn.asStr = .ok x ∧ y.2 = if f.2.1 then .some x else x
    | none => f.2.1 = true ∧ y.2 = .none) o.types t

mutual
/-- The node is a way of writing the value `v` of the type. -/
def Decl.Reads : Decl → SpannedNode S → FVal Leaf → Prop
  | .struct own c, n, v => ∃ a t env, v = .record (a ++ t ++ env ++ own.extras) ∧
      own.ReadsName n.value.nodeName.value a ∧ own.ReadsType (n.value.typeName.map (·.value)) t ∧ c.Reads n env
  | .enum cases, n, v => casesRead cases n v
/-- The arguments, properties and children of the node are a way of writing the fields `env`. -/
def Content.Reads : Content → SpannedNode S → List (AttrAccess × FVal Leaf) → Prop
  | .mk args rest props restProps kids restKids, n, env =>
    env.map (·.1) = (Content.mk args rest props restProps kids restKids).fields ∧
    (∀ (i : Nat) (a : ArgD), args[i]? = some a → ∃ x, (a.field, x) ∈ env ∧ a.Reads ptr n.value.arguments[i]? x) ∧
    (match rest with
      | none => n.value.arguments.length ≤ args.length
      | some r => ∃ xs, (r.field, .list xs) ∈ env ∧ Each2 (r.ty.Reads ptr) (n.value.arguments.drop args.length) xs) ∧
    (∀ p ∈ props, ∃ x, (p.field, x) ∈ env ∧ p.Reads ptr (n.value.properties.filter fun q => q.1.value = p.name) x) ∧
    (match restProps with
      | none => ∀ q ∈ n.value.properties, q.1.value ∈ props.map (·.name)
      | some r => ∃ xs, (r.field, .pairs xs) ∈ env ∧
          Each2 (fun q x => x.1 = .leaf (.text q.1.value) ∧ r.ty.Reads ptr q.2 x.2)
            (n.value.properties.filter fun q => q.1.value ∉ props.map (·.name)) xs) ∧
    kidsRead kids n.value.childNodes env ∧
    restKids.Reads (n.value.childNodes.filter fun m => m.value.nodeName.value ∉ kids.map Kid.name) env
/-- The nodes with the name of a field are a way of writing its value, for all these fields. -/
def kidsRead : List Kid → List (SpannedNode S) → List (AttrAccess × FVal Leaf) → Prop
  | [], _, _ => True
  | k :: ks, nodes, env =>
    (∃ x, (k.field, x) ∈ env ∧ k.Reads (nodes.filter fun m => m.value.nodeName.value = k.name) x) ∧
    kidsRead ks nodes env
/-- The nodes `mine` are a way of writing the value `x` of the field. -/
def Kid.Reads : Kid → List (SpannedNode S) → FVal Leaf → Prop
  | .flag _, mine, x => x = .bool (!mine.isEmpty) ∧ mine.length ≤ 1 ∧ ∀ m ∈ mine, Bare m
  | .one _ inner, mine, x => ∃ m, mine = [m] ∧ inner.Reads m x
  | .opt _ inner, mine, x => (mine = [] ∧ x = .none) ∨ ∃ m y, mine = [m] ∧ inner.Reads m y ∧ x = .some y
  | .orElse _ default inner, mine, x => (mine = [] ∧ x = default) ∨ ∃ m, mine = [m] ∧ inner.Reads m x
  | .many _ _ inner, mine, x => ∃ xs, x = .list xs ∧ Each2 (fun m y => inner.Reads m y) mine xs
/-- The nodes of no other field. -/
def RestKids.Reads : RestKids → List (SpannedNode S) → List (AttrAccess × FVal Leaf) → Prop
  | .none, others, _ => others = []
  | .some field inner, others, env => ∃ xs, (field, .list xs) ∈ env ∧ Each2 (fun m y => inner.Reads m y) others xs
/-- The node is a way of writing what is inside a field. -/
def Inner.Reads : Inner → SpannedNode S → FVal Leaf → Prop
  | .type d, n, x => d.Reads n x
  | .unwrap field c, n, x => c.Reads n [(field, x)]
/-- The first variant that has the name of the node decides. -/
def casesRead : List Case → SpannedNode S → FVal Leaf → Prop
  | [], _, _ => False
  | k :: ks, n, v => if n.value.nodeName.value = k.name then k.Reads n v else casesRead ks n v
/-- The node is a way of writing the value `v` of a variant. -/
def Case.Reads : Case → SpannedNode S → FVal Leaf → Prop
  | .unit ident, n, v => v = .variant ident (.record []) ∧ Bare n
  | .nested ident d, n, v => ∃ x, v = .variant ident x ∧ d.Reads n x
  | .nestedOpt ident d, n, v =>
    (v = .variant ident .none ∧ ¬ NonEmpty n) ∨ ∃ x, v = .variant ident (.some x) ∧ NonEmpty n ∧ d.Reads n x
  | .tuple ident c, n, v => ∃ env, v = .variant ident (.record env) ∧ c.Reads n env
end

/-- The nodes of a document are a way of writing the value `v` of a struct with children (and fields
without attributes) only. -/
def Content.ReadsRoot (c : Content) (extras : List (AttrAccess × FVal Leaf)) (nodes : List (SpannedNode S)) (v : FVal Leaf) : Prop :=
  match c with
  | .mk _ _ _ _ kids restKids => ∃ env, v = .record (env ++ extras) ∧ env.map (·.1) = c.fields ∧ kidsRead ptr kids nodes env ∧
      restKids.Reads ptr (nodes.filter fun m => m.value.nodeName.value ∉ kids.map Kid.name) env

/-! ### Proper declarations -/

mutual
/-- The fields of each struct are different, as are the names of its property fields, and those of
the fields for its children; an `unwrap` has one field. -/
def Decl.Proper : Decl → Prop
  | .struct _ c => c.Proper
  | .enum cases => casesProper cases
/-- The same for the fields of a struct. -/
def Content.Proper : Content → Prop
  | .mk args rest props restProps kids restKids =>
    (Content.mk args rest props restProps kids restKids).fields.Nodup ∧ (props.map (·.name)).Nodup ∧
    (kids.map Kid.name).Nodup ∧ kidsProper kids ∧ restKids.Proper
/-- The same for the fields for children. -/
def kidsProper : List Kid → Prop
  | [] => True
  | k :: ks => k.Proper ∧ kidsProper ks
/-- The same for a field for children. -/
def Kid.Proper : Kid → Prop
  | .flag _ => True
  | .one _ inner => inner.Proper
  | .opt _ inner => inner.Proper
  | .orElse _ _ inner => inner.Proper
  | .many _ _ inner => inner.Proper
/-- The same for the field for all other children. -/
def RestKids.Proper : RestKids → Prop
  | .none => True
  | .some _ inner => inner.Proper
/-- The same for what is inside a field for children. -/
def Inner.Proper : Inner → Prop
  | .type d => d.Proper
  | .unwrap field c => c.fields = [field] ∧ c.Proper
/-- The same for the variants of an enum. -/
def casesProper : List Case → Prop
  | [] => True
  | k :: ks => k.Proper ∧ casesProper ks
/-- The same for a variant. -/
def Case.Proper : Case → Prop
  | .unit _ => True
  | .nested _ d => d.Proper
  | .nestedOpt _ d => d.Proper
  | .tuple _ c => c.Proper
end

end Reads

/-! ### The implementations that rustc selects -/

section Decoders
variable {E S α β : Type} [Externals] (ptr : Nat)

/-- A decoder of `α` as a decoder of field values. -/
def asField (f : α → β) (d : Scalar E S α) : Scalar E S β where
  typeCheck := d.typeCheck
  rawDecode lit := do
    let x ← d.rawDecode lit
    pure (f x)
  decode v := do
    let x ← d.decode v
    pure (f x)

/-- In place of an implementation that the type does not have, so that it is never called. -/
def noScalar : Scalar E S (FVal Leaf) := ⟨fun _ => pure (), fun _ => pure .none, fun _ => pure .none⟩

/-- An `Option` as a field value. -/
def ofOption : Option (FVal Leaf) → FVal Leaf
  | none => .none
  | some x => .some x

/-- `DecodeScalar` of the type, where it has one: src/convert.rs:13-261, derive/src/scalar.rs:77-141. -/
def Scal.scalar : Scal → Scalar E S (FVal Leaf)
  | .int t => asField (fun n => .leaf (.int n)) (intScalar ptr t)
  | .float t => asField (fun s => .leaf (.float s)) (floatScalar t id [])
  | .bool => asField .bool boolScalar
  | .text => asField (fun s => .leaf (.text s)) stringScalar
  | .choice rustType vs => enumScalar rustType vs
  | .str _ => noScalar
  | .bytes => noScalar

/-- The mode of a field of this type. derive/src/definition.rs:58-63. -/
def Scal.mode : Scal → DecodeMode
  | .str _ => .str
  | .bytes => .bytes
  | _ => .normal

/-- The implementations for a field of this type, or of type `Option<..>` of it
(src/convert.rs, src/containers.rs:152-168).  The keys of a map are `String`s. -/
def Scal.impls (t : Scal) (option : Bool) : Impls E S Leaf where
  scalar := if option then asField ofOption (optionScalar (t.scalar ptr)) else t.scalar ptr
  node _ := pure .none
  part := ⟨fun x _ => pure (false, x), fun x _ _ => pure (false, x)⟩
  fromStr := match t with
    | .str parse => parse
    | _ => fun s => .ok (.leaf (.text s))
  fromBytes b := .ok (.leaf (.bytes b))
  keyFromStr s := .ok (.leaf (.text s))
  span _ c := (.none, c)
  default := .none

/-- The implementations for a field of which only the decoder of nodes is used. -/
def nodeImpls (d : NodeDecoder E S (FVal Leaf)) : Impls E S Leaf := { Scal.impls ptr .text false with node := d }

/-- The implementations for a field with `FromStr`. -/
def nameImpls (parse : Str → Except Str (FVal Leaf)) : Impls E S Leaf := Scal.impls ptr (.str parse) false

/-- The implementations for a field with a default. -/
def extraImpls (default : FVal Leaf) : Impls E S Leaf := { Scal.impls ptr .text false with default := default }

/-- The fields of a struct that are not made of its contents. derive/src/definition.rs:568-583. -/
def Own.into (o : Own) (s : Struct E S Leaf) : Struct E S Leaf :=
  { s with
    nodeNames := o.names.map fun f => ⟨f.1, nameImpls ptr f.2⟩
    typeNames := o.types.map fun f => ⟨f.1, f.2.1, nameImpls ptr f.2.2⟩
    extraFields := o.extras.map fun f => ⟨f.1, false, extraImpls ptr f.2⟩ }

mutual
/-- The derived `Decode::decode_node`. derive/src/node.rs:137-153, derive/src/variants.rs:41-54. -/
def Decl.node : Decl → NodeDecoder E S (FVal Leaf)
  | .struct own c => (own.into ptr c.struct).node
  | .enum cases => enumNode (casesVariants cases)
/-- The struct that the macro makes of the fields: `Struct.new` of `Content.defs`, see `c72_macro`.
derive/src/definition.rs:372-605. -/
def Content.struct : Content → Struct E S Leaf
  | .mk args rest props restProps kids restKids =>
    { arguments := args.map fun a => ⟨a.field, a.option, a.ty.mode, a.default, a.ty.impls ptr a.option⟩
      varArgs := rest.map fun r => ⟨r.field, r.ty.mode, r.ty.impls ptr false⟩
      properties := props.map fun p => ⟨p.field, p.name, p.option, p.ty.mode, false, p.default, p.ty.impls ptr p.option⟩
      varProps := restProps.map fun r => ⟨r.field, r.ty.mode, r.ty.impls ptr false⟩
      children := kidsChildren kids
      varChildren := restKids.var }
/-- The fields for children. derive/src/definition.rs:468-512. -/
def kidsChildren : List Kid → List (Child E S Leaf)
  | [] => []
  | k :: ks => k.child :: kidsChildren ks
/-- One field for children. derive/src/definition.rs:468-512. -/
def Kid.child : Kid → Child E S Leaf
  | .flag f => ⟨.named f, Externals.kebab f, false, .bool, none, fun _ => pure .none, nodeImpls ptr fun _ => pure .none⟩
  | .one f inner => ⟨.named f, Externals.kebab f, false, .normal, none, inner.decoder, nodeImpls ptr inner.decoder⟩
  | .opt f inner => ⟨.named f, Externals.kebab f, true, .normal, none, inner.decoder, nodeImpls ptr inner.decoder⟩
  | .orElse f d inner => ⟨.named f, Externals.kebab f, false, .normal, some d, inner.decoder, nodeImpls ptr inner.decoder⟩
  | .many f name inner => ⟨f, name, false, .multi, none, inner.decoder, nodeImpls ptr inner.decoder⟩
/-- The field for all other children. derive/src/definition.rs:513-524. -/
def RestKids.var : RestKids → Option (VarChildren E S Leaf)
  | .none => none
  | .some f inner => some ⟨f, inner.decoder⟩
/-- `Decode::decode_node` of the type of a field, or the closure of `unwrap`. derive/src/node.rs:620-626. -/
def Inner.decoder : Inner → NodeDecoder E S (FVal Leaf)
  | .type d => d.node
  | .unwrap field c => unwrapNode c.struct field
/-- The variants of an enum. derive/src/definition.rs:277-345. -/
def casesVariants : List Case → List (Variant E S Leaf)
  | [] => []
  | k :: ks => k.variant :: casesVariants ks
/-- One variant. derive/src/definition.rs:304-345. -/
def Case.variant : Case → Variant E S Leaf
  | .unit i => ⟨i, Externals.kebab i, .unit⟩
  | .nested i d => ⟨i, Externals.kebab i, .nested false d.node⟩
  | .nestedOpt i d => ⟨i, Externals.kebab i, .nested true d.node⟩
  | .tuple i c => ⟨i, Externals.kebab i, .tuple c.struct⟩
end

/-! ### The declarations as the macro gets them -/

/-- The attribute `str` or `bytes`. derive/src/definition.rs:58-63. -/
def Scal.attr : Scal → Option DecodeMode
  | .str _ => some .str
  | .bytes => some .bytes
  | _ => none

/-- The attributes inside `unwrap(..)`: those of the only field. derive/src/definition.rs:75-81. -/
def onlyAttrs : List (FieldDef E S Leaf) → FieldAttrs E S Leaf
  | [d] => d.attrs
  | _ => .plain ⟨none, none, none, Scal.impls ptr .text false⟩

mutual
/-- The fields of the struct as they are declared, in the order of their roles, with the
implementations for their types.  The name of a property is written out; without it, it would be
`kebab` of the field. derive/src/definition.rs:592-605. -/
def Content.defs : Content → List (FieldDef E S Leaf)
  | .mk args rest props restProps kids restKids =>
    (args.map fun a => ⟨a.field, a.option, false,
      .plain ⟨some .argument, a.ty.attr, a.default.map some, a.ty.impls ptr a.option⟩⟩) ++
    (rest.toList.map fun r => ⟨r.field, false, false, .plain ⟨some .arguments, r.ty.attr, none, r.ty.impls ptr false⟩⟩) ++
    (props.map fun p => ⟨p.field, p.option, false,
      .plain ⟨some (.property (some p.name)), p.ty.attr, p.default.map some, p.ty.impls ptr p.option⟩⟩) ++
    (restProps.toList.map fun r => ⟨r.field, false, false, .plain ⟨some .properties, r.ty.attr, none, r.ty.impls ptr false⟩⟩) ++
    kidsDefs kids ++ restKids.defs
/-- The fields for children. derive/src/definition.rs:592-605. -/
def kidsDefs : List Kid → List (FieldDef E S Leaf)
  | [] => []
  | k :: ks => k.def :: kidsDefs ks
/-- One field for children. derive/src/definition.rs:592-605. -/
def Kid.def : Kid → FieldDef E S Leaf
  | .flag f => ⟨.named f, false, true, .plain ⟨some .child, none, none, nodeImpls ptr fun _ => pure .none⟩⟩
  | .one f i => ⟨.named f, false, false, i.attrs (some .child) none⟩
  | .opt f i => ⟨.named f, true, false, i.attrs (some .child) none⟩
  | .orElse f d i => ⟨.named f, false, false, i.attrs (some .child) (some (some d))⟩
  | .many f name i => ⟨f, false, false, i.attrs (some (.children (some name))) none⟩
/-- The field for all other children. derive/src/definition.rs:592-605. -/
def RestKids.defs : RestKids → List (FieldDef E S Leaf)
  | .none => []
  | .some f i => [⟨f, false, false, i.attrs (some (.children none)) none⟩]
/-- The attributes of a field for children, with or without `unwrap`. derive/src/definition.rs:75-81. -/
def Inner.attrs : Inner → Option FieldMode → Option (Option (FVal Leaf)) → FieldAttrs E S Leaf
  | .type d, mode, default => .plain ⟨mode, none, default, nodeImpls ptr ((Inner.type d).decoder ptr)⟩
  | .unwrap f c, mode, default => .unwrapped ⟨mode, none, default, nodeImpls ptr ((Inner.unwrap f c).decoder ptr)⟩ (onlyAttrs ptr c.defs)
end

/-- The other fields of a struct, as they are declared. derive/src/definition.rs:592-605. -/
def Own.defs (o : Own) : List (FieldDef E S Leaf) :=
  (o.names.map fun f => ⟨f.1, false, false, .plain ⟨some .nodeName, none, none, nameImpls ptr f.2⟩⟩) ++
  (o.types.map fun f => ⟨f.1, f.2.1, false, .plain ⟨some .typeName, none, none, nameImpls ptr f.2.2⟩⟩) ++
  (o.extras.map fun f => ⟨f.1, false, false, .plain ⟨none, none, none, extraImpls ptr f.2⟩⟩)

/-- A variant as it is declared. derive/src/definition.rs:305-310. -/
def Case.def : Case → VariantDef E S Leaf
  | .unit i => ⟨i, false, .unit⟩
  | .nested i d => ⟨i, false, .unnamed [⟨.indexed 0, false, false, .plain ⟨none, none, none, nodeImpls ptr (d.node ptr)⟩⟩]⟩
  | .nestedOpt i d => ⟨i, false, .unnamed [⟨.indexed 0, true, false, .plain ⟨none, none, none, nodeImpls ptr (d.node ptr)⟩⟩]⟩
  | .tuple i c => ⟨i, false, .unnamed (c.defs ptr)⟩

/-- What `unwrap(..)` can contain: one field, which is not seen to be an `Option` or a `bool`. -/
def Content.Inside (field : AttrAccess) : Content → Prop
  | .mk args rest props restProps kids restKids =>
    (Content.mk args rest props restProps kids restKids).fields = [field] ∧ (∀ a ∈ args, a.option = false) ∧
    (∀ p ∈ props, p.option = false) ∧
    ∀ k ∈ kids, match k with
      | .flag _ | .opt _ _ => False
      | _ => True

mutual
/-- Each `unwrap(..)` in the declaration of the struct is as it can be, and what is in it is called as
the field around it. -/
def Content.Written : Content → Prop
  | .mk _ _ _ _ kids restKids => kidsWritten kids ∧ restKids.Written
/-- The same for the fields for children. -/
def kidsWritten : List Kid → Prop
  | [] => True
  | k :: ks => k.Written ∧ kidsWritten ks
/-- The same for a field for children. -/
def Kid.Written : Kid → Prop
  | .flag _ => True
  | .one f i => i.Written (.named f)
  | .opt f i => i.Written (.named f)
  | .orElse f _ i => i.Written (.named f)
  | .many f _ i => i.Written f
/-- The same for the field for all other children. -/
def RestKids.Written : RestKids → Prop
  | .none => True
  | .some f i => i.Written f
/-- The same for what is inside a field. -/
def Inner.Written : Inner → AttrAccess → Prop
  | .type _, _ => True
  | .unwrap field c, outer => field = .named outer.tmpName ∧ c.Inside field ∧ c.Written
end

/-- The same for a variant. -/
def Case.Written : Case → Prop
  | .tuple _ c => c.Written
  | _ => True

end Decoders

end Schema
end Knuffel
