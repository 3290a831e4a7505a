import Verif.Spec.Schema
/-!
# Specification: types that refer to themselves and to each other

Types have names, and `ds : Str → Decl` says which declaration goes with which name.  In a declaration of
`Spec/Schema.lean` the enum with a variant that holds the empty enum, which has no values, here stands for
the type with the name of that variant.  What the values of such types are is told by their finite unfoldings.

The second half of the file says which functions the implementations of a trait for such types can be:
those that satisfy the equations that are the bodies of the generated functions.
-/

namespace Knuffel
namespace Schema

/-- The type of that name (in a `Box`, `Vec` or `Option`). -/
abbrev Decl.ref (name : Str) : Decl := .enum [.nested name (.enum [])]

/-- The name, if the enum of these variants stands for the type of that name. -/
def refName : List Case → Option Str
  | [.nested name (.enum [])] => some name
  | _ => none

section
variable (r : Str → Decl)

mutual
/-- The declaration with the types that `r` gives in place of the names. -/
def fillDecl : Decl → Decl
  | .struct own c => .struct own (c.fill)
  | .enum cases =>
    match refName cases with
    | some name => r name
    | none => .enum (casesFill cases)
/-- The same for the fields of a struct. -/
def Content.fill : Content → Content
  | .mk args rest props restProps kids restKids => .mk args rest props restProps (kidsFill kids) (restKids.fill)
/-- The same for the fields for children. -/
def kidsFill : List Kid → List Kid
  | [] => []
  | k :: ks => k.fill :: kidsFill ks
/-- The same for a field for children. -/
def Kid.fill : Kid → Kid
  | .flag f => .flag f
  | .one f i => .one f (i.fill)
  | .opt f i => .opt f (i.fill)
  | .orElse f d i => .orElse f d (i.fill)
  | .many f name i => .many f name (i.fill)
/-- The same for the field for all other children. -/
def RestKids.fill : RestKids → RestKids
  | .none => .none
  | .some f i => .some f (i.fill)
/-- The same for what is inside a field for children. -/
def Inner.fill : Inner → Inner
  | .type d => .type (fillDecl d)
  | .unwrap f c => .unwrap f (c.fill)
/-- The same for the variants of an enum. -/
def casesFill : List Case → List Case
  | [] => []
  | k :: ks => k.fill :: casesFill ks
/-- The same for a variant. -/
def Case.fill : Case → Case
  | .unit i => .unit i
  | .nested i d => .nested i (fillDecl d)
  | .nestedOpt i d => .nestedOpt i (fillDecl d)
  | .tuple i c => .tuple i (c.fill)
end

end

/-- The type of the name unfolded `k` times; what would be deeper is a type without values. -/
def unfolding (ds : Str → Decl) : Nat → Str → Decl
  | 0, _ => .enum []
  | k + 1, name => fillDecl (unfolding ds k) (ds name)

/-- The node is a way of writing a value of the type of the name: of one of its unfoldings. -/
def ReadsRec {S : Type} [Externals] (ptr : Nat) (ds : Str → Decl) (name : Str) (n : SpannedNode S) (v : FVal Leaf) : Prop :=
  ∃ k, (unfolding ds k name).Reads ptr n v

section
variable (ok : Str → Prop)

mutual
/-- Names of which `ok` does not hold are only used for children: not as the type itself, nor as the contents of a
variant that is made of the same node. -/
def Decl.Guarded : Decl → Prop
  | .struct _ _ => True
  | .enum cases =>
    match refName cases with
    | some name => ok name
    | none => casesGuarded cases
/-- The same for the variants of an enum. -/
def casesGuarded : List Case → Prop
  | [] => True
  | k :: ks => k.Guarded ∧ casesGuarded ks
/-- The same for a variant. -/
def Case.Guarded : Case → Prop
  | .unit _ => True
  | .nested _ d => d.Guarded
  | .nestedOpt _ d => d.Guarded
  | .tuple _ _ => True
end

end

/-- No type hands on the whole node to itself, be it through others: there are ranks up to `R`, and a type that hands
on the whole node does so to types of lower rank.  (With `R = 0`: other types are only used for children.) -/
def Grounded (ds : Str → Decl) (R : Nat) : Prop :=
  ∃ rank : Str → Nat, ∀ name, rank name ≤ R ∧ (ds name).Guarded (fun other => rank other < rank name)

/-- The node has less than `k` levels of nodes below it. -/
def Within {S : Type} : Nat → SpannedNode S → Prop
  | 0, _ => False
  | k + 1, n => ∀ m ∈ n.value.childNodes, Within k m

/-! ### The implementations -/

section
variable {E S : Type} [Externals] (ptr : Nat) (self : Str → NodeDecoder E S (FVal Leaf))

mutual
/-- The body of the derived `Decode::decode_node`, given the functions that are called for the types
with names.
derive/src/node.rs:137-153, derive/src/variants.rs:41-54. -/
def Decl.body : Decl → NodeDecoder E S (FVal Leaf)
  | .struct own c => (own.into ptr c.structBody).node
  | .enum cases =>
    match refName cases with
    | some name => self name
    | none => enumNode (casesBody cases)
/-- The struct that the macro makes of the fields. derive/src/definition.rs:372-605. -/
def Content.structBody : Content → Struct E S Leaf
  | .mk args rest props restProps kids restKids =>
    { arguments := args.map fun a => ⟨a.field, a.option, a.ty.mode, a.default, a.ty.impls ptr a.option⟩
      varArgs := rest.map fun r => ⟨r.field, r.ty.mode, r.ty.impls ptr false⟩
      properties := props.map fun p => ⟨p.field, p.name, p.option, p.ty.mode, false, p.default, p.ty.impls ptr p.option⟩
      varProps := restProps.map fun r => ⟨r.field, r.ty.mode, r.ty.impls ptr false⟩
      children := kidsBody kids
      varChildren := restKids.varBody }
/-- The fields for children. derive/src/definition.rs:468-512. -/
def kidsBody : List Kid → List (Child E S Leaf)
  | [] => []
  | k :: ks => k.childBody :: kidsBody ks
/-- One field for children. derive/src/definition.rs:468-512. -/
def Kid.childBody : Kid → Child E S Leaf
  | .flag f => ⟨.named f, Externals.kebab f, false, .bool, none, fun _ => pure .none, nodeImpls ptr fun _ => pure .none⟩
  | .one f i => ⟨.named f, Externals.kebab f, false, .normal, none, i.decoderBody, nodeImpls ptr i.decoderBody⟩
  | .opt f i => ⟨.named f, Externals.kebab f, true, .normal, none, i.decoderBody, nodeImpls ptr i.decoderBody⟩
  | .orElse f d i => ⟨.named f, Externals.kebab f, false, .normal, some d, i.decoderBody, nodeImpls ptr i.decoderBody⟩
  | .many f name i => ⟨f, name, false, .multi, none, i.decoderBody, nodeImpls ptr i.decoderBody⟩
/-- The field for all other children. derive/src/definition.rs:513-524. -/
def RestKids.varBody : RestKids → Option (VarChildren E S Leaf)
  | .none => none
  | .some f i => some ⟨f, i.decoderBody⟩
/-- `Decode::decode_node` of the type of a field, or the closure of `unwrap`. derive/src/node.rs:620-626. -/
def Inner.decoderBody : Inner → NodeDecoder E S (FVal Leaf)
  | .type d => d.body
  | .unwrap field c => unwrapNode c.structBody field
/-- The variants of an enum. derive/src/definition.rs:277-345. -/
def casesBody : List Case → List (Variant E S Leaf)
  | [] => []
  | k :: ks => k.variantBody :: casesBody ks
/-- One variant. derive/src/definition.rs:304-345. -/
def Case.variantBody : Case → Variant E S Leaf
  | .unit i => ⟨i, Externals.kebab i, .unit⟩
  | .nested i d => ⟨i, Externals.kebab i, .nested false d.body⟩
  | .nestedOpt i d => ⟨i, Externals.kebab i, .nested true d.body⟩
  | .tuple i c => ⟨i, Externals.kebab i, .tuple c.structBody⟩
end

end

/-- The functions satisfy the equations that their definitions in the generated code are. -/
def DecodedBy {E S : Type} [Externals] (ptr : Nat) (ds : Str → Decl) (dec : Str → NodeDecoder E S (FVal Leaf)) : Prop :=
  ∀ name n, dec name n = (ds name).body ptr dec n

end Schema
end Knuffel
