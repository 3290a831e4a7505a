import Verif.Spec.Schema
import Verif.Spec.Print
/-!
# Specification: the values of declared types

For the declarations of `Spec/Schema.lean`: which values a type has, so far as they can be put
into a document.  There are no nodes here.  What a value depends on beside its type is the name of
the node it stands in (an enum is selected by it, and a struct may have a field for it).
-/

namespace Knuffel
namespace Schema

section
variable [Externals] (ptr : Nat)

/-- The values of a type of arguments and properties.  Floats are those with a decimal notation. -/
def Scal.Has : Scal → FVal Leaf → Prop
  | .int t, x => ∃ n, x = .leaf (.int n) ∧ (rangeOf ptr t).1 ≤ n ∧ n ≤ (rangeOf ptr t).2
  | .float _, x => ∃ s, x = .leaf (.float s) ∧ FloatText s ∧ DecimalText s
  | .bool, x => ∃ b, x = .bool b
  | .text, x => ∃ s, x = .leaf (.text s)
  | .choice _ vs, x => ∃ s w, vs.find? (fun w => s = w.name) = some w ∧ x = .variant w.ident (.record [])
  | .str parse, x => ∃ s, parse s = .ok x
  | .bytes, x => ∃ s b, x = .leaf (.bytes b) ∧ (b = utf8 s ∨ Externals.b64 (utf8 s) = .ok b)

/-- The same for a field that may be of type `Option<..>`. -/
def Scal.HasIn (t : Scal) (option : Bool) (x : FVal Leaf) : Prop :=
  if option then x = .none ∨ ∃ y, t.Has ptr y ∧ x = .some y else t.Has ptr x

/-- The fields for the type name have their values from one type name, or all from there being none. -/
def Own.HasType (o : Own) (t : List (AttrAccess × FVal Leaf)) : Prop :=
  ∃ ty : Option TypeName, (∀ tn, ty = some tn → ReadableType tn) ∧ o.ReadsType ty t

mutual
/-- `v` is a value of the type that a node with this name can stand for; with `full`, a node with
something after its name. -/
def Decl.Has (name : Str) (full : Bool) : Decl → FVal Leaf → Prop
  | .struct own c, v => ∃ a t env, v = .record (a ++ t ++ env ++ own.extras) ∧ own.ReadsName name a ∧ own.HasType t ∧ c.Has env
  | .enum cases, v => casesHave name full cases v
/-- The fields have values of their types.  The first `k` arguments are given, the others have their
defaults; only if all are given there can be more. -/
def Content.Has : Content → List (AttrAccess × FVal Leaf) → Prop
  | .mk args rest props restProps kids restKids, env =>
    env.map (·.1) = (Content.mk args rest props restProps kids restKids).fields ∧
    (∃ k : Nat,
      (∀ (i : Nat) (a : ArgD), args[i]? = some a → ∃ x, (a.field, x) ∈ env ∧
        if i < k then a.ty.HasIn ptr a.option x else absent a.default a.option = some x) ∧
      (match rest with
        | none => True
        | some r => ∃ xs, (r.field, .list xs) ∈ env ∧ (xs ≠ [] → args.length ≤ k) ∧ ∀ x ∈ xs, r.ty.Has ptr x)) ∧
    (∀ p ∈ props, ∃ x, (p.field, x) ∈ env ∧ (p.ty.HasIn ptr p.option x ∨ absent p.default p.option = some x)) ∧
    (match restProps with
      | none => True
      | some r => ∃ kvs : List (Str × FVal Leaf), (r.field, .pairs (kvs.map fun kv => (.leaf (.text kv.1), kv.2))) ∈ env ∧
          (kvs.map (·.1)).Pairwise (· < ·) ∧ ∀ kv ∈ kvs, kv.1 ∉ props.map (·.name) ∧ r.ty.Has ptr kv.2) ∧
    kidsHave kids env ∧ restKids.Has (kids.map Kid.name) env
/-- The same for the fields for children. -/
def kidsHave : List Kid → List (AttrAccess × FVal Leaf) → Prop
  | [], _ => True
  | k :: ks, env => (∃ x, (k.field, x) ∈ env ∧ k.Has x) ∧ kidsHave ks env
/-- The same for a field for children. -/
def Kid.Has : Kid → FVal Leaf → Prop
  | .flag _, x => ∃ b, x = .bool b
  | .one f inner, x => inner.Has (Externals.kebab f) x
  | .opt f inner, x => x = .none ∨ ∃ y, inner.Has (Externals.kebab f) y ∧ x = .some y
  | .orElse f default inner, x => x = default ∨ inner.Has (Externals.kebab f) x
  | .many _ name inner, x => ∃ xs, x = .list xs ∧ ∀ y ∈ xs, inner.Has name y
/-- The same for the field for all other children: their names are none of `names`. -/
def RestKids.Has : RestKids → List Str → List (AttrAccess × FVal Leaf) → Prop
  | .none, _, _ => True
  | .some field inner, names, env => ∃ xs, (field, .list xs) ∈ env ∧ ∀ y ∈ xs, ∃ name, name ∉ names ∧ inner.Has name y
/-- The same for what is inside a field for children. -/
def Inner.Has : Inner → Str → FVal Leaf → Prop
  | .type d, name, x => d.Has name false x
  | .unwrap field c, _, x => c.Has [(field, x)]
/-- The variant selected by the name has this value. -/
def casesHave (name : Str) (full : Bool) : List Case → FVal Leaf → Prop
  | [], _ => False
  | k :: ks, v => if name = k.name then k.Has name full v else casesHave name full ks v
/-- The values of a variant.  `None` is a node with nothing after its name, and `Some` one with something
(be it an empty block). -/
def Case.Has (name : Str) (full : Bool) : Case → FVal Leaf → Prop
  | .unit ident, v => v = .variant ident (.record [])
  | .nested ident d, v => ∃ x, v = .variant ident x ∧ d.Has name full x
  | .nestedOpt ident d, v => (v = .variant ident .none ∧ full = false) ∨ ∃ x, v = .variant ident (.some x) ∧ d.Has name true x
  | .tuple ident c, v => ∃ env, v = .variant ident (.record env) ∧ c.Has env
end

/-- The values of a struct with children (and fields without attributes) only. -/
def Content.HasRoot (c : Content) (extras : List (AttrAccess × FVal Leaf)) (v : FVal Leaf) : Prop :=
  ∃ env, v = .record (env ++ extras) ∧ c.Has ptr env

end

end Schema
end Knuffel
