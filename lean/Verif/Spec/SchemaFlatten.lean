import Verif.Spec.Schema
import Verif.Spec.Flatten
/-!
# Specification: declared types with flattened parts

A struct with fields marked `flatten` is written out by putting the fields of the flattened
structs in their places, one flattened field after the other, until none is left.
-/

namespace Knuffel
namespace Schema
variable {E S : Type} [Externals]

/-- The struct `s`, written out, is the declaration with the fields `own` and `c`, in which nothing is
flattened.  `R v w` says that the value `v` of the struct is, written out, the value `w` of the
declaration. -/
inductive WrittenOut (ptr : Nat) (own : Own) (c : Content) : Struct E S Leaf → (FVal Leaf → FVal Leaf → Prop) → Prop
  /-- Nothing is flattened. -/
  | plain : WrittenOut ptr own c (own.into ptr (c.struct ptr)) (fun v w => v = w)
  /-- The field `fp` is marked `flatten(property)`, and its type is the struct `t`. -/
  | property {s s' t : Struct E S Leaf} {fp : Prop' E S Leaf} {env0 : Env Leaf} {R} (hi : InlineProps s fp t env0 s')
      (hp : fp.impls.part = t.part) (ht : t.partialCompatible = true) (h : WrittenOut ptr own c s' R) :
      WrittenOut ptr own c s fun v w => ∃ u, InlinedValue fp.field (t.properties.map (·.field)) env0 v u ∧ R u w
  /-- The field `fc` is marked `flatten(child)`, and its type is the struct `t`. -/
  | child {s s' t : Struct E S Leaf} {fc : Child E S Leaf} {env0 : Env Leaf} {R} (hi : InlineChildren s fc t env0 s')
      (hp : fc.impls.part = t.part) (hs : s.Keeps) (ht : t.Keeps) (hf : ∀ ch ∈ t.children, ch.Flat)
      (h : WrittenOut ptr own c s' R) :
      WrittenOut ptr own c s fun v w => ∃ u, InlinedValue fc.field (t.children.map (·.field)) env0 v u ∧ R u w

end Schema
end Knuffel
