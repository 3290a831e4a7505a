import Verif.Spec.Schema
import Verif.Spec.Natural
/-!
# Specification: nodes in another order

Independent specification for C78: what it is to bring children with different names into another
order, at any depth, and which declarations have names for all children.
-/

namespace Knuffel
namespace Schema

/-- The nodes with the given name, in order. -/
def Named {S : Type} (name : Str) (l : List (SpannedNode S)) : List (SpannedNode S) := l.filter fun m => m.value.nodeName.value = name

/-- Two nodes with the same name, annotation, arguments and properties, both with or both without a
block of children; and for each name, the children with this name are, in order, the same in both, but
for such changes inside of them. -/
inductive Shuffled {S : Type} : SpannedNode S → SpannedNode S → Prop where
  | mk {n n' : SpannedNode S} : n.value.nodeName = n'.value.nodeName → n.value.typeName = n'.value.typeName →
      n.value.arguments = n'.value.arguments → n.value.properties = n'.value.properties →
      n.value.children.isSome = n'.value.children.isSome →
      (∀ name : Str, Each2 Shuffled (n.value.childNodes.filter fun m => m.value.nodeName.value = name)
        (n'.value.childNodes.filter fun m => m.value.nodeName.value = name)) → Shuffled n n'

/-- For each name, the nodes with this name are, in order, the same in both lists, but for the order of
their children. -/
def ShuffledNodes {S : Type} (l l' : List (SpannedNode S)) : Prop := ∀ name, Each2 Shuffled (Named name l) (Named name l')

/-- A node without its spans. -/
abbrev noSpans {S : Type} (n : SpannedNode S) : SpannedNode Unit := mapNode (fun _ => ()) n

mutual
/-- No struct in the declaration has a field for all other children. -/
def Decl.ByName : Decl → Prop
  | .struct _ c => c.ByName
  | .enum cases => casesByName cases
/-- The same for the fields of a struct. -/
def Content.ByName : Content → Prop
  | .mk _ _ _ _ kids restKids => kidsByName kids ∧ (match restKids with | .none => True | .some _ _ => False)
/-- The same for the fields for children. -/
def kidsByName : List Kid → Prop
  | [] => True
  | k :: ks => k.ByName ∧ kidsByName ks
/-- The same for a field for children. -/
def Kid.ByName : Kid → Prop
  | .flag _ => True
  | .one _ inner | .opt _ inner | .orElse _ _ inner | .many _ _ inner => inner.ByName
/-- The same for what is inside a field for children. -/
def Inner.ByName : Inner → Prop
  | .type d => d.ByName
  | .unwrap _ c => c.ByName
/-- The same for the variants of an enum. -/
def casesByName : List Case → Prop
  | [] => True
  | k :: ks => k.ByName ∧ casesByName ks
/-- The same for a variant. -/
def Case.ByName : Case → Prop
  | .unit _ => True
  | .nested _ d | .nestedOpt _ d => d.ByName
  | .tuple _ c => c.ByName
end

end Schema
end Knuffel
