import Verif.Spec.Layout
import Verif.Spec.Derive
/-!
# Specification: texts that say the same

Independent specification for C85: when two concrete syntax trees say the same, whatever the layout,
the spelling of strings and numbers, and the order of the entries; and what it is to bring the entries of
nodes into another order.  Nothing here models code, and nothing refers to the parser.
-/

namespace Knuffel.Cst

/-- What a value says: the name in the parentheses, if any, and what the literal stands for. -/
def Val.says (v : Val) : Option Str × Literal := (v.ty.map Name.value, v.lit.value)

/-- The values written for a property of this name and not commented out, in order. -/
def valuesFor (key : Str) (items : List Item) : List Val :=
  ((writtenProps items).filter fun kv => kv.1.value = key).map Prod.snd

/-- Two nodes say the same: the same annotation and name, the same arguments in the same order, for each property the
same last value, both with or both without braces, and in them, one by one, nodes that say the same.  What is
commented out does not count. -/
inductive Alike : NodeC → NodeC → Prop where
  | mk {n n' : NodeC} : n.ty.map Name.value = n'.ty.map Name.value → n.name.value = n'.name.value →
      (writtenArgs n.items).map Val.says = (writtenArgs n'.items).map Val.says →
      (∀ key, (valuesFor key n.items).getLast?.map Val.says = (valuesFor key n'.items).getLast?.map Val.says) →
      n.children.written.isSome = n'.children.written.isSome →
      Each2 Alike (n.children.written.getD []) (n'.children.written.getD []) → Alike n n'

mutual
/-- The second node is the first with its entries in another order (and another layout): the arguments are in the same
order, and so are, for each name, the properties of that name.  The same for the nodes in the braces. -/
inductive NodeC.Reorders : NodeC → NodeC → Prop where
  | mk {ty : Option Name} {name : Name} {items items' : List Item} {children children' : ChildrenC}
      {space space' : List Space} {term term' : Term} :
      (items'.map Item.plain).Perm (items.map Item.plain) → writtenArgs items = writtenArgs items' →
      (∀ key, valuesFor key items = valuesFor key items') → ChildrenC.Reorders children children' →
      NodeC.Reorders (.mk ty name items children space term) (.mk ty name items' children' space' term')
/-- The same for a children block. -/
inductive ChildrenC.Reorders : ChildrenC → ChildrenC → Prop where
  | none : ChildrenC.Reorders .none .none
  | some {space space' : List Space} {dash dash' : Option (List Space)} {body body' : BodyC} : dash.isSome = dash'.isSome →
      BodyC.Reorders body body' → ChildrenC.Reorders (.some space dash body) (.some space' dash' body')
/-- The same for a sequence of nodes. -/
inductive BodyC.Reorders : BodyC → BodyC → Prop where
  | nil {lines lines' : List Line} : BodyC.Reorders (.nil lines) (.nil lines')
  | cons {lines lines' : List Line} {dash dash' : Option (List Space)} {node node' : NodeC} {rest rest' : BodyC} :
      dash.isSome = dash'.isSome → NodeC.Reorders node node' → BodyC.Reorders rest rest' →
      BodyC.Reorders (.cons lines dash node rest) (.cons lines' dash' node' rest')
end

end Knuffel.Cst
