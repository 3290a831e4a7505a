import Verif.Model.ParseDecode
import Verif.Model.Containers
import Verif.Spec.Doc
/-!
# Specification: histories of a context, runs over lists, maps of properties
-/

namespace Knuffel

/-- What the program can do with a context: set a value of some type, or record an error. -/
inductive CtxOp (T : TypeId → Type) (S : Type) where
  | set (id : TypeId) (v : T id)
  | emit (e : DErr S)

/-- The value set last for a type in a history. -/
def lastSet {T : TypeId → Type} {S : Type} (id : TypeId) : List (CtxOp T S) → Option (T id)
  | [] => none
  | .set id' v :: rest =>
    match lastSet id rest with
    | some w => some w
    | none => if h : id' = id then some (h ▸ v) else none
  | .emit _ :: rest => lastSet id rest

/-- The errors recorded in a history. -/
def emitted {T : TypeId → Type} {S : Type} : List (CtxOp T S) → List (DErr S)
  | [] => []
  | .set _ _ :: rest => emitted rest
  | .emit e :: rest => e :: emitted rest

variable {E S α : Type}

/-- A run over the nodes in order: every node is decoded once, in the context left by the
nodes before it; its value is added to the results, or its error is recorded. -/
inductive Visits (d : NodeDecoder E S α) : Ctx E S → List (SpannedNode S) → List α → Ctx E S → Prop where
  | nil {c : Ctx E S} : Visits d c [] [] c
  | ok {c c1 c2 : Ctx E S} {n : SpannedNode S} {ns : List (SpannedNode S)} {v : α} {vs : List α}
      (h : d n c = .ok v c1) (hs : Visits d c1 ns vs c2) : Visits d c (n :: ns) (v :: vs) c2
  | err {c c1 c2 : Ctx E S} {n : SpannedNode S} {ns : List (SpannedNode S)} {e : DErr S} {vs : List α}
      (h : d n c = .err e c1) (hs : Visits d { c1 with errors := c1.errors ++ [e] } ns vs c2) : Visits d c (n :: ns) vs c2

mutual
/-- The properties of the node, and of all nodes below, are sorted by name, each name once:
they are maps, as in every document the parser makes. -/
def Node.PropsSorted : Node S → Prop
  | .mk _ _ _ props children => (props.map (·.1.value)).Pairwise (· < ·) ∧ ChildrenSorted children
/-- The same for a children block. -/
def ChildrenSorted : Option (Spanned (List (Spanned (Node S) S)) S) → Prop
  | none => True
  | some ⟨_, l⟩ => NodesSorted l
/-- The same for several nodes. -/
def NodesSorted : List (Spanned (Node S) S) → Prop
  | [] => True
  | ⟨_, n⟩ :: rest => n.PropsSorted ∧ NodesSorted rest
end

end Knuffel
