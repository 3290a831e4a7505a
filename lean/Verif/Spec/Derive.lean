import Verif.Model.Derive
import Verif.Spec.Decode
/-!
# Specification: derived decoders

Vocabulary for the statements about derived decoders: what a call did while a
whole decoding run went from one context to another, which field a property or
a child node belongs to, and what a field gets when nothing was given for it.
-/

namespace Knuffel
variable {E S V α β ι σ : Type}

/-! ### Calls inside a run -/

/-- Between the contexts `c` and `c'` of a run, `d` was run and gave `x`: the
errors known before are those of `c` or more, and those known after are still
known in `c'`. -/
def During (c c' : Ctx E S) (d : D E S α) (x : α) : Prop :=
  ∃ c1 c2, c.errors <+: c1.errors ∧ d c1 = .ok x c2 ∧ c2.errors <+: c'.errors

/-- How a run stopped without a value: with an error and the context left, or by
a panic (`none`). -/
def Out.stop : Out E S α → Option (Option (DErr S × Ctx E S))
  | .ok _ _ => none
  | .err e c => some (some (e, c))
  | .panic => some none

/-- In a run that began in `c`, `d` was run and stopped without a value, in the way `r`. -/
def StopsIn (c : Ctx E S) (d : D E S α) (r : Option (DErr S × Ctx E S)) : Prop :=
  ∃ c1, c.errors <+: c1.errors ∧ (d c1).stop = some r

/-- The items one after the other take the state from `x` to `y`. -/
inductive Steps (R : ι → σ → σ → Prop) : List ι → σ → σ → Prop where
  | nil (x : σ) : Steps R [] x x
  | cons {i : ι} {is : List ι} {x y z : σ} : R i x y → Steps R is y z → Steps R (i :: is) x z

/-- The two lists are of the same length and related element by element. -/
inductive Each2 (R : α → β → Prop) : List α → List β → Prop where
  | nil : Each2 R [] []
  | cons {a : α} {b : β} {as : List α} {bs : List β} : R a b → Each2 R as bs → Each2 R (a :: as) (b :: bs)

/-- Whatever the context, the computation does not give a value without reporting an error. -/
def NeverClean (d : D E S α) : Prop := ∀ c, ¬ (d c).Clean c

/-! ### Errors are never taken back -/

/-- The implementations never take back errors. -/
structure Impls.Keeps (i : Impls E S V) : Prop where
  scalar : ∀ v, Knuffel.Keeps (i.scalar.decode v)
  node : ∀ n, Knuffel.Keeps (i.node n)
  insertChild : ∀ x n, Knuffel.Keeps (i.part.insertChild x n)
  insertProperty : ∀ x n v, Knuffel.Keeps (i.part.insertProperty x n v)
  span : ∀ s, Knuffel.Keeps (i.span.run s)

/-- None of the implementations that a struct uses takes back errors. -/
structure Struct.Keeps (s : Struct E S V) : Prop where
  spans : ∀ f ∈ s.spans, f.impls.Keeps
  nodeNames : ∀ f ∈ s.nodeNames, f.impls.Keeps
  typeNames : ∀ f ∈ s.typeNames, f.impls.Keeps
  arguments : ∀ f ∈ s.arguments, f.impls.Keeps
  varArgs : ∀ f ∈ s.varArgs, f.impls.Keeps
  properties : ∀ f ∈ s.properties, f.impls.Keeps
  varProps : ∀ f ∈ s.varProps, f.impls.Keeps
  children : ∀ f ∈ s.children, f.impls.Keeps ∧ ∀ n, Knuffel.Keeps (f.decoder n)
  varChildren : ∀ f ∈ s.varChildren, ∀ n, Knuffel.Keeps (f.decoder n)

/-! ### Fields for which nothing is given -/

/-- The value of a field for which the node has nothing: the default, or else
`None` if the field is optional, or else there is no value. -/
def absent (default : Option (FVal V)) (option : Bool) : Option (FVal V) :=
  match default with
  | some d => some d
  | none => if option then some .none else none

/-- What an argument field gets: the value decoded from its argument, or what is
due when there is none. -/
def ArgGets [Externals] (c c' : Ctx E S) (a : Arg E S V) (arg : Option (Value S)) (x : FVal V) : Prop :=
  match arg with
  | some v => During c c' (decodeValue a.decode a.option a.impls v) x
  | none => absent a.default a.option = some x

/-- What a property field gets, given the properties with its name (there is at
most one in a node): the value decoded from it, or what is due when there is none. -/
def PropGets [Externals] (c c' : Ctx E S) (p : Prop' E S V) (mine : List (Spanned Str S × Value S)) (x : FVal V) : Prop :=
  match mine.getLast? with
  | some q => During c c' (decodeValue p.decode p.option p.impls q.2) x
  | none => absent p.default p.option = some x

/-- What a flattened property field gets: from the `Default` value, one
`insert_property` for each of its properties in order. -/
def PropInserts (c c' : Ctx E S) (p : Prop' E S V) (mine : List (Spanned Str S × Value S)) (x : FVal V) : Prop :=
  Steps (fun q x y => During c c' (p.impls.part.insertProperty x q.1 q.2) (true, y)) mine p.impls.default x

/-- What a field for children gets, given the child nodes that belong to it:
* `child`: what is decoded from the only node (wrapped in `Some` for an
  `Option` field without default), or what is due when there is none;
* `children(name)`: what is decoded from all the nodes, in order;
* a `bool` child: whether there is a node; each node is checked to be a mere
  flag, and each node after the first is reported;
* a flattened field: one `insert_child` for each of its nodes, in order. -/
def ChildGets (c c' : Ctx E S) (ch : Child E S V) (mine : List (SpannedNode S)) (x : FVal V) : Prop :=
  match ch.mode with
  | .normal =>
    match mine with
    | [] => absent ch.default ch.option = some x
    | [n] => ∃ y, During c c' (ch.decoder n) y ∧ x = if ch.option && ch.default.isNone then .some y else y
    | _ => False
  | .multi => ∃ xs, Each2 (fun n y => During c c' (ch.decoder n) y) mine xs ∧
      x = if mine.isEmpty then (absent ch.default ch.option).getD (.list [])
          else if ch.option then .some (.list xs) else .list xs
  | .bool => x = .bool (!mine.isEmpty) ∧ (∀ n ∈ mine, During c c' (checkFlagNode n) ()) ∧
      ∀ n ∈ mine.tail, During c c' (D.emit (duplicateNode ch n)) ()
  | .flatten => Steps (fun n x y => During c c' (ch.impls.part.insertChild x n) (true, y)) mine ch.impls.default x

/-- What a `type_name` field gets: the type name of the node converted, `None`
if there is none and the field is optional. -/
def TypeNameGets (node : SpannedNode S) (f : TypeNameField E S V) (x : FVal V) : Prop :=
  match node.value.typeName with
  | some tn => ∃ y, f.impls.fromStr tn.value.asStr = .ok y ∧ x = if f.option then .some y else y
  | none => f.option = true ∧ x = .none

/-- The error for a type name nobody asked for. -/
def strayTypeName (tn : Spanned TypeName S) : DErr S :=
  DErr.unexp tn "type name".toList "no type name expected for this node".toList

/-! ### Who takes a property -/

/-- The partial struct takes the properties with the names `takes` and no
others: others are refused and leave it alone. -/
structure Partial.TakesProps (P : Partial E S (FVal V)) (takes : Str → Bool) : Prop where
  no : ∀ x (name : Spanned Str S) val c, takes name.value = false →
    P.insertProperty x name val c = .ok (false, x) c
  yes : ∀ x (name : Spanned Str S) val c b y c', takes name.value = true →
    P.insertProperty x name val c = .ok (b, y) c' → b = true

/-- The partial struct takes the child nodes with the names `takes` and no others. -/
structure Partial.TakesChildren (P : Partial E S (FVal V)) (takes : Str → Bool) : Prop where
  no : ∀ x (node : SpannedNode S) c, takes node.value.nodeName.value = false →
    P.insertChild x node c = .ok (false, x) c
  yes : ∀ x (node : SpannedNode S) c b y c', takes node.value.nodeName.value = true →
    P.insertChild x node c = .ok (b, y) c' → b = true

/-- `takes p n` says whether the field `p` takes a property named `n`: a property
field takes its own name, a flatten field what its type takes. -/
def Struct.PropNames (s : Struct E S V) (takes : Prop' E S V → Str → Bool) : Prop :=
  ∀ p ∈ s.properties,
    if p.flatten then p.impls.part.TakesProps (takes p) else ∀ n, takes p n = decide (n = p.name)

/-- The same for children. -/
def Struct.ChildNames (s : Struct E S V) (takes : Child E S V → Str → Bool) : Prop :=
  ∀ ch ∈ s.children,
    if ch.mode = .flatten then ch.impls.part.TakesChildren (takes ch) else ∀ n, takes ch n = decide (n = ch.name)

/-- The position of the field that gets the property named `n`: the first one that takes it. -/
def Struct.propField (s : Struct E S V) (takes : Prop' E S V → Str → Bool) (n : Str) : Option Nat :=
  s.properties.findIdx? (fun p => takes p n)

/-- The position of the field that gets the child node named `n`: the first one that takes it. -/
def Struct.childField (s : Struct E S V) (takes : Child E S V → Str → Bool) (n : Str) : Option Nat :=
  s.children.findIdx? (fun p => takes p n)

/-- The properties of a node that belong to the field at position `i`; with `none`, to no field. -/
def Struct.propsFor (s : Struct E S V) (takes : Prop' E S V → Str → Bool) (node : SpannedNode S)
    (i : Option Nat) : List (Spanned Str S × Value S) :=
  node.value.properties.filter fun q => s.propField takes q.1.value = i

/-- The child nodes that belong to the field at position `i`; with `none`, to no field. -/
def Struct.nodesFor (s : Struct E S V) (takes : Child E S V → Str → Bool) (nodes : List (SpannedNode S))
    (i : Option Nat) : List (SpannedNode S) :=
  nodes.filter fun n => s.childField takes n.value.nodeName.value = i

end Knuffel
