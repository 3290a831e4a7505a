import Verif.Spec.Derive
/-!
# Specification: flattened fields

What it means that two runs end in the same way, and what the `Default` of a
flattened struct should be for the field to behave as if the fields of the
struct had been written in its place.
-/

namespace Knuffel
variable {E S V α β : Type}

/-- The two runs end in the same way: with values that are related and the same
errors recorded, or with the same error, or with a panic. -/
def Out.Same (R : α → β → Prop) : Out E S α → Out E S β → Prop
  | .ok a c, .ok b c' => R a b ∧ c = c'
  | .err e c, .err e' c' => e = e' ∧ c = c'
  | .panic, .panic => True
  | _, _ => False

/-- The value of a variable or field in an environment. -/
def Env.look (f : AttrAccess) (env : Env V) : Option (FVal V) := (env.find? fun p => p.1 = f).map (·.2)

/-- The value of a property field for which nothing is given: its default or
`None`; the `Default` of its type if it is itself flattened. -/
def Prop'.unset (p : Prop' E S V) : FVal V :=
  if p.flatten then p.impls.default else (absent p.default p.option).getD .none

/-- The value of a field for children for which there is no node. -/
def Child.unset (ch : Child E S V) : FVal V :=
  match ch.mode with
  | .flatten => ch.impls.default
  | .bool => .bool false
  | _ => .none

/-- `s'` is `s` with the properties of `t` written in the place of the
property field `fp`, which is flattened and of type `t`.  `env0` is the
`Default` of `t`, in which nothing is set. -/
structure InlineProps (s : Struct E S V) (fp : Prop' E S V) (t : Struct E S V) (env0 : Env V)
    (s' : Struct E S V) : Prop where
  split : ∃ pre post, s.properties = pre ++ fp :: post ∧
    s' = { s with properties := pre ++ t.properties ++ post }
  flatten : fp.flatten = true
  default : fp.impls.default = .record env0
  unset : ∀ p ∈ t.properties, env0.look p.field = some p.unset
  nodup : (t.properties.map (·.field)).Nodup

/-- The same for children. -/
structure InlineChildren (s : Struct E S V) (fc : Child E S V) (t : Struct E S V) (env0 : Env V)
    (s' : Struct E S V) : Prop where
  split : ∃ pre post, s.children = pre ++ fc :: post ∧
    s' = { s with children := pre ++ t.children ++ post }
  flatten : fc.mode = .flatten
  default : fc.impls.default = .record env0
  unset : ∀ ch ∈ t.children, env0.look ch.field = some ch.unset
  nodup : (t.children.map (·.field)).Nodup

/-- The field for children can be in a struct that is flattened: a flag, an
optional `child`, or again a flattened field.  (Rust rejects the others:
`child` fields with a default and `children(name)` fields of partial structs do
not type-check.) -/
def Child.Flat (ch : Child E S V) : Prop :=
  match ch.mode with
  | .normal => ch.option = true ∧ ch.default = none
  | .multi => False
  | _ => True

/-- The environment `env` has the record of a struct in the field `f`, and
`env'` has, in its place, the fields `fields` of that struct one by one; all
else is the same.  Fields of the struct that are not in `fields` are as in `env0`. -/
def Inlined (f : AttrAccess) (fields : List AttrAccess) (env0 : Env V) (env env' : Env V) : Prop :=
  ∃ (A B r : Env V), env = A ++ (f, .record r) :: B ∧
    env' = A ++ fields.map (fun g => (g, (r.look g).getD .none)) ++ B ∧
    (∀ g ∈ fields, (r.look g).isSome) ∧
    ∀ g, g ∉ fields → r.look g = env0.look g

/-- The two values are structs; in the place of the field `f` of the first,
which has a struct, the second has the fields `fields` of that struct. -/
def InlinedValue (f : AttrAccess) (fields : List AttrAccess) (env0 : Env V) (v v' : FVal V) : Prop :=
  ∃ env env', v = .record env ∧ v' = .record env' ∧ Inlined f fields env0 env env'

/-- Two of the nodes have the name of the same `child` field of `t`. -/
def Doubled (t : Struct E S V) (nodes : List (SpannedNode S)) : Prop :=
  ∃ ch ∈ t.children, ch.mode = .normal ∧
    2 ≤ (nodes.filter fun n => n.value.nodeName.value = ch.name).length

end Knuffel
