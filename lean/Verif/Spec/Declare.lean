import Verif.Model.Derive
/-!
# Specification: which declarations of structs are accepted, and what is derived for them

This speaks of the declared fields only.
-/

namespace Knuffel
variable {E S V : Type}

/-- The settings of a field, or of an `unwrap`, make sense inside `unwrap(..)`: it takes something from the node,
and there is no decode mode where nodes are decoded. -/
def PlainAttrs.Inside (a : PlainAttrs E S V) : Prop :=
  match a.mode with
  | none | some .span | some .nodeName | some .typeName => False
  | some .argument | some .arguments | some (.property _) | some .properties => True
  | some .child | some (.children _) | some (.flatten _ _) => a.decode = none

/-- The settings take whole child nodes. -/
def PlainAttrs.TakesNodes (a : PlainAttrs E S V) : Prop := a.mode = some .child ∨ ∃ name, a.mode = some (.children name)

/-- What is written inside of an `unwrap(..)` makes sense.  (An `unwrap` that is not at a `child` or at `children` is
not looked at.) -/
def FieldAttrs.Unwraps : FieldAttrs E S V → Prop
  | .plain a => a.Inside
  | .unwrapped a i => a.Inside ∧ (a.TakesNodes → i.Unwraps)

/-- The `unwrap(..)` of the field, if there is one, makes sense. -/
def FieldDef.Unwraps (f : FieldDef E S V) : Prop := ∀ a i, f.attrs = .unwrapped a i → i.Unwraps

/-- The declaration of a field makes sense by itself. -/
def FieldDef.Sensible (f : FieldDef E S V) : Prop :=
  match f.attrs.base.mode with
  | none | some .argument | some .arguments | some .properties | some (.property (some _)) => True
  | some (.property none) => ∃ id, f.field = .named id
  | some .child => f.attrs.base.decode = none ∧ (∃ id, f.field = .named id) ∧ f.Unwraps
  | some (.children _) => f.attrs.base.decode = none ∧ f.Unwraps
  | some (.flatten _ _) => f.attrs.base.decode = none ∧ f.isOption = false
  | some .span | some .nodeName | some .typeName => f.attrs.base.decode = none

/-- Nothing is left for a field with the mode `m` after a field with the mode `k`, which takes all the rest. -/
def FieldMode.Exhausts (k m : FieldMode) : Prop :=
  (k = .arguments ∧ (m = .argument ∨ m = .arguments)) ∨
  (k = .properties ∧ ((∃ n, m = .property n) ∨ m = .properties ∨ ∃ c, m = .flatten c true)) ∨
  (k = .children none ∧ (m = .child ∨ (∃ n, m = .children n) ∨ ∃ p, m = .flatten true p))

/-- Nothing is left for the field `g` after the field `f`. -/
def FieldDef.Exhausts (f g : FieldDef E S V) : Prop :=
  ∃ k m, f.attrs.base.mode = some k ∧ g.attrs.base.mode = some m ∧ k.Exhausts m

/-- A document can have the field: it is made from child nodes or from nothing. -/
def FieldDef.InDocument (f : FieldDef E S V) : Prop :=
  match f.attrs.base.mode with
  | none | some .child | some (.children _) | some (.flatten _ false) => True
  | _ => False

/-- The field can start out empty and be filled in later: an optional property or child, a flag, a flattened struct,
or a field made from nothing. -/
def FieldDef.Later (f : FieldDef E S V) : Prop :=
  match f.attrs.base.mode with
  | none | some (.flatten _ _) => True
  | some (.property _) | some (.children (some _)) => f.isOption = true
  | some .child => f.isOption = true ∨ (f.isBool = true ∧ ∃ a, f.attrs = .plain a)
  | _ => False

end Knuffel
