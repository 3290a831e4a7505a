import Verif.Props.DeriveUnwrap
/-!
# Classification of the fields

C52: each field of a struct gets the role that its attributes give it, and the
fields of each role are in the order of the declaration.
-/

set_option linter.unusedSectionVars false

namespace Knuffel
variable {E S V α : Type}

/-! ### What a single field becomes -/

namespace FieldDef
variable (f : FieldDef E S V)

/-- The mode that the attributes give. -/
def mode : Option FieldMode := f.attrs.base.mode
/-- `str`, `bytes` or nothing. -/
def dec : DecodeMode := f.attrs.base.decode.getD .normal

/-- A field with `argument`. -/
def asArg : Option (Arg E S V) :=
  if f.mode = some .argument then some ⟨f.field, f.isOption, f.dec, f.attrs.base.defaultVal, f.attrs.base.impls⟩ else none
/-- A field with `arguments`. -/
def asVarArgs : Option (VarArgs E S V) :=
  if f.mode = some .arguments then some ⟨f.field, f.dec, f.attrs.base.impls⟩ else none
/-- A field with `property`, named as the attribute or else the identifier in
kebab case says; or a field with `flatten(property)`. -/
def asProp [Externals] : Option (Prop' E S V) :=
  match f.mode, f.field with
  | some (.property (some name)), _ =>
    some ⟨f.field, name, f.isOption, f.dec, false, f.attrs.base.defaultVal, f.attrs.base.impls⟩
  | some (.property none), .named id =>
    some ⟨f.field, Externals.kebab id, f.isOption, f.dec, false, f.attrs.base.defaultVal, f.attrs.base.impls⟩
  | some (.flatten _ true), _ => some ⟨f.field, [], false, .normal, true, none, f.attrs.base.impls⟩
  | _, _ => none
/-- A field with `properties`. -/
def asVarProps : Option (VarProps E S V) :=
  if f.mode = some .properties then some ⟨f.field, f.dec, f.attrs.base.impls⟩ else none
/-- How the child nodes for a field are decoded: by the type of the field, or as
the `unwrap` attribute says. -/
def decoder [Externals] : Except Str (NodeDecoder E S (FVal V)) :=
  match f.attrs with
  | .plain a => .ok a.impls.node
  | .unwrapped _ i => unwrapFn (.named f.field.tmpName) i
/-- A field with `child` (a flag if it is a `bool` without `unwrap`), with
`children(name="..")` or with `flatten(child)`. -/
def asChild [Externals] : Option (Child E S V) :=
  match f.mode, f.field, f.decoder with
  | some .child, .named id, .ok d =>
    some ⟨f.field, Externals.kebab id, f.isOption, if !f.attrs.hasUnwrap && f.isBool then .bool else .normal,
      f.attrs.base.defaultVal, d, f.attrs.base.impls⟩
  | some (.children (some name)), _, .ok d =>
    some ⟨f.field, name, f.isOption, .multi, f.attrs.base.defaultVal, d, f.attrs.base.impls⟩
  | some (.flatten true _), _, _ => some ⟨f.field, [], false, .flatten, none, f.attrs.base.impls.node, f.attrs.base.impls⟩
  | _, _, _ => none
/-- A field with `children`. -/
def asVarChildren [Externals] : Option (VarChildren E S V) :=
  match f.mode, f.decoder with
  | some (.children none), .ok d => some ⟨f.field, d⟩
  | _, _ => none
/-- A field with `span`. -/
def asSpan : Option (SpanField E S V) := if f.mode = some .span then some ⟨f.field, f.attrs.base.impls⟩ else none
/-- A field with `node_name`. -/
def asNodeName : Option (NodeNameField E S V) :=
  if f.mode = some .nodeName then some ⟨f.field, f.attrs.base.impls⟩ else none
/-- A field with `type_name`. -/
def asTypeName : Option (TypeNameField E S V) :=
  if f.mode = some .typeName then some ⟨f.field, f.isOption, f.attrs.base.impls⟩ else none
/-- A field without mode. -/
def asExtra : Option (ExtraField E S V) :=
  if f.mode = none then some ⟨f.field, f.isOption, f.attrs.base.impls⟩ else none

end FieldDef

/-- The struct `b'` has the fields of `b` and, in the roles that its attributes
give it, the field `f`. -/
structure Adds [Externals] (b : Struct E S V) (f : FieldDef E S V) (b' : Struct E S V) : Prop where
  spans : b'.spans = b.spans ++ f.asSpan.toList
  nodeNames : b'.nodeNames = b.nodeNames ++ f.asNodeName.toList
  typeNames : b'.typeNames = b.typeNames ++ f.asTypeName.toList
  arguments : b'.arguments = b.arguments ++ f.asArg.toList
  varArgs : b'.varArgs.toList = b.varArgs.toList ++ f.asVarArgs.toList
  properties : b'.properties = b.properties ++ f.asProp.toList
  varProps : b'.varProps.toList = b.varProps.toList ++ f.asVarProps.toList
  children : b'.children = b.children ++ f.asChild.toList
  varChildren : b'.varChildren.toList = b.varChildren.toList ++ f.asVarChildren.toList
  extraFields : b'.extraFields = b.extraFields ++ f.asExtra.toList

theorem errPair_none {x : Option α} {m : String} {β : Type} {k : Except Str β} {r : β}
    (h : (errPair x m >>= fun _ => k) = .ok r) : x = none ∧ k = .ok r := by
  cases x with
  | none => exact ⟨rfl, h⟩
  | some _ => cases h

theorem noDecode_none {a : PlainAttrs E S V} {β : Type} {k : Except Str β} {r : β}
    (h : (a.noDecode >>= fun _ => k) = .ok r) : a.decode = none ∧ k = .ok r := by
  unfold PlainAttrs.noDecode at h
  cases hd : a.decode with
  | none => rw [hd] at h; exact ⟨rfl, h⟩
  | some _ => rw [hd] at h; cases h

theorem addField_adds [Externals] {b b' : Struct E S V} {f : FieldDef E S V}
    (h : addField b f.field f.isOption f.isBool f.attrs = .ok b') : Adds b f b' := by
  have h : addFieldWith b f.field f.isOption f.isBool f.attrs.base f.attrs.hasUnwrap f.decoder = .ok b' := by
    rw [← h]
    obtain ⟨fld, o, bl, at'⟩ := f
    cases at' <;> rfl
  unfold addFieldWith at h
  cases hm : f.attrs.base.mode with
  | none =>
    simp only [hm] at h
    cases h
    constructor <;> simp [FieldDef.asSpan, FieldDef.asNodeName, FieldDef.asTypeName, FieldDef.asArg, FieldDef.asVarArgs, FieldDef.asProp,
      FieldDef.asVarProps, FieldDef.asChild, FieldDef.asVarChildren, FieldDef.asExtra, FieldDef.mode, hm]
  | some m =>
    cases m with
    | argument =>
      simp only [hm] at h
      obtain ⟨h1, h⟩ := errPair_none h
      cases h
      constructor <;> simp [FieldDef.asSpan, FieldDef.asNodeName, FieldDef.asTypeName, FieldDef.asArg, FieldDef.asVarArgs, FieldDef.asProp,
        FieldDef.asVarProps, FieldDef.asChild, FieldDef.asVarChildren, FieldDef.asExtra, FieldDef.mode, hm, FieldDef.dec]
    | arguments =>
      simp only [hm] at h
      obtain ⟨h1, h⟩ := errPair_none h
      cases h
      constructor <;> simp [FieldDef.asSpan, FieldDef.asNodeName, FieldDef.asTypeName, FieldDef.asArg, FieldDef.asVarArgs, FieldDef.asProp,
        FieldDef.asVarProps, FieldDef.asChild, FieldDef.asVarChildren, FieldDef.asExtra, FieldDef.mode, hm, FieldDef.dec, h1]
    | property name =>
      simp only [hm] at h
      obtain ⟨h1, h⟩ := errPair_none h
      cases name with
      | some name =>
        cases h
        constructor <;> simp [FieldDef.asSpan, FieldDef.asNodeName, FieldDef.asTypeName, FieldDef.asArg, FieldDef.asVarArgs, FieldDef.asProp,
          FieldDef.asVarProps, FieldDef.asChild, FieldDef.asVarChildren, FieldDef.asExtra, FieldDef.mode, hm, FieldDef.dec]
      | none =>
        cases hf : f.field with
        | indexed i => rw [hf] at h; cases h
        | named id =>
          rw [hf] at h
          cases h
          constructor <;> simp [FieldDef.asSpan, FieldDef.asNodeName, FieldDef.asTypeName, FieldDef.asArg, FieldDef.asVarArgs, FieldDef.asProp,
            FieldDef.asVarProps, FieldDef.asChild, FieldDef.asVarChildren, FieldDef.asExtra, FieldDef.mode, hm, FieldDef.dec, hf]
    | properties =>
      simp only [hm] at h
      obtain ⟨h1, h⟩ := errPair_none h
      cases h
      constructor <;> simp [FieldDef.asSpan, FieldDef.asNodeName, FieldDef.asTypeName, FieldDef.asArg, FieldDef.asVarArgs, FieldDef.asProp,
        FieldDef.asVarProps, FieldDef.asChild, FieldDef.asVarChildren, FieldDef.asExtra, FieldDef.mode, hm, FieldDef.dec, h1]
    | child =>
      simp only [hm] at h
      obtain ⟨-, h⟩ := noDecode_none h
      obtain ⟨h1, h⟩ := errPair_none h
      cases hf : f.field with
      | indexed i => rw [hf] at h; cases h
      | named id =>
        rw [hf] at h
        cases hd : f.decoder with
        | error e => rw [hd] at h; cases h
        | ok d =>
          rw [hd] at h
          cases h
          constructor <;> simp [FieldDef.asSpan, FieldDef.asNodeName, FieldDef.asTypeName, FieldDef.asArg, FieldDef.asVarArgs, FieldDef.asProp,
            FieldDef.asVarProps, FieldDef.asChild, FieldDef.asVarChildren, FieldDef.asExtra, FieldDef.mode, hm, hf, hd]
    | children name =>
      cases name with
      | some name =>
        simp only [hm] at h
        obtain ⟨-, h⟩ := noDecode_none h
        obtain ⟨h1, h⟩ := errPair_none h
        cases hd : f.decoder with
        | error e => rw [hd] at h; cases h
        | ok d =>
          rw [hd] at h
          cases h
          constructor <;> simp [FieldDef.asSpan, FieldDef.asNodeName, FieldDef.asTypeName, FieldDef.asArg, FieldDef.asVarArgs, FieldDef.asProp,
            FieldDef.asVarProps, FieldDef.asChild, FieldDef.asVarChildren, FieldDef.asExtra, FieldDef.mode, hm, hd]
      | none =>
        simp only [hm] at h
        obtain ⟨-, h⟩ := noDecode_none h
        obtain ⟨h1, h⟩ := errPair_none h
        cases hd : f.decoder with
        | error e => rw [hd] at h; cases h
        | ok d =>
          rw [hd] at h
          cases h
          constructor <;> simp [FieldDef.asSpan, FieldDef.asNodeName, FieldDef.asTypeName, FieldDef.asArg, FieldDef.asVarArgs, FieldDef.asProp,
            FieldDef.asVarProps, FieldDef.asChild, FieldDef.asVarChildren, FieldDef.asExtra, FieldDef.mode, hm, hd, h1]
    | flatten c p =>
      simp only [hm] at h
      cases ho : f.isOption with
      | true => rw [ho] at h; cases h
      | false =>
        rw [ho] at h
        obtain ⟨-, h⟩ := noDecode_none (a := f.attrs.base) h
        cases p with
        | true =>
          obtain ⟨h1, h⟩ := errPair_none h
          cases c with
          | true =>
            obtain ⟨h1, h⟩ := errPair_none h
            cases h
            constructor <;> simp [FieldDef.asSpan, FieldDef.asNodeName, FieldDef.asTypeName, FieldDef.asArg, FieldDef.asVarArgs, FieldDef.asProp,
              FieldDef.asVarProps, FieldDef.asChild, FieldDef.asVarChildren, FieldDef.asExtra, FieldDef.mode, hm]
          | false =>
            cases h
            constructor <;> simp [FieldDef.asSpan, FieldDef.asNodeName, FieldDef.asTypeName, FieldDef.asArg, FieldDef.asVarArgs, FieldDef.asProp,
              FieldDef.asVarProps, FieldDef.asChild, FieldDef.asVarChildren, FieldDef.asExtra, FieldDef.mode, hm]
        | false =>
          cases c with
          | true =>
            obtain ⟨h1, h⟩ := errPair_none h
            cases h
            constructor <;> simp [FieldDef.asSpan, FieldDef.asNodeName, FieldDef.asTypeName, FieldDef.asArg, FieldDef.asVarArgs, FieldDef.asProp,
              FieldDef.asVarProps, FieldDef.asChild, FieldDef.asVarChildren, FieldDef.asExtra, FieldDef.mode, hm]
          | false =>
            cases h
            constructor <;> simp [FieldDef.asSpan, FieldDef.asNodeName, FieldDef.asTypeName, FieldDef.asArg, FieldDef.asVarArgs, FieldDef.asProp,
              FieldDef.asVarProps, FieldDef.asChild, FieldDef.asVarChildren, FieldDef.asExtra, FieldDef.mode, hm]
    | span =>
      simp only [hm] at h
      obtain ⟨-, h⟩ := noDecode_none h
      cases h
      constructor <;> simp [FieldDef.asSpan, FieldDef.asNodeName, FieldDef.asTypeName, FieldDef.asArg, FieldDef.asVarArgs, FieldDef.asProp,
        FieldDef.asVarProps, FieldDef.asChild, FieldDef.asVarChildren, FieldDef.asExtra, FieldDef.mode, hm]
    | nodeName =>
      simp only [hm] at h
      obtain ⟨-, h⟩ := noDecode_none h
      cases h
      constructor <;> simp [FieldDef.asSpan, FieldDef.asNodeName, FieldDef.asTypeName, FieldDef.asArg, FieldDef.asVarArgs, FieldDef.asProp,
        FieldDef.asVarProps, FieldDef.asChild, FieldDef.asVarChildren, FieldDef.asExtra, FieldDef.mode, hm]
    | typeName =>
      simp only [hm] at h
      obtain ⟨-, h⟩ := noDecode_none h
      cases h
      constructor <;> simp [FieldDef.asSpan, FieldDef.asNodeName, FieldDef.asTypeName, FieldDef.asArg, FieldDef.asVarArgs, FieldDef.asProp,
        FieldDef.asVarProps, FieldDef.asChild, FieldDef.asVarChildren, FieldDef.asExtra, FieldDef.mode, hm]

theorem foldlM_cons_ok {σ : Type} {g : σ → α → Except Str σ} {b r : σ} {x : α} {xs : List α}
    (h : (x :: xs).foldlM g b = .ok r) : ∃ b', g b x = .ok b' ∧ xs.foldlM g b' = .ok r := by
  rw [List.foldlM_cons] at h
  cases hg : g b x with
  | error e => rw [hg] at h; cases h
  | ok b' => rw [hg] at h; exact ⟨b', rfl, h⟩

theorem addField_after [Externals] {b b' : Struct E S V} {f : FieldDef E S V}
    (h : addField b f.field f.isOption f.isBool f.attrs = .ok b') :
    (b.varArgs ≠ none → f.mode ≠ some .argument ∧ f.mode ≠ some .arguments) ∧
    (b.varProps ≠ none →
      (∀ name, f.mode ≠ some (.property name)) ∧ f.mode ≠ some .properties ∧ ∀ c, f.mode ≠ some (.flatten c true)) ∧
    (b.varChildren ≠ none →
      f.mode ≠ some .child ∧ (∀ name, f.mode ≠ some (.children name)) ∧ ∀ p, f.mode ≠ some (.flatten true p)) := by
  have h : addFieldWith b f.field f.isOption f.isBool f.attrs.base f.attrs.hasUnwrap f.decoder = .ok b' := by
    rw [← h]
    obtain ⟨fld, o, bl, at'⟩ := f
    cases at' <;> rfl
  unfold addFieldWith at h
  unfold FieldDef.mode
  refine ⟨?_, ?_, ?_⟩
  · intro hb
    constructor
    · intro hm
      simp only [hm] at h
      exact hb (errPair_none h).1
    · intro hm
      simp only [hm] at h
      exact hb (errPair_none h).1
  · intro hb
    refine ⟨?_, ?_, ?_⟩
    · intro name hm
      simp only [hm] at h
      exact hb (errPair_none h).1
    · intro hm
      simp only [hm] at h
      exact hb (errPair_none h).1
    · intro c hm
      simp only [hm] at h
      cases ho : f.isOption with
      | true => rw [ho] at h; cases h
      | false =>
        rw [ho] at h
        obtain ⟨-, h⟩ := noDecode_none (a := f.attrs.base) h
        exact hb (errPair_none h).1
  · intro hb
    refine ⟨?_, ?_, ?_⟩
    · intro hm
      simp only [hm] at h
      exact hb (errPair_none (noDecode_none h).2).1
    · intro name hm
      cases name <;> simp only [hm] at h <;> exact hb (errPair_none (noDecode_none h).2).1
    · intro p hm
      simp only [hm] at h
      cases ho : f.isOption with
      | true => rw [ho] at h; cases h
      | false =>
        rw [ho] at h
        obtain ⟨-, h⟩ := noDecode_none (a := f.attrs.base) h
        cases p with
        | true => exact hb (errPair_none (errPair_none h).2).1
        | false => exact hb (errPair_none h).1

/-- Only one of the lists of fields gets the field, unless it is flattened. -/
theorem Adds.perm [Externals] {b b' : Struct E S V} {f : FieldDef E S V} (h : Adds b f b')
    (hok : addField b f.field f.isOption f.isBool f.attrs = .ok b')
    (h1 : f.mode ≠ some (.flatten true true)) (h2 : f.mode ≠ some (.flatten false false)) :
    (b'.allFields).Perm (b.allFields ++ [f.field]) := by
  classical
  have h1' := h1
  have h2' := h2
  unfold FieldDef.mode at h1' h2'
  have hd : ∀ m, f.attrs.base.mode = some m → (m = .child ∨ ∃ n, m = .children n) → ∃ d, f.decoder = .ok d := by
    intro m hm hor
    have hok : addFieldWith b f.field f.isOption f.isBool f.attrs.base f.attrs.hasUnwrap f.decoder = .ok b' := by
      rw [← hok]
      obtain ⟨fld, o, bl, at'⟩ := f
      cases at' <;> rfl
    unfold addFieldWith at hok
    cases hdec : f.decoder with
    | ok d => exact ⟨d, rfl⟩
    | error e =>
      exfalso
      rcases hor with rfl | ⟨n, rfl⟩
      · simp only [hm, hdec] at hok
        have := (errPair_none (noDecode_none hok).2).2
        cases hf : f.field <;> rw [hf] at this <;> cases this
      · cases n <;> simp only [hm, hdec] at hok <;> (have := (errPair_none (noDecode_none hok).2).2; cases this)
  have hf : ∀ m, f.attrs.base.mode = some m → (m = .child ∨ m = .property none) → ∃ id, f.field = .named id := by
    intro m hm hor
    have hok : addFieldWith b f.field f.isOption f.isBool f.attrs.base f.attrs.hasUnwrap f.decoder = .ok b' := by
      rw [← hok]
      obtain ⟨fld, o, bl, at'⟩ := f
      cases at' <;> rfl
    unfold addFieldWith at hok
    cases hff : f.field with
    | named id => exact ⟨id, rfl⟩
    | indexed i =>
      exfalso
      rcases hor with rfl | rfl
      · simp only [hm, hff] at hok
        have := (errPair_none (noDecode_none hok).2).2
        cases this
      · simp only [hm, hff] at hok
        have := (errPair_none hok).2
        cases this
  unfold Struct.allFields
  rw [h.spans, h.nodeNames, h.typeNames, h.arguments, h.varArgs, h.properties, h.varProps, h.children, h.varChildren, h.extraFields]
  rw [List.perm_iff_count]
  intro x
  simp only [List.map_append, List.count_append]
  have key : (f.asSpan.toList.map (·.field)).count x + (f.asNodeName.toList.map (·.field)).count x +
      (f.asTypeName.toList.map (·.field)).count x + (f.asArg.toList.map (·.field)).count x +
      (f.asVarArgs.toList.map (·.field)).count x + (f.asProp.toList.map (·.field)).count x +
      (f.asVarProps.toList.map (·.field)).count x + (f.asChild.toList.map (·.field)).count x +
      (f.asVarChildren.toList.map (·.field)).count x + (f.asExtra.toList.map (·.field)).count x = [f.field].count x := by
    cases hm : f.attrs.base.mode with
    | none =>
      simp [FieldDef.asSpan, FieldDef.asNodeName, FieldDef.asTypeName, FieldDef.asArg, FieldDef.asVarArgs, FieldDef.asProp,
        FieldDef.asVarProps, FieldDef.asChild, FieldDef.asVarChildren, FieldDef.asExtra, FieldDef.mode, hm]
    | some m =>
      cases m with
      | child =>
        obtain ⟨d, hd⟩ := hd _ hm (.inl rfl)
        obtain ⟨id, hf⟩ := hf _ hm (.inl rfl)
        simp [FieldDef.asSpan, FieldDef.asNodeName, FieldDef.asTypeName, FieldDef.asArg, FieldDef.asVarArgs, FieldDef.asProp,
          FieldDef.asVarProps, FieldDef.asChild, FieldDef.asVarChildren, FieldDef.asExtra, FieldDef.mode, hm, hf, hd]
      | children n =>
        obtain ⟨d, hd⟩ := hd _ hm (.inr ⟨n, rfl⟩)
        cases n <;>
        simp [FieldDef.asSpan, FieldDef.asNodeName, FieldDef.asTypeName, FieldDef.asArg, FieldDef.asVarArgs, FieldDef.asProp,
          FieldDef.asVarProps, FieldDef.asChild, FieldDef.asVarChildren, FieldDef.asExtra, FieldDef.mode, hm, hd]
      | property n =>
        cases n with
        | some n =>
          simp [FieldDef.asSpan, FieldDef.asNodeName, FieldDef.asTypeName, FieldDef.asArg, FieldDef.asVarArgs, FieldDef.asProp,
            FieldDef.asVarProps, FieldDef.asChild, FieldDef.asVarChildren, FieldDef.asExtra, FieldDef.mode, hm]
        | none =>
          obtain ⟨id, hf⟩ := hf _ hm (.inr rfl)
          simp [FieldDef.asSpan, FieldDef.asNodeName, FieldDef.asTypeName, FieldDef.asArg, FieldDef.asVarArgs, FieldDef.asProp,
            FieldDef.asVarProps, FieldDef.asChild, FieldDef.asVarChildren, FieldDef.asExtra, FieldDef.mode, hm, hf]
      | flatten c p =>
        rw [hm] at h1' h2'
        cases c <;> cases p
        · exact absurd rfl h2'
        · simp [FieldDef.asSpan, FieldDef.asNodeName, FieldDef.asTypeName, FieldDef.asArg, FieldDef.asVarArgs, FieldDef.asProp,
            FieldDef.asVarProps, FieldDef.asChild, FieldDef.asVarChildren, FieldDef.asExtra, FieldDef.mode, hm]
        · simp [FieldDef.asSpan, FieldDef.asNodeName, FieldDef.asTypeName, FieldDef.asArg, FieldDef.asVarArgs, FieldDef.asProp,
            FieldDef.asVarProps, FieldDef.asChild, FieldDef.asVarChildren, FieldDef.asExtra, FieldDef.mode, hm]
        · exact absurd rfl h1'
      | _ =>
        simp [FieldDef.asSpan, FieldDef.asNodeName, FieldDef.asTypeName, FieldDef.asArg, FieldDef.asVarArgs, FieldDef.asProp,
          FieldDef.asVarProps, FieldDef.asChild, FieldDef.asVarChildren, FieldDef.asExtra, FieldDef.mode, hm]
  omega

/-! ### C52 -/

/-- Each field has the role that its attributes give it, and the fields of each
role are in the order of the declaration. -/
theorem c52_roles [Externals] {fields : List (FieldDef E S V)} {s : Struct E S V} (h : Struct.new fields = .ok s) :
    s.spans = fields.filterMap (·.asSpan) ∧
    s.nodeNames = fields.filterMap (·.asNodeName) ∧
    s.typeNames = fields.filterMap (·.asTypeName) ∧
    s.arguments = fields.filterMap (·.asArg) ∧
    s.varArgs.toList = fields.filterMap (·.asVarArgs) ∧
    s.properties = fields.filterMap (·.asProp) ∧
    s.varProps.toList = fields.filterMap (·.asVarProps) ∧
    s.children = fields.filterMap (·.asChild) ∧
    s.varChildren.toList = fields.filterMap (·.asVarChildren) ∧
    s.extraFields = fields.filterMap (·.asExtra) := by
  have key : ∀ b : Struct E S V, fields.foldlM (fun b f => addField b f.field f.isOption f.isBool f.attrs) b = .ok s →
      s.spans = b.spans ++ fields.filterMap (·.asSpan) ∧
      s.nodeNames = b.nodeNames ++ fields.filterMap (·.asNodeName) ∧
      s.typeNames = b.typeNames ++ fields.filterMap (·.asTypeName) ∧
      s.arguments = b.arguments ++ fields.filterMap (·.asArg) ∧
      s.varArgs.toList = b.varArgs.toList ++ fields.filterMap (·.asVarArgs) ∧
      s.properties = b.properties ++ fields.filterMap (·.asProp) ∧
      s.varProps.toList = b.varProps.toList ++ fields.filterMap (·.asVarProps) ∧
      s.children = b.children ++ fields.filterMap (·.asChild) ∧
      s.varChildren.toList = b.varChildren.toList ++ fields.filterMap (·.asVarChildren) ∧
      s.extraFields = b.extraFields ++ fields.filterMap (·.asExtra) := by
    clear h
    induction fields with
    | nil => intro b h; cases h; simp
    | cons f fs ih =>
      intro b h
      obtain ⟨b', hb, h⟩ := foldlM_cons_ok h
      have a := addField_adds hb
      obtain ⟨i1, i2, i3, i4, i5, i6, i7, i8, i9, i10⟩ := ih b' h
      have hcons : ∀ {β : Type} (g : FieldDef E S V → Option β), (f :: fs).filterMap g = (g f).toList ++ fs.filterMap g := by
        intro β g
        rw [List.filterMap_cons]
        cases g f <;> rfl
      simp only [hcons]
      rw [i1, i2, i3, i4, i5, i6, i7, i8, i9, i10, a.spans, a.nodeNames, a.typeNames, a.arguments, a.varArgs, a.properties, a.varProps,
        a.children, a.varChildren, a.extraFields]
      simp only [List.append_assoc, and_self]
  simpa using key {} h

/-- After the field that captures all arguments there is no other field for
arguments; likewise for properties and children. -/
theorem c52_last [Externals] {pre post : List (FieldDef E S V)} {f : FieldDef E S V} {s : Struct E S V}
    (h : Struct.new (pre ++ f :: post) = .ok s) :
    (f.mode = some .arguments → ∀ g ∈ post, g.mode ≠ some .argument ∧ g.mode ≠ some .arguments) ∧
    (f.mode = some .properties → ∀ g ∈ post,
      (∀ name, g.mode ≠ some (.property name)) ∧ g.mode ≠ some .properties ∧ ∀ c, g.mode ≠ some (.flatten c true)) ∧
    (f.mode = some (.children none) → ∀ g ∈ post,
      g.mode ≠ some .child ∧ (∀ name, g.mode ≠ some (.children name)) ∧ ∀ p, g.mode ≠ some (.flatten true p)) := by
  obtain ⟨b, hb⟩ : ∃ b, (f :: post).foldlM (fun b f => addField b f.field f.isOption f.isBool f.attrs) b = .ok s := by
    unfold Struct.new at h
    rw [List.foldlM_append] at h
    cases hp : pre.foldlM (fun b f => addField b f.field f.isOption f.isBool f.attrs) {} with
    | error e => rw [hp] at h; cases h
    | ok b => rw [hp] at h; exact ⟨b, h⟩
  obtain ⟨b', hb', hpost⟩ := foldlM_cons_ok hb
  have a := addField_adds hb'
  -- what is set stays set
  have key : ∀ (l : List (FieldDef E S V)) (b : Struct E S V),
      l.foldlM (fun b f => addField b f.field f.isOption f.isBool f.attrs) b = .ok s →
      (b.varArgs ≠ none → ∀ g ∈ l, g.mode ≠ some .argument ∧ g.mode ≠ some .arguments) ∧
      (b.varProps ≠ none → ∀ g ∈ l,
        (∀ name, g.mode ≠ some (.property name)) ∧ g.mode ≠ some .properties ∧ ∀ c, g.mode ≠ some (.flatten c true)) ∧
      (b.varChildren ≠ none → ∀ g ∈ l,
        g.mode ≠ some .child ∧ (∀ name, g.mode ≠ some (.children name)) ∧ ∀ p, g.mode ≠ some (.flatten true p)) := by
    intro l
    induction l with
    | nil => intro b _; simp
    | cons g l ih =>
      intro b hl
      obtain ⟨b', hb', hl⟩ := foldlM_cons_ok hl
      obtain ⟨i1, i2, i3⟩ := ih b' hl
      obtain ⟨j1, j2, j3⟩ := addField_after hb'
      have a := addField_adds hb'
      refine ⟨?_, ?_, ?_⟩
      · intro hb g' hg'
        rcases List.mem_cons.1 hg' with rfl | hg'
        · exact j1 hb
        · refine i1 ?_ g' hg'
          intro hn
          have := a.varArgs
          rw [hn] at this
          cases hv : b.varArgs with
          | none => exact hb hv
          | some _ => rw [hv] at this; simp at this
      · intro hb g' hg'
        rcases List.mem_cons.1 hg' with rfl | hg'
        · exact j2 hb
        · refine i2 ?_ g' hg'
          intro hn
          have := a.varProps
          rw [hn] at this
          cases hv : b.varProps with
          | none => exact hb hv
          | some _ => rw [hv] at this; simp at this
      · intro hb g' hg'
        rcases List.mem_cons.1 hg' with rfl | hg'
        · exact j3 hb
        · refine i3 ?_ g' hg'
          intro hn
          have := a.varChildren
          rw [hn] at this
          cases hv : b.varChildren with
          | none => exact hb hv
          | some _ => rw [hv] at this; simp at this
  obtain ⟨k1, k2, k3⟩ := key post b' hpost
  refine ⟨?_, ?_, ?_⟩
  · intro hm
    refine k1 ?_
    intro hn
    have := a.varArgs
    rw [hn] at this
    simp [FieldDef.asVarArgs, hm] at this
  · intro hm
    refine k2 ?_
    intro hn
    have := a.varProps
    rw [hn] at this
    simp [FieldDef.asVarProps, hm] at this
  · intro hm
    refine k3 ?_
    intro hn
    have h1 := a.varChildren
    rw [hn] at h1
    have h2 := (addField_after hb').2.2
    -- the decoder exists, as `addField` succeeded
    have h3 : ∃ d, f.decoder = .ok d := by
      have hok : addFieldWith b f.field f.isOption f.isBool f.attrs.base f.attrs.hasUnwrap f.decoder = .ok b' := by
        rw [← hb']
        obtain ⟨fld, o, bl, at'⟩ := f
        cases at' <;> rfl
      unfold addFieldWith at hok
      unfold FieldDef.mode at hm
      cases hdec : f.decoder with
      | ok d => exact ⟨d, rfl⟩
      | error e =>
        simp only [hm, hdec] at hok
        have := (errPair_none (noDecode_none hok).2).2
        cases this
    obtain ⟨d, hd⟩ := h3
    simp [FieldDef.asVarChildren, hm, hd] at h1

/-- If every `flatten` names exactly one of `child` and `property`, each field
of the declaration occurs exactly once; in particular, the fields are different
from each other as the declared ones are. -/
theorem c52_all [Externals] {fields : List (FieldDef E S V)} {s : Struct E S V} (h : Struct.new fields = .ok s)
    (hf : ∀ f ∈ fields, f.mode ≠ some (.flatten true true) ∧ f.mode ≠ some (.flatten false false)) :
    (s.allFields).Perm (fields.map (·.field)) := by
  have key : ∀ b : Struct E S V, fields.foldlM (fun b f => addField b f.field f.isOption f.isBool f.attrs) b = .ok s →
      (s.allFields).Perm (b.allFields ++ fields.map (·.field)) := by
    clear h
    induction fields with
    | nil => intro b h; cases h; simp
    | cons f fs ih =>
      intro b h
      obtain ⟨b', hb, h⟩ := foldlM_cons_ok h
      have hp := (addField_adds hb).perm hb (hf f List.mem_cons_self).1 (hf f List.mem_cons_self).2
      refine (ih (fun g hg => hf g (List.mem_cons_of_mem _ hg)) b' h).trans ?_
      refine (List.Perm.append_right _ hp).trans ?_
      simp
  exact key {} h

/-! ### An example -/

namespace Demo

/-- Attributes with the implementations for `inner`. -/
def flat (c p : Bool) : PlainAttrs Unit Nat Int :=
  { mode := some (.flatten c p), decode := none, default := none, impls := innerImpls }

/-- A declaration with fields of every kind. -/
def decl : List (FieldDef Unit Nat Int) :=
  [⟨fld 'a', false, false, .plain (attrs (some .argument))⟩,
   ⟨fld 'c', false, false, .plain (attrs (some .child))⟩,
   ⟨fld 'b', false, false, .plain { attrs (some .argument) with default := some (some (.leaf 9)) }⟩,
   ⟨fld 's', false, false, .plain (attrs (some .span))⟩,
   ⟨fld 'r', false, false, .plain (attrs (some .arguments))⟩,
   ⟨fld 'p', false, false, .plain (attrs (some (.property none)))⟩,
   ⟨fld 'm', false, false, .plain (attrs (some (.children (some ['m']))))⟩,
   ⟨fld 'q', true, false, .plain { attrs (some (.property (some ['q']))) with decode := some .str }⟩,
   ⟨fld 'n', false, false, .plain (attrs (some .nodeName))⟩,
   ⟨fld 'f', false, false, .plain (flat false true)⟩,
   ⟨fld 'z', false, false, .plain (attrs (some .properties))⟩,
   ⟨fld 'v', false, true, .plain (attrs (some .child))⟩,
   ⟨fld 'g', false, false, .plain (flat true false)⟩,
   ⟨fld 't', true, false, .plain (attrs (some .typeName))⟩,
   ⟨fld 'w', false, false, .plain (attrs (some (.children none)))⟩,
   ⟨fld 'e', false, false, .plain (attrs none)⟩]

theorem decl_ok : Struct.new decl = .ok outer := by rfl

/-- `#[knuffel(child, unwrap(argument))] k: i64` -/
def unwrapDecl : List (FieldDef Unit Nat Int) :=
  [⟨fld 'k', false, false, .unwrapped (attrs (some .child)) (.plain (attrs (some .argument)))⟩]

end Demo

open Demo in
example : outer.arguments = decl.filterMap (·.asArg) ∧ outer.children = decl.filterMap (·.asChild) :=
  ⟨(c52_roles decl_ok).2.2.2.1, (c52_roles decl_ok).2.2.2.2.2.2.2.1⟩
open Demo in
/-- After `arguments` there is no field for arguments. -/
example : ∀ g ∈ decl.drop 5, g.mode ≠ some .argument ∧ g.mode ≠ some .arguments :=
  (c52_last (pre := decl.take 4) (f := decl[4]) (post := decl.drop 5) decl_ok).1 rfl
open Demo in
example : (outer.allFields).Perm (decl.map (·.field)) := by
  refine c52_all decl_ok ?_
  decide

/-! ### Implementations that keep errors -/

/-- The implementations of a field and of everything inside its `unwrap` keep errors. -/
def FieldAttrs.Keeps : FieldAttrs E S V → Prop
  | .plain a => a.impls.Keeps
  | .unwrapped a i => a.impls.Keeps ∧ i.Keeps

theorem FieldAttrs.Keeps.base {i : FieldAttrs E S V} (h : i.Keeps) : i.base.impls.Keeps := by
  cases i with
  | plain a => exact h
  | unwrapped a i => exact h.1

/-- The hypothesis `Struct.Keeps` of the theorems on structs is met if no
implementation that the declaration uses takes back errors. -/
theorem c52_keeps [Externals] {fields : List (FieldDef E S V)} {s : Struct E S V} (h : Struct.new fields = .ok s)
    (hk : ∀ f ∈ fields, f.attrs.Keeps) : s.Keeps := by
  have step : ∀ {fields : List (FieldDef E S V)} {s : Struct E S V}, Struct.new fields = .ok s →
      (∀ f ∈ fields, f.attrs.base.impls.Keeps) → (∀ f ∈ fields, ∀ d, f.decoder = .ok d → ∀ n, Knuffel.Keeps (d n)) → s.Keeps := by
    intro fields s h hb hd
    obtain ⟨r1, r2, r3, r4, r5, r6, r7, r8, r9, -⟩ := c52_roles h
    constructor
    · intro x hx
      rw [r1, List.mem_filterMap] at hx
      obtain ⟨f, hf, hx⟩ := hx
      unfold FieldDef.asSpan at hx
      split at hx
      · cases hx; exact hb f hf
      · cases hx
    · intro x hx
      rw [r2, List.mem_filterMap] at hx
      obtain ⟨f, hf, hx⟩ := hx
      unfold FieldDef.asNodeName at hx
      split at hx
      · cases hx; exact hb f hf
      · cases hx
    · intro x hx
      rw [r3, List.mem_filterMap] at hx
      obtain ⟨f, hf, hx⟩ := hx
      unfold FieldDef.asTypeName at hx
      split at hx
      · cases hx; exact hb f hf
      · cases hx
    · intro x hx
      rw [r4, List.mem_filterMap] at hx
      obtain ⟨f, hf, hx⟩ := hx
      unfold FieldDef.asArg at hx
      split at hx
      · cases hx; exact hb f hf
      · cases hx
    · intro x hx
      have hx := Option.mem_toList.2 hx; rw [r5, List.mem_filterMap] at hx
      obtain ⟨f, hf, hx⟩ := hx
      unfold FieldDef.asVarArgs at hx
      split at hx
      · cases hx; exact hb f hf
      · cases hx
    · intro x hx
      rw [r6, List.mem_filterMap] at hx
      obtain ⟨f, hf, hx⟩ := hx
      unfold FieldDef.asProp at hx
      split at hx <;> first | (cases hx; exact hb f hf) | cases hx
    · intro x hx
      have hx := Option.mem_toList.2 hx; rw [r7, List.mem_filterMap] at hx
      obtain ⟨f, hf, hx⟩ := hx
      unfold FieldDef.asVarProps at hx
      split at hx
      · cases hx; exact hb f hf
      · cases hx
    · intro x hx
      rw [r8, List.mem_filterMap] at hx
      obtain ⟨f, hf, hx⟩ := hx
      unfold FieldDef.asChild at hx
      split at hx
      · rename_i hdec
        cases hx; exact ⟨hb f hf, hd f hf _ hdec⟩
      · rename_i hdec
        cases hx; exact ⟨hb f hf, hd f hf _ hdec⟩
      · cases hx; exact ⟨hb f hf, (hb f hf).node⟩
      · cases hx
    · intro x hx
      have hx := Option.mem_toList.2 hx; rw [r9, List.mem_filterMap] at hx
      obtain ⟨f, hf, hx⟩ := hx
      unfold FieldDef.asVarChildren at hx
      split at hx
      · rename_i hdec
        cases hx; exact hd f hf _ hdec
      · cases hx
  have unwrap : ∀ (i : FieldAttrs E S V) (field : AttrAccess) d, unwrapFn field i = .ok d → i.Keeps → ∀ n, Knuffel.Keeps (d n) := by
    intro i
    induction i with
    | plain a =>
      intro field d h hk n
      obtain ⟨s, hs, rfl, -⟩ := unwrapFn_ok h
      have : s.Keeps := by
        refine step (fields := [⟨field, false, false, .plain a⟩]) ?_ ?_ ?_
        · unfold Struct.new
          rw [List.foldlM_cons, hs]
          rfl
        · intro f hf
          simp only [List.mem_singleton] at hf
          subst hf
          exact hk
        · intro f hf d hd
          simp only [List.mem_singleton] at hf
          subst hf
          cases hd
          exact hk.node
      exact (Keeps.decodeContent this n).bind fun _ => Keeps.pure _
    | unwrapped a i ih =>
      intro field d h hk n
      obtain ⟨s, hs, rfl, -⟩ := unwrapFn_ok h
      have : s.Keeps := by
        refine step (fields := [⟨field, false, false, .unwrapped a i⟩]) ?_ ?_ ?_
        · unfold Struct.new
          rw [List.foldlM_cons, hs]
          rfl
        · intro f hf
          simp only [List.mem_singleton] at hf
          subst hf
          exact hk.1
        · intro f hf d hd
          simp only [List.mem_singleton] at hf
          subst hf
          exact ih _ _ hd hk.2
      exact (Keeps.decodeContent this n).bind fun _ => Keeps.pure _
  refine step h (fun f hf => (hk f hf).base) ?_
  intro f hf d hd
  have hk := hk f hf
  unfold FieldDef.decoder at hd
  cases ha : f.attrs with
  | plain a =>
    rw [ha] at hd hk
    cases hd
    exact hk.node
  | unwrapped a i =>
    rw [ha] at hd hk
    exact unwrap i _ _ hd hk.2

open Demo in
example {s} (h : Struct.new unwrapDecl = .ok s) : s.Keeps :=
  c52_keeps h (by simpa [unwrapDecl, FieldAttrs.Keeps] using ⟨num_keeps, num_keeps⟩)

/-! ### C45 in a struct -/

/-- A field with `child, unwrap(..)` gets what the decoder of the `unwrap` gives
for the only child node with its name; if there is no such node, the default,
or `None`.  Two such nodes are an error. -/
theorem c45_field [Externals] {fields : List (FieldDef E S V)} {s : Struct E S V} (h : Struct.new fields = .ok s)
    (hk : ∀ f ∈ fields, f.attrs.Keeps) (hu : (fields.map (·.field)).Nodup)
    (hnf : ∀ f ∈ fields, ∀ c p, f.mode ≠ some (.flatten c p)) (hcn : (s.children.map (·.name)).Nodup)
    {id : Str} {o b : Bool} {a : PlainAttrs E S V} {inner : FieldAttrs E S V} (hm : a.mode = some .child)
    (hf : ⟨.named id, o, b, .unwrapped a inner⟩ ∈ fields)
    {node : SpannedNode S} {c c' : Ctx E S} {v : FVal V} (hv : s.node node c = .ok v c') :
    ∃ d, unwrapFn (.named id) inner = .ok d ∧
      match node.value.childNodes.filter fun n => n.value.nodeName.value = Externals.kebab id with
      | [] => absent a.defaultVal o = some (v.field (.named id))
      | [n] => ∃ y, During c c' (d n) y ∧ v.field (.named id) = if o && a.defaultVal.isNone then .some y else y
      | _ => False := by
  have hkeeps := c52_keeps h hk
  have hd : s.allFields.Nodup :=
    (c52_all h fun f hf => ⟨hnf f hf _ _, hnf f hf _ _⟩).nodup_iff.2 hu
  obtain ⟨-, -, -, -, -, -, -, hch, -, -⟩ := c52_roles h
  -- the decoder exists
  have hdec : ∃ d, unwrapFn (.named id) inner = .ok d := by
    cases hdd : unwrapFn (.named id) inner with
    | ok d => exact ⟨d, rfl⟩
    | error e =>
      exfalso
      obtain ⟨pre, post, rfl⟩ := List.append_of_mem hf
      unfold Struct.new at h
      rw [List.foldlM_append] at h
      cases hp : pre.foldlM (fun b f => addField b f.field f.isOption f.isBool f.attrs) {} with
      | error e => rw [hp] at h; cases h
      | ok b0 =>
        rw [hp] at h
        have h : ((⟨.named id, o, b, .unwrapped a inner⟩ :: post : List (FieldDef E S V))).foldlM
          (fun b f => addField b f.field f.isOption f.isBool f.attrs) b0 = .ok s := h
        obtain ⟨b', hb', -⟩ := foldlM_cons_ok h
        dsimp only at hb'
        rw [addField] at hb'
        unfold addFieldWith at hb'
        simp only [hm, AttrAccess.tmpName, hdd] at hb'
        have := (errPair_none (noDecode_none hb').2).2
        cases this
  obtain ⟨d, hdd⟩ := hdec
  refine ⟨d, hdd, ?_⟩
  have hmem : (⟨.named id, Externals.kebab id, o, .normal, a.defaultVal, d, a.impls⟩ : Child E S V) ∈ s.children := by
    rw [hch, List.mem_filterMap]
    refine ⟨_, hf, ?_⟩
    simp [FieldDef.asChild, FieldDef.mode, FieldAttrs.base, hm, FieldDef.decoder, AttrAccess.tmpName, hdd, FieldAttrs.hasUnwrap]
  obtain ⟨k, hi⟩ := List.mem_iff_getElem?.1 hmem
  have hnf' : ∀ ch ∈ s.children, ch.mode ≠ .flatten := by
    intro ch hc
    rw [hch, List.mem_filterMap] at hc
    obtain ⟨f, hf, hc⟩ := hc
    unfold FieldDef.asChild at hc
    split at hc
    · cases hc; dsimp only; split <;> simp
    · cases hc; simp
    · rename_i hmm; exact absurd hmm (hnf f hf _ _)
    · cases hc
  obtain ⟨p1, p2, -⟩ := c40_plain hnf' hcn node.value.childNodes
  have hg := (c40_assigned hkeeps hd p1 hv).1 k _ hi
  rw [p2 k _ hi] at hg
  exact hg

open Demo in
/-- `k 5` in the block of the node: the field `k` gets 5. -/
example : ∃ s v, Struct.new unwrapDecl = .ok s ∧
    s.node ⟨0, .mk none ⟨0, ['z']⟩ [] [] (some ⟨0, [nd 'k' [int ['5']]]⟩)⟩ ⟨[], ()⟩ = .ok v ⟨[], ()⟩ ∧
    v.field (fld 'k') = .leaf 5 ∧
    (∀ f ∈ unwrapDecl, f.attrs.Keeps) ∧ (unwrapDecl.map (·.field)).Nodup ∧ (s.children.map (·.name)).Nodup :=
  ⟨_, _, rfl, rfl, rfl, by simpa [unwrapDecl, FieldAttrs.Keeps] using ⟨num_keeps, num_keeps⟩, by decide, by decide⟩

end Knuffel
