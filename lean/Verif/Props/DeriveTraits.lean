import Verif.Spec.Declare
import Verif.Props.DeriveNew
/-!
# Which declarations are accepted and what is derived

C52 (completeness), C61.
-/

set_option linter.unusedSectionVars false
set_option linter.unusedSimpArgs false

namespace Knuffel
variable {E S V α : Type}

section
variable [Externals]

theorem exc_ok_bind {α β : Type} (a : α) (f : α → Except Str β) : ((Except.ok a : Except Str α) >>= f) = f a := rfl
theorem exc_error_bind {α β : Type} (e : Str) (f : α → Except Str β) : ((Except.error e : Except Str α) >>= f) = .error e := rfl
theorem exc_pure {α : Type} (a : α) : (pure a : Except Str α) = .ok a := rfl

theorem unwrapFn_ok_iff (i : FieldAttrs E S V) : ∀ field, (∃ id, field = .named id) → ((∃ d, unwrapFn field i = .ok d) ↔ i.Unwraps) := by
  have key : ∀ (a : PlainAttrs E S V) (u : Bool) (dec : Except Str (NodeDecoder E S (FVal V))) (P : Prop) (hP : (∃ d, dec = .ok d) ↔ P)
      (id : Str),
      (∃ d, (match a.mode with
        | none | some .span | some .nodeName | some .typeName => Except.error "cannot find value".toList
        | some _ => do
          let s ← addFieldWith {} (.named id) false false a u dec
          pure (unwrapNode s (.named id))) = Except.ok d) ↔ (a.Inside ∧ (a.TakesNodes → P)) := by
    intro a u dec P hP id
    rw [← hP]
    unfold PlainAttrs.Inside PlainAttrs.TakesNodes addFieldWith
    cases hm : a.mode with
    | none => simp
    | some m =>
      cases m with
      | property n => cases n <;> simp [errPair, exc_ok_bind, exc_error_bind, exc_pure]
      | children n => cases n <;> cases hd : a.decode <;> cases dec <;> simp [PlainAttrs.noDecode, hd, errPair, exc_ok_bind, exc_error_bind, exc_pure]
      | child => cases hd : a.decode <;> cases dec <;> simp [PlainAttrs.noDecode, hd, errPair, exc_ok_bind, exc_error_bind, exc_pure]
      | flatten c p =>
        cases hd : a.decode <;> cases c <;> cases p <;> simp [PlainAttrs.noDecode, hd, errPair, exc_ok_bind, exc_error_bind, exc_pure]
      | _ => simp [errPair, exc_ok_bind, exc_error_bind, exc_pure]
  induction i with
  | plain a =>
    rintro _ ⟨id, rfl⟩
    rw [unwrapFn]
    exact (key a false (.ok a.impls.node) True (by simp) id).trans (by simp [FieldAttrs.Unwraps])
  | unwrapped a i ih =>
    rintro _ ⟨id, rfl⟩
    rw [unwrapFn]
    exact key a true _ i.Unwraps (ih _ ⟨_, rfl⟩) id

theorem decoder_ok_iff (f : FieldDef E S V) : (∃ d, f.decoder = .ok d) ↔ f.Unwraps := by
  unfold FieldDef.decoder FieldDef.Unwraps
  cases f.attrs with
  | plain a => simp
  | unwrapped a i => simpa using unwrapFn_ok_iff i _ ⟨_, rfl⟩

theorem addField_ok_iff (b : Struct E S V) (f : FieldDef E S V) :
    (∃ b', addField b f.field f.isOption f.isBool f.attrs = .ok b') ↔
      f.Sensible ∧ ∀ m, f.mode = some m →
        (b.varArgs ≠ none → ¬ FieldMode.arguments.Exhausts m) ∧ (b.varProps ≠ none → ¬ FieldMode.properties.Exhausts m) ∧
        (b.varChildren ≠ none → ¬ (FieldMode.children none).Exhausts m) := by
  have hd := decoder_ok_iff f
  have h : addField b f.field f.isOption f.isBool f.attrs =
      addFieldWith b f.field f.isOption f.isBool f.attrs.base f.attrs.hasUnwrap f.decoder := by
    obtain ⟨fld, o, bl, at'⟩ := f
    cases at' <;> rfl
  rw [h]
  unfold FieldDef.Sensible
  rw [← hd]
  unfold addFieldWith FieldDef.mode FieldMode.Exhausts
  cases hm : f.attrs.base.mode with
  | none => simp [exc_pure]
  | some m =>
    cases m with
    | property n =>
      cases n <;> cases hf : f.field <;> cases b.varProps <;> simp [errPair, exc_ok_bind, exc_error_bind, exc_pure]
    | children n => cases n <;> cases hd : f.attrs.base.decode <;> cases f.decoder <;> cases b.varChildren <;> simp [PlainAttrs.noDecode, hd, errPair, exc_ok_bind, exc_error_bind, exc_pure]
    | child => cases hd : f.attrs.base.decode <;> cases f.decoder <;> cases f.field <;> cases b.varChildren <;> simp [PlainAttrs.noDecode, hd, errPair, exc_ok_bind, exc_error_bind, exc_pure]
    | flatten c p =>
      cases hd : f.attrs.base.decode <;> cases f.isOption <;> cases c <;> cases p <;> cases hv : b.varProps <;> cases hc : b.varChildren <;> simp [PlainAttrs.noDecode, hd, hv, hc, errPair, exc_ok_bind, exc_error_bind, exc_pure]
    | argument => cases b.varArgs <;> simp [errPair, exc_ok_bind, exc_error_bind, exc_pure]
    | arguments => cases b.varArgs <;> simp [errPair, exc_ok_bind, exc_error_bind, exc_pure]
    | properties => cases b.varProps <;> simp [errPair, exc_ok_bind, exc_error_bind, exc_pure]
    | _ => cases hd : f.attrs.base.decode <;> simp [PlainAttrs.noDecode, hd, exc_ok_bind, exc_error_bind, exc_pure]

/-- **C52**, completeness: a declaration is accepted exactly if each field makes sense by itself and no field comes
after one that takes all the rest of its kind. -/
theorem c52_accepts (fields : List (FieldDef E S V)) :
    (∃ s, Struct.new fields = .ok s) ↔ (∀ f ∈ fields, f.Sensible) ∧ fields.Pairwise (fun f g => ¬ f.Exhausts g) := by
  have key : ∀ (fields : List (FieldDef E S V)) (b : Struct E S V),
      (∃ s, fields.foldlM (fun b f => addField b f.field f.isOption f.isBool f.attrs) b = .ok s) ↔
      ((∀ f ∈ fields, f.Sensible) ∧ fields.Pairwise (fun f g => ¬ f.Exhausts g)) ∧ ∀ f ∈ fields, ∀ m, f.mode = some m →
        (b.varArgs ≠ none → ¬ FieldMode.arguments.Exhausts m) ∧ (b.varProps ≠ none → ¬ FieldMode.properties.Exhausts m) ∧
        (b.varChildren ≠ none → ¬ (FieldMode.children none).Exhausts m) := by
    intro fields
    induction fields with
    | nil => intro b; simp [exc_pure]
    | cons f l ih =>
      intro b
      have hf := addField_ok_iff b f
      rw [List.foldlM_cons]
      cases ha : addField b f.field f.isOption f.isBool f.attrs with
      | error e =>
        constructor
        · rintro ⟨s, hs⟩
          cases hs
        · rintro ⟨⟨h1, -⟩, h2⟩
          obtain ⟨b', hb'⟩ := hf.2 ⟨h1 f (by simp), h2 f (by simp)⟩
          rw [ha] at hb'
          cases hb'
      | ok b' =>
        rw [ha] at hf
        have ad := addField_adds ha
        have hf := hf.1 ⟨b', rfl⟩
        have hf1 := hf.1
        have hf2 := hf.2
        clear hf
        have ih := ih b'
        rw [exc_ok_bind, ih]
        have v1 : b'.varArgs ≠ none ↔ b.varArgs ≠ none ∨ f.mode = some .arguments := by
          have := congrArg List.length ad.varArgs
          unfold FieldDef.asVarArgs at this
          by_cases hm : f.mode = some .arguments <;> simp only [hm, ↓reduceIte] at this <;>
            cases h1 : b'.varArgs <;> cases h2 : b.varArgs <;> simp_all
        have v2 : b'.varProps ≠ none ↔ b.varProps ≠ none ∨ f.mode = some .properties := by
          have := congrArg List.length ad.varProps
          unfold FieldDef.asVarProps at this
          by_cases hm : f.mode = some .properties <;> simp only [hm, ↓reduceIte] at this <;>
            cases h1 : b'.varProps <;> cases h2 : b.varProps <;> simp_all
        have v3 : b'.varChildren ≠ none ↔ b.varChildren ≠ none ∨ f.mode = some (.children none) := by
          have := congrArg List.length ad.varChildren
          have hd : f.mode = some (.children none) → ∃ d, f.decoder = .ok d := by
            intro hm
            have : addFieldWith b f.field f.isOption f.isBool f.attrs.base f.attrs.hasUnwrap f.decoder = .ok b' := by
              rw [← ha]
              obtain ⟨fld, o, bl, at'⟩ := f
              cases at' <;> rfl
            unfold addFieldWith at this
            unfold FieldDef.mode at hm
            rw [hm] at this
            cases hd : f.decoder with
            | ok d => exact ⟨d, rfl⟩
            | error e =>
              rw [hd] at this
              exact absurd (errPair_none (noDecode_none this).2).2 (by simp [bind, Except.bind])
          unfold FieldDef.asVarChildren at this
          by_cases hm : f.mode = some (.children none)
          · obtain ⟨d, hd⟩ := hd hm
            simp only [hm, hd] at this
            cases h1 : b'.varChildren <;> cases h2 : b.varChildren <;> simp_all
          · have : b'.varChildren.toList.length = b.varChildren.toList.length := by
              rw [this]
              split
              · exact absurd ‹_› hm
              · simp
            cases h1 : b'.varChildren <;> cases h2 : b.varChildren <;> simp_all
        rw [List.pairwise_cons]
        simp only [List.mem_cons, forall_eq_or_imp, v1, v2, v3]
        constructor
        · rintro ⟨⟨h1, h2⟩, h3⟩
          refine ⟨⟨⟨hf1, h1⟩, ?_, h2⟩, hf2, ?_⟩
          · rintro g hg ⟨k, m, hk, hm, he⟩
            obtain ⟨g1, g2, g3⟩ := h3 g hg m hm
            have he' := he
            rcases he with ⟨rfl, -⟩ | ⟨rfl, -⟩ | ⟨rfl, -⟩
            · exact g1 (.inr hk) he'
            · exact g2 (.inr hk) he'
            · exact g3 (.inr hk) he'
          · intro g hg m hm
            obtain ⟨g1, g2, g3⟩ := h3 g hg m hm
            exact ⟨fun h => g1 (.inl h), fun h => g2 (.inl h), fun h => g3 (.inl h)⟩
        · rintro ⟨⟨⟨h0, h1⟩, h4, h2⟩, h5, h3⟩
          refine ⟨⟨h1, h2⟩, ?_⟩
          intro g hg m hm
          obtain ⟨g1, g2, g3⟩ := h3 g hg m hm
          have h4 := fun k hk he => h4 g hg ⟨k, m, hk, hm, he⟩
          exact ⟨fun h => h.elim g1 (h4 _), fun h => h.elim g2 (h4 _), fun h => h.elim g3 (h4 _)⟩
  unfold Struct.new
  rw [key]
  simp

/-- **C61.** `DecodeChildren` is derived exactly if all fields are made from child nodes or from nothing. -/
theorem c61_root {fields : List (FieldDef E S V)} {s : Struct E S V} (h : Struct.new fields = .ok s) :
    s.isRoot = true ↔ ∀ f ∈ fields, f.InDocument := by
  obtain ⟨r1, r2, r3, r4, r5, r6, r7, r8, r9, -⟩ := c52_roles h
  have hs := ((c52_accepts fields).1 ⟨s, h⟩).1
  have hv1 : s.varArgs.isSome = false ↔ ∀ f ∈ fields, f.asVarArgs = none := by
    rw [← List.filterMap_eq_nil_iff, ← r5]; cases s.varArgs <;> simp
  have hv2 : s.varProps.isSome = false ↔ ∀ f ∈ fields, f.asVarProps = none := by
    rw [← List.filterMap_eq_nil_iff, ← r7]; cases s.varProps <;> simp
  unfold Struct.isRoot Struct.hasArguments Struct.hasProperties
  simp only [Bool.and_eq_true, Bool.not_eq_true', Bool.or_eq_false_iff, Bool.not_eq_false', List.isEmpty_iff, hv1, hv2, r1, r2, r3, r4, r6,
    List.filterMap_eq_nil_iff, ← forall_and]
  refine forall_congr' fun f => ?_
  constructor
  · intro h hf
    have h : ((((f.asArg = none ∧ f.asVarArgs = none) ∧ f.asProp = none ∧ f.asVarProps = none) ∧ f.asSpan = none) ∧ f.asNodeName = none) ∧
        f.asTypeName = none := by simpa [hf] using h
    have hsf := hs f hf
    obtain ⟨⟨⟨⟨⟨h1, h2⟩, h3, h4⟩, h5⟩, h6⟩, h7⟩ := h
    unfold FieldDef.InDocument
    unfold FieldDef.Sensible at hsf
    unfold FieldDef.asArg FieldDef.mode at h1
    unfold FieldDef.asVarArgs FieldDef.mode at h2
    unfold FieldDef.asProp FieldDef.mode at h3
    unfold FieldDef.asVarProps FieldDef.mode at h4
    unfold FieldDef.asSpan FieldDef.mode at h5
    unfold FieldDef.asNodeName FieldDef.mode at h6
    unfold FieldDef.asTypeName FieldDef.mode at h7
    cases hm : f.attrs.base.mode with
    | none => trivial
    | some m =>
      rw [hm] at h1 h2 h3 h4 h5 h6 h7 hsf
      cases m with
      | property n =>
        cases n with
        | some n => simp at h3
        | none =>
          obtain ⟨id, hid⟩ := hsf
          simp [hid] at h3
      | flatten c p =>
        cases p with
        | true => simp at h3
        | false => trivial
      | child => trivial
      | children n => trivial
      | _ => simp_all
  · intro h
    suffices hh : f ∈ fields → ((((f.asArg = none ∧ f.asVarArgs = none) ∧ f.asProp = none ∧ f.asVarProps = none) ∧ f.asSpan = none) ∧ f.asNodeName = none) ∧
        f.asTypeName = none by
      by_cases hf : f ∈ fields
      · simpa [hf] using hh hf
      · simp [hf]
    intro hf
    have h := h hf
    unfold FieldDef.InDocument at h
    unfold FieldDef.asArg FieldDef.asVarArgs FieldDef.asProp FieldDef.asVarProps FieldDef.asSpan FieldDef.asNodeName FieldDef.asTypeName
      FieldDef.mode
    cases hm : f.attrs.base.mode with
    | none => simp
    | some m =>
      rw [hm] at h
      cases m with
      | flatten c p =>
        cases p with
        | true => exact h.elim
        | false => simp
      | child => simp
      | children n => simp
      | _ => exact h.elim

/-- **C61.** `DecodePartial`, which is what a flattened struct needs, is derived exactly if all fields can start out
empty and be filled in later. -/
theorem c61_flattened {fields : List (FieldDef E S V)} {s : Struct E S V} (h : Struct.new fields = .ok s) :
    s.partialCompatible = true ↔ ∀ f ∈ fields, f.Later := by
  obtain ⟨r1, r2, r3, r4, r5, r6, r7, r8, r9, -⟩ := c52_roles h
  have hs := ((c52_accepts fields).1 ⟨s, h⟩).1
  have hv1 : s.varArgs.isSome = false ↔ ∀ f ∈ fields, f.asVarArgs = none := by
    rw [← List.filterMap_eq_nil_iff, ← r5]; cases s.varArgs <;> simp
  have hv2 : s.varProps.isNone = true ↔ ∀ f ∈ fields, f.asVarProps = none := by
    rw [← List.filterMap_eq_nil_iff, ← r7]; cases s.varProps <;> simp
  have hv3 : s.varChildren.isNone = true ↔ ∀ f ∈ fields, f.asVarChildren = none := by
    rw [← List.filterMap_eq_nil_iff, ← r9]; cases s.varChildren <;> simp
  have hp : s.properties.all (fun p => p.option || p.flatten) = true ↔ ∀ f ∈ fields, ∀ p, f.asProp = some p → (p.option || p.flatten) = true := by
    rw [List.all_eq_true, r6]
    simp only [List.mem_filterMap]
    exact ⟨fun h f hf p hp => h p ⟨f, hf, hp⟩, fun h p ⟨f, hf, hp⟩ => h f hf p hp⟩
  have hc : s.children.all Child.canPartial = true ↔ ∀ f ∈ fields, ∀ p, f.asChild = some p → p.canPartial = true := by
    rw [List.all_eq_true, r8]
    simp only [List.mem_filterMap]
    exact ⟨fun h f hf p hp => h p ⟨f, hf, hp⟩, fun h p ⟨f, hf, hp⟩ => h f hf p hp⟩
  unfold Struct.partialCompatible Struct.hasArguments
  simp only [Bool.and_eq_true, Bool.not_eq_true', Bool.or_eq_false_iff, Bool.not_eq_false', List.isEmpty_iff, hv1, hv2, hv3, hp, hc, r1, r2, r3, r4,
    List.filterMap_eq_nil_iff, ← forall_and]
  refine forall_congr' fun f => ?_
  by_cases hf : f ∈ fields
  swap
  · simp [hf]
  have hsf := hs f hf
  suffices hh : (((((f.asSpan = none ∧ f.asNodeName = none) ∧ f.asTypeName = none) ∧ f.asArg = none ∧ f.asVarArgs = none) ∧
      (∀ p, f.asProp = some p → (p.option || p.flatten) = true) ∧ f.asVarProps = none) ∧
      (∀ p, f.asChild = some p → p.canPartial = true) ∧ f.asVarChildren = none) ↔ f.Later by
    simpa [hf] using hh
  have hd := (decoder_ok_iff f).2
  unfold FieldDef.Later
  unfold FieldDef.Sensible at hsf
  unfold FieldDef.asArg FieldDef.asVarArgs FieldDef.asProp FieldDef.asVarProps FieldDef.asSpan FieldDef.asNodeName FieldDef.asTypeName
      FieldDef.asChild FieldDef.asVarChildren FieldDef.mode
  cases hm : f.attrs.base.mode with
  | none => simp
  | some m =>
    rw [hm] at hsf
    cases m with
    | property n =>
      cases n with
      | some n => simp
      | none =>
        obtain ⟨id, hid⟩ := hsf
        simp [hid]
    | child =>
      obtain ⟨-, ⟨id, hid⟩, hu⟩ := hsf
      obtain ⟨d, hd⟩ := hd hu
      simp only [hid, hd]
      cases ha : f.attrs with
      | plain a => cases f.isOption <;> cases f.isBool <;> simp [Child.canPartial, FieldAttrs.hasUnwrap]
      | unwrapped a i => cases f.isOption <;> simp [Child.canPartial, FieldAttrs.hasUnwrap]
    | children n =>
      obtain ⟨d, hd⟩ := hd hsf.2
      cases n with
      | some n => simp [hd, Child.canPartial]
      | none => simp [hd]
    | flatten c p => cases c <;> cases p <;> simp [Child.canPartial]
    | _ => simp

/-- **C61.** A newtype around an `Option` is `None` for a node that has no arguments, no properties and no children block,
and nothing is decoded then; otherwise it is `Some` of what is decoded from the node. -/
theorem c61_newtype (inner : NodeDecoder E S (FVal V)) (node : SpannedNode S) (c : Ctx E S) :
    newTypeNode inner node c =
      if node.value.arguments = [] ∧ node.value.properties = [] ∧ node.value.children = none then
        .ok (.record [(.indexed 0, .none)]) c
      else match inner node c with
        | .ok v c' => .ok (.record [(.indexed 0, .some v)]) c'
        | .err e c' => .err e c'
        | .panic => .panic := by
  unfold newTypeNode
  by_cases h : node.value.arguments = [] ∧ node.value.properties = [] ∧ node.value.children = none
  · rw [if_pos h, if_neg (by simp [nonEmptyNode, h.1, h.2.1, h.2.2])]
    rfl
  · rw [if_neg h, if_pos]
    · rw [D.bind_eq]
      cases inner node c <;> rfl
    · unfold nonEmptyNode
      cases h1 : node.value.arguments <;> cases h2 : node.value.properties <;> cases h3 : node.value.children <;> simp_all

end

section
open Demo

/-- `struct { #[property, str] u: Option<i64>, #[child] x: Option<i64>, #[child] y: bool }` -/
def innerDecl : List (FieldDef Unit Nat Int) :=
  [⟨fld 'u', true, false, .plain { attrs (some (.property none)) with decode := some .str }⟩,
   ⟨fld 'x', true, false, .plain (attrs (some .child))⟩,
   ⟨fld 'y', false, true, .plain (attrs (some .child))⟩]

theorem innerDecl_ok : Struct.new innerDecl = .ok inner := by rfl

/-- It can be flattened, but it cannot be a document. -/
example : inner.partialCompatible = true ∧ ¬ inner.isRoot = true := by
  rw [c61_flattened innerDecl_ok, c61_root innerDecl_ok]
  constructor
  · simp [innerDecl, FieldDef.Later, FieldAttrs.base, attrs]
  · simp [innerDecl, FieldDef.InDocument, FieldAttrs.base, attrs]

/-- All fields of `decl` make sense, and no one comes after one that takes the rest. -/
example : (∀ f ∈ decl, f.Sensible) ∧ decl.Pairwise (fun f g => ¬ f.Exhausts g) := (c52_accepts decl).1 ⟨_, decl_ok⟩

/-- An argument after `arguments` is refused. -/
example : ¬ ∃ s, Struct.new [(⟨fld 'a', false, false, .plain (attrs (some .arguments))⟩ : FieldDef Unit Nat Int),
    ⟨fld 'b', false, false, .plain (attrs (some .argument))⟩] = .ok s := by
  rw [c52_accepts]
  rintro ⟨-, h⟩
  rw [List.pairwise_cons] at h
  exact h.1 _ (List.mem_singleton.2 rfl) ⟨_, _, rfl, rfl, Or.inl ⟨rfl, Or.inl rfl⟩⟩

/-- `child, unwrap(child, unwrap(argument))` makes sense, `child, unwrap(span)` does not. -/
example : (∃ s, Struct.new [(⟨fld 'a', false, false, .unwrapped (attrs (some .child)) (.unwrapped (attrs (some .child)) (.plain (attrs (some .argument))))⟩ :
      FieldDef Unit Nat Int)] = .ok s) ∧
    ¬ ∃ s, Struct.new [(⟨fld 'a', false, false, .unwrapped (attrs (some .child)) (.plain (attrs (some .span)))⟩ :
      FieldDef Unit Nat Int)] = .ok s := by
  rw [c52_accepts, c52_accepts]
  simp [FieldDef.Sensible, FieldDef.Unwraps, FieldAttrs.Unwraps, FieldAttrs.base, attrs, fld, PlainAttrs.Inside]

/-- The newtype of a node with an empty children block is `Some`. -/
example : newTypeNode num.node (⟨0, .mk none ⟨1, ['n']⟩ [] [] (some ⟨2, []⟩)⟩ : SpannedNode Nat) ⟨[], ()⟩ =
    .ok (.record [(.indexed 0, .some (.leaf 0))]) ⟨[], ()⟩ := by
  rw [c61_newtype]
  rfl

end

end Knuffel
