import Verif.Theory.FlattenChildren
import Verif.Theory.DeriveDemo
/-!
# C44: a flattened field is its fields in line

`s` has a flattened field of the type of the struct `t`; `s'` is `s` with the
fields of `t` written in the place of that field.  The `Default` of `t` is the
struct in which nothing is set (`InlineProps`, `InlineChildren` in
`Spec/Flatten.lean`).
-/

set_option linter.unusedSectionVars false

namespace Knuffel
open Demo
variable {E S V : Type}

theorem Inlined.around {f : AttrAccess} {fields : List AttrAccess} {env0 env env' : Env V} (h : Inlined f fields env0 env env')
    (A B : Env V) : Inlined f fields env0 (A ++ env ++ B) (A ++ env' ++ B) := by
  obtain ⟨A1, B1, r, rfl, rfl, h1, h2⟩ := h
  exact ⟨A ++ A1, B1 ++ B, r, by simp, by simp, h1, h2⟩

theorem partialCompatible_props [Externals] {t : Struct E S V} (h : t.partialCompatible = true) :
    ∀ p ∈ t.properties, p.option = true ∨ p.flatten = true := by
  simp only [Struct.partialCompatible, Bool.and_eq_true, List.all_eq_true, Bool.or_eq_true] at h
  exact h.1.2.1

theorem childLoop_props [Externals] (s : Struct E S V) (ps : List (Prop' E S V)) (nodes : List (SpannedNode S)) :
    childLoop { s with properties := ps } nodes = childLoop s nodes := by
  induction nodes with
  | nil => rfl
  | cons n ns ih =>
    funext sts acc
    simp only [childLoop, ih]

theorem propLoop_children [Externals] (s : Struct E S V) (cs : List (Child E S V)) (props : List (Spanned Str S × Value S)) :
    propLoop { s with children := cs } props = propLoop s props := by
  induction props with
  | nil => rfl
  | cons n ns ih =>
    funext sts acc
    simp only [propLoop, ih]

/-- Arguments, properties and children of a node. -/
theorem content_props [Externals] {s t s' : Struct E S V} {fp : Prop' E S V} {env0 : Env V} (hi : InlineProps s fp t env0 s')
    (hp : fp.impls.part = t.part) (ht : t.partialCompatible = true) (node : SpannedNode S) (c : Ctx E S) :
    (decodeContent s node c).Same (Inlined fp.field (t.properties.map (·.field)) env0) (decodeContent s' node c) := by
  have h := decodeProps_inline hi hp (partialCompatible_props ht) node
  obtain ⟨pre, post, hs, rfl⟩ := hi.split
  rw [decodeContent, decodeContent,
    show decodeArgs { s with properties := pre ++ t.properties ++ post } node = decodeArgs s node from rfl,
    show decodeChildren { s with properties := pre ++ t.properties ++ post } = decodeChildren s from
      by funext sp nodes; simp only [decodeChildren, childLoop_props]]
  refine same_self_bind (x := decodeArgs s node) fun a c1 _ => ?_
  refine same_bind (h c1) fun p p' c2 _ hpp => ?_
  refine same_self_bind (x := decodeChildren s (some node.span) node.value.childNodes) fun b c3 _ => same_pure ?_ c3
  exact hpp.around a b

/-- **C44**, properties.  Whatever the node, decoding the struct with the field
`flatten(property)` and decoding the struct with the fields in line end in the
same way: with the same error, or with the same errors recorded and the same
values of all fields. -/
theorem c44_property [Externals] {s t s' : Struct E S V} {fp : Prop' E S V} {env0 : Env V} (hi : InlineProps s fp t env0 s')
    (hp : fp.impls.part = t.part) (ht : t.partialCompatible = true) (node : SpannedNode S) (c : Ctx E S) :
    (s.node node c).Same (InlinedValue fp.field (t.properties.map (·.field)) env0) (s'.node node c) := by
  have h := content_props hi hp ht node
  obtain ⟨pre, post, hs, rfl⟩ := hi.split
  rw [Struct.node, Struct.node]
  refine same_self_bind (x := decodeSpecials s node) fun sp c1 _ => ?_
  refine same_bind (h c1) fun b b' c2 _ hb => same_pure ?_ c2
  exact ⟨_, _, rfl, rfl, hb.around sp (assignExtra s)⟩

/-- The struct `outer` with the fields of `inner` in the place of the property field `f`. -/
def outerInlineProps : Struct Unit Nat Int :=
  { outer with properties := outer.properties.take 2 ++ inner.properties }

theorem outer_inlineProps : InlineProps outer ⟨fld 'f', [], false, .normal, true, none, innerImpls⟩ inner
    [(fld 'u', .none), (fld 'x', .none), (fld 'y', .bool false)] outerInlineProps where
  split := ⟨outer.properties.take 2, [], rfl, by simp [outerInlineProps]⟩
  flatten := rfl
  default := rfl
  unset := by
    intro p hp
    simp only [inner, List.mem_singleton] at hp
    subst hp
    rfl
  nodup := by decide

/-- The field `u` is in the record in the field `f`, and in line. -/
example : InlineProps outer ⟨fld 'f', [], false, .normal, true, none, innerImpls⟩ inner
      [(fld 'u', .none), (fld 'x', .none), (fld 'y', .bool false)] outerInlineProps ∧ inner.partialCompatible = true ∧
    outer.node sample ⟨[], ()⟩ = .ok sampleVal ⟨[], ()⟩ ∧
    ∃ env : Env Int, outerInlineProps.node sample ⟨[], ()⟩ = .ok (.record env) ⟨[], ()⟩ ∧ env.look (fld 'u') = some (.some (.leaf 2)) :=
  ⟨outer_inlineProps, rfl, sample_ok, _, rfl, rfl⟩

/-- **C44**, properties of the fields of a variant of an enum. -/
theorem c44_property_variant [Externals] {s t s' : Struct E S V} {fp : Prop' E S V} {env0 : Env V} (hi : InlineProps s fp t env0 s')
    (hp : fp.impls.part = t.part) (ht : t.partialCompatible = true) (ident name : Str) (node : SpannedNode S) (c : Ctx E S) :
    ((Variant.mk ident name (.tuple s)).arm node c).Same
      (fun v v' => ∃ r r', v = .variant ident r ∧ v' = .variant ident r' ∧
        InlinedValue fp.field (t.properties.map (·.field)) env0 r r')
      ((Variant.mk ident name (.tuple s')).arm node c) := by
  have h := content_props hi hp ht node
  obtain ⟨pre, post, hs, rfl⟩ := hi.split
  rw [Variant.arm, Variant.arm]
  refine same_bind (h c) fun b b' c2 _ hb => same_pure ?_ c2
  exact ⟨_, _, rfl, rfl, _, _, rfl, rfl, hb.around [] (assignExtra s)⟩

/-- A variant with the fields of `outer`. -/
example : ((Variant.mk ['k'] ['k'] (.tuple outer)).arm sample ⟨[], ()⟩).Clean ⟨[], ()⟩ := ⟨_, _, rfl, rfl⟩

theorem content_children [Externals] {s t s' : Struct E S V} {fc : Child E S V} {env0 : Env V} (hi : InlineChildren s fc t env0 s')
    (hs : s.Keeps) (ht : t.Keeps) (hp : fc.impls.part = t.part) (hf : ∀ ch ∈ t.children, ch.Flat)
    (node : SpannedNode S) (c : Ctx E S) :
    SameOr c (Doubled t node.value.childNodes) (Inlined fc.field (t.children.map (·.field)) env0)
      (decodeContent s node c) (decodeContent s' node c) := by
  have h := decodeChildren_inline hi hs ht hp hf (some node.span) node.value.childNodes
  have hks' := inlineChildren_keeps hi hs ht
  obtain ⟨pre, post, hsp, rfl⟩ := hi.split
  rw [decodeContent, decodeContent,
    show decodeArgs { s with children := pre ++ t.children ++ post } node = decodeArgs s node from rfl,
    show decodeProps { s with children := pre ++ t.children ++ post } node = decodeProps s node from
      by simp only [decodeProps, propLoop_children]]
  refine sameOr_self_bind (x := decodeArgs s node) (Keeps.decodeArgs hs node)
    (fun _ => (Keeps.decodeProps hs node).bind fun _ => (Keeps.decodeChildren hs _ _).bind fun _ => Keeps.pure _)
    (fun _ => (Keeps.decodeProps hs node).bind fun _ => (Keeps.decodeChildren hks' _ _).bind fun _ => Keeps.pure _) fun a c1 _ => ?_
  refine sameOr_self_bind (x := decodeProps s node) (Keeps.decodeProps hs node)
    (fun _ => (Keeps.decodeChildren hs _ _).bind fun _ => Keeps.pure _)
    (fun _ => (Keeps.decodeChildren hks' _ _).bind fun _ => Keeps.pure _) fun p c2 _ => ?_
  refine sameOr_bind (Keeps.decodeChildren hs _ _) (Keeps.decodeChildren hks' _ _) (fun _ => Keeps.pure _) (fun _ => Keeps.pure _)
    (h c2) fun b b' c3 _ hb => sameOr_pure ?_ c3
  simpa using hb.around (a ++ p) []

theorem node_children [Externals] {s t s' : Struct E S V} {fc : Child E S V} {env0 : Env V} (hi : InlineChildren s fc t env0 s')
    (hs : s.Keeps) (ht : t.Keeps) (hp : fc.impls.part = t.part) (hf : ∀ ch ∈ t.children, ch.Flat)
    (node : SpannedNode S) (c : Ctx E S) :
    SameOr c (Doubled t node.value.childNodes) (InlinedValue fc.field (t.children.map (·.field)) env0) (s.node node c) (s'.node node c) := by
  have h := content_children hi hs ht hp hf node
  have hks' := inlineChildren_keeps hi hs ht
  obtain ⟨pre, post, hsp, rfl⟩ := hi.split
  rw [Struct.node, Struct.node]
  refine sameOr_self_bind (x := decodeSpecials s node) (Keeps.decodeSpecials hs node)
    (fun _ => (Keeps.decodeContent hs node).bind fun _ => Keeps.pure _)
    (fun _ => (Keeps.decodeContent hks' node).bind fun _ => Keeps.pure _) fun sp c1 _ => ?_
  refine sameOr_bind (Keeps.decodeContent hs node) (Keeps.decodeContent hks' node) (fun _ => Keeps.pure _) (fun _ => Keeps.pure _)
    (h c1) fun b b' c2 _ hb => sameOr_pure ?_ c2
  exact ⟨_, _, rfl, rfl, hb.around sp (assignExtra s)⟩

/-- **C44**, children.  For every node in which no two children have the name
of the same `child` field of the flattened struct, decoding the struct with the
field `flatten(child)` and decoding the struct with the fields in line end in
the same way: with the same error, or with the same errors recorded and the
same values of all fields. -/
theorem c44_child [Externals] {s t s' : Struct E S V} {fc : Child E S V} {env0 : Env V} (hi : InlineChildren s fc t env0 s')
    (hs : s.Keeps) (ht : t.Keeps) (hp : fc.impls.part = t.part) (hf : ∀ ch ∈ t.children, ch.Flat)
    (node : SpannedNode S) (hn : ¬ Doubled t node.value.childNodes) (c : Ctx E S) :
    (s.node node c).Same (InlinedValue fc.field (t.children.map (·.field)) env0) (s'.node node c) := by
  rcases node_children hi hs ht hp hf node c with h | ⟨h, -⟩
  · exact h
  · exact absurd h hn

/-- **C44**, children.  Whatever the node, the struct with the field
`flatten(child)` is decoded without reporting an error exactly when the struct
with the fields in line is, and then the values of all fields are the same. -/
theorem c44_child_clean [Externals] {s t s' : Struct E S V} {fc : Child E S V} {env0 : Env V} (hi : InlineChildren s fc t env0 s')
    (hs : s.Keeps) (ht : t.Keeps) (hp : fc.impls.part = t.part) (hf : ∀ ch ∈ t.children, ch.Flat)
    (node : SpannedNode S) (c : Ctx E S) :
    (∀ v c', s.node node c = .ok v c' → c'.errors = c.errors →
      ∃ v', s'.node node c = .ok v' c' ∧ InlinedValue fc.field (t.children.map (·.field)) env0 v v') ∧
    (∀ v' c', s'.node node c = .ok v' c' → c'.errors = c.errors →
      ∃ v, s.node node c = .ok v c' ∧ InlinedValue fc.field (t.children.map (·.field)) env0 v v') := by
  rcases node_children hi hs ht hp hf node c with h | ⟨-, h1, h2⟩
  · refine ⟨fun v c' hv _ => ?_, fun v' c' hv _ => ?_⟩
    · rw [hv] at h
      cases hv' : s'.node node c with
      | ok v' c2 => rw [hv'] at h; obtain ⟨hr, rfl⟩ := h; exact ⟨v', rfl, hr⟩
      | err _ _ => rw [hv'] at h; exact h.elim
      | panic => rw [hv'] at h; exact h.elim
    · rw [hv] at h
      cases hv' : s.node node c with
      | ok v c2 => rw [hv'] at h; obtain ⟨hr, rfl⟩ := h; exact ⟨v, rfl, hr⟩
      | err _ _ => rw [hv'] at h; exact h.elim
      | panic => rw [hv'] at h; exact h.elim
  · exact ⟨fun v c' hv he => absurd ⟨v, c', hv, he⟩ h1, fun v' c' hv he => absurd ⟨v', c', hv, he⟩ h2⟩

/-- The struct `outer` with the fields of `inner` in the place of the field `g` for children. -/
def outerInlineChildren : Struct Unit Nat Int :=
  { outer with children := outer.children.take 3 ++ inner.children }

theorem outer_inlineChildren : InlineChildren outer ⟨fld 'g', [], false, .flatten, none, num.node, innerImpls⟩ inner
    [(fld 'u', .none), (fld 'x', .none), (fld 'y', .bool false)] outerInlineChildren where
  split := ⟨outer.children.take 3, [], rfl, by simp [outerInlineChildren]⟩
  flatten := rfl
  default := rfl
  unset := by
    intro p hp
    simp only [inner, List.mem_cons, List.not_mem_nil, or_false] at hp
    rcases hp with rfl | rfl <;> rfl
  nodup := by decide

theorem inner_flat : ∀ ch ∈ inner.children, ch.Flat := by
  intro p hp
  simp only [inner, List.mem_cons, List.not_mem_nil, or_false] at hp
  rcases hp with rfl | rfl
  · exact ⟨rfl, rfl⟩
  · trivial

theorem sample_not_doubled : ¬ Doubled inner sample.value.childNodes := by
  rintro ⟨ch, hch, hm, h⟩
  simp only [inner, List.mem_cons, List.not_mem_nil, or_false] at hch
  rcases hch with rfl | rfl
  · revert h; decide
  · cases hm

/-- The fields `x` and `y` are in the record in the field `g`, and in line. -/
example : InlineChildren outer ⟨fld 'g', [], false, .flatten, none, num.node, innerImpls⟩ inner
      [(fld 'u', .none), (fld 'x', .none), (fld 'y', .bool false)] outerInlineChildren ∧ outer.Keeps ∧ inner.Keeps ∧
    (∀ ch ∈ inner.children, ch.Flat) ∧ ¬ Doubled inner sample.value.childNodes ∧
    outer.node sample ⟨[], ()⟩ = .ok sampleVal ⟨[], ()⟩ ∧
    ∃ env : Env Int, outerInlineChildren.node sample ⟨[], ()⟩ = .ok (.record env) ⟨[], ()⟩ ∧
      env.look (fld 'x') = some (.some (.leaf 2)) ∧ env.look (fld 'y') = some (.bool true) :=
  ⟨outer_inlineChildren, outer_keeps, inner_keeps, inner_flat, sample_not_doubled, sample_ok, _, rfl, rfl, rfl⟩

/-- The node `k 1 p=5 { c; x; x }`. -/
def doubledSample : SpannedNode Nat :=
  ⟨77, .mk none ⟨0, ['k']⟩ [int ['1']] [(⟨0, ['p']⟩, int ['5'])] (some ⟨0, [nd 'c', nd 'x', nd 'x']⟩)⟩

/-- **C44** does not hold for the errors when a `child` of the flattened struct
comes twice: in line the decoding stops at the second node, flattened it goes on
and the second node replaces the first.  (An error is reported in both cases.) -/
theorem c44_child_fails : ¬ (outer.node doubledSample ⟨[], ()⟩).Same (fun _ _ => True) (outerInlineChildren.node doubledSample ⟨[], ()⟩) :=
  fun h => h

/-- **C44**, the children of a document. -/
theorem c44_root [Externals] {s t s' : Struct E S V} {fc : Child E S V} {env0 : Env V} (hi : InlineChildren s fc t env0 s')
    (hs : s.Keeps) (ht : t.Keeps) (hp : fc.impls.part = t.part) (hf : ∀ ch ∈ t.children, ch.Flat)
    (nodes : List (SpannedNode S)) (c : Ctx E S) :
    (¬ Doubled t nodes → (s.root nodes c).Same (InlinedValue fc.field (t.children.map (·.field)) env0) (s'.root nodes c)) ∧
    (∀ v c', s.root nodes c = .ok v c' → c'.errors = c.errors →
      ∃ v', s'.root nodes c = .ok v' c' ∧ InlinedValue fc.field (t.children.map (·.field)) env0 v v') ∧
    (∀ v' c', s'.root nodes c = .ok v' c' → c'.errors = c.errors →
      ∃ v, s.root nodes c = .ok v c' ∧ InlinedValue fc.field (t.children.map (·.field)) env0 v v') := by
  have key : SameOr c (Doubled t nodes) (InlinedValue fc.field (t.children.map (·.field)) env0) (s.root nodes c) (s'.root nodes c) := by
    have h := decodeChildren_inline hi hs ht hp hf none nodes
    have hks' := inlineChildren_keeps hi hs ht
    obtain ⟨pre, post, hsp, rfl⟩ := hi.split
    rw [Struct.root, Struct.root]
    refine sameOr_bind (Keeps.decodeChildren hs _ _) (Keeps.decodeChildren hks' _ _) (fun _ => Keeps.pure _) (fun _ => Keeps.pure _)
      (h c) fun b b' c2 _ hb => sameOr_pure ?_ c2
    exact ⟨_, _, rfl, rfl, hb.around [] (assignExtra s)⟩
  rcases key with h | ⟨hd, h1, h2⟩
  · refine ⟨fun _ => h, fun v c' hv _ => ?_, fun v' c' hv _ => ?_⟩
    · rw [hv] at h
      cases hv' : s'.root nodes c with
      | ok v' c2 => rw [hv'] at h; obtain ⟨hr, rfl⟩ := h; exact ⟨v', rfl, hr⟩
      | err _ _ => rw [hv'] at h; exact h.elim
      | panic => rw [hv'] at h; exact h.elim
    · rw [hv] at h
      cases hv' : s.root nodes c with
      | ok v c2 => rw [hv'] at h; obtain ⟨hr, rfl⟩ := h; exact ⟨v, rfl, hr⟩
      | err _ _ => rw [hv'] at h; exact h.elim
      | panic => rw [hv'] at h; exact h.elim
  · exact ⟨fun hn => absurd hd hn, fun v c' hv he => absurd ⟨v, c', hv, he⟩ h1, fun v' c' hv he => absurd ⟨v', c', hv, he⟩ h2⟩

/-- The children of the sample as a document. -/
example : InlineChildren outer ⟨fld 'g', [], false, .flatten, none, num.node, innerImpls⟩ inner
      [(fld 'u', .none), (fld 'x', .none), (fld 'y', .bool false)] outerInlineChildren ∧
    ¬ Doubled inner sample.value.childNodes ∧ (outer.root sample.value.childNodes ⟨[], ()⟩).Clean ⟨[], ()⟩ :=
  ⟨outer_inlineChildren, sample_not_doubled, _, _, rfl, rfl⟩

end Knuffel
