import Verif.Theory.DeriveDemo
/-!
# Derived enums

C42 (enums of nodes) and C43 (enums of scalars).

An enum is given by its variants as they are written (`VariantDef`); the name of a
variant is its identifier in kebab case, and variants with `skip` have no name.
-/

set_option linter.unusedSectionVars false

namespace Knuffel
variable {E S V α : Type}

/-- The variant is the one for the name: it is not skipped and its identifier in
kebab case is the name. -/
def VariantDef.IsFor [Externals] (d : VariantDef E S V) (name : Str) : Prop :=
  d.skip = false ∧ Externals.kebab d.ident = name

/-- The node without its type annotation. -/
def dropType (node : SpannedNode S) : SpannedNode S :=
  ⟨node.span, .mk none node.value.nodeName node.value.arguments node.value.properties node.value.children⟩

/-! ### Helper lemmas -/

theorem enumVariants_cons_skip [Externals] {d : VariantDef E S V} {ds} (h : d.skip = true) :
    enumVariants (d :: ds) = enumVariants ds := by
  rw [enumVariants, if_pos h]

theorem enumVariants_cons [Externals] {d : VariantDef E S V} {ds vs} (h : d.skip = false)
    (hv : enumVariants (d :: ds) = .ok vs) :
    ∃ k ws, d.fields.kind = .ok k ∧ enumVariants ds = .ok ws ∧ vs = ⟨d.ident, Externals.kebab d.ident, k⟩ :: ws := by
  rw [enumVariants, if_neg (by simp [h])] at hv
  cases hk : d.fields.kind with
  | error e => rw [hk] at hv; cases hv
  | ok k =>
    rw [hk] at hv
    cases hw : enumVariants ds with
    | error e => rw [hw] at hv; cases hv
    | ok ws => rw [hw] at hv; cases hv; exact ⟨k, ws, rfl, rfl, rfl⟩

theorem enumArms_first [Externals] {names : List Str} {node : SpannedNode S} {pre : List (VariantDef E S V)} {d post}
    (hd : d.IsFor node.value.nodeName.value) (hpre : ∀ e ∈ pre, ¬ e.IsFor node.value.nodeName.value) :
    ∀ vs, enumVariants (pre ++ d :: post) = .ok vs →
    ∃ k, d.fields.kind = .ok k ∧ enumArms names node vs = Variant.arm ⟨d.ident, Externals.kebab d.ident, k⟩ node := by
  induction pre with
  | nil =>
    intro vs h
    obtain ⟨k, ws, hk, -, rfl⟩ := enumVariants_cons hd.1 h
    exact ⟨k, hk, by rw [enumArms, if_pos hd.2.symm]⟩
  | cons e pre ih =>
    intro vs h
    have ih := ih fun e he => hpre e (List.mem_cons_of_mem _ he)
    cases he : e.skip with
    | true =>
      rw [List.cons_append, enumVariants_cons_skip he] at h
      exact ih _ h
    | false =>
      obtain ⟨k, ws, -, hw, rfl⟩ := enumVariants_cons he h
      obtain ⟨k', hk', ha⟩ := ih _ hw
      refine ⟨k', hk', ?_⟩
      rw [enumArms, if_neg, ha]
      intro hn
      exact hpre e List.mem_cons_self ⟨he, hn.symm⟩

theorem enumArms_none [Externals] {names : List Str} {node : SpannedNode S} {ds : List (VariantDef E S V)}
    (hds : ∀ e ∈ ds, ¬ e.IsFor node.value.nodeName.value) :
    ∀ vs, enumVariants ds = .ok vs →
    enumArms names node vs = D.fail (DErr.conv node.value.nodeName (.text (variantError names))) := by
  induction ds with
  | nil => intro vs h; cases h; rfl
  | cons e pre ih =>
    intro vs h
    have ih := ih fun e he => hds e (List.mem_cons_of_mem _ he)
    cases he : e.skip with
    | true =>
      rw [enumVariants_cons_skip he] at h
      exact ih _ h
    | false =>
      obtain ⟨k, ws, -, hw, rfl⟩ := enumVariants_cons he h
      rw [enumArms, if_neg, ih _ hw]
      intro hn
      exact hds e List.mem_cons_self ⟨he, hn.symm⟩

theorem enumVariants_names [Externals] {ds : List (VariantDef E S V)} {vs} (h : enumVariants ds = .ok vs) :
    vs.map (·.name) = (ds.filter (fun d => !d.skip)).map fun d => Externals.kebab d.ident := by
  induction ds generalizing vs with
  | nil => cases h; rfl
  | cons e ds ih =>
    cases he : e.skip with
    | true =>
      rw [enumVariants_cons_skip he] at h
      rw [List.filter_cons_of_neg (by simp [he])]
      exact ih h
    | false =>
      obtain ⟨k, ws, -, hw, rfl⟩ := enumVariants_cons he h
      rw [List.filter_cons_of_pos (by simp [he]), List.map_cons, List.map_cons, ih hw]

/-- A list has a first element with the property, or none. -/
theorem exists_first {p : α → Prop} (l : List α) :
    (∃ pre a post, l = pre ++ a :: post ∧ p a ∧ ∀ x ∈ pre, ¬ p x) ∨ ∀ x ∈ l, ¬ p x := by
  induction l with
  | nil => exact .inr (by simp)
  | cons a l ih =>
    by_cases ha : p a
    · exact .inl ⟨[], a, l, rfl, ha, by simp⟩
    · rcases ih with ⟨pre, b, post, rfl, hb, hp⟩ | h
      · refine .inl ⟨a :: pre, b, post, rfl, hb, ?_⟩
        intro x hx
        rcases List.mem_cons.1 hx with rfl | hx
        · exact ha
        · exact hp x hx
      · refine .inr ?_
        intro x hx
        rcases List.mem_cons.1 hx with rfl | hx
        · exact ha
        · exact h x hx

theorem decodeArgList_dropType [Externals] (node : SpannedNode S) (as : List (Arg E S V)) (args : List (Value S)) :
    decodeArgList (dropType node) as args = decodeArgList node as args := by
  induction as generalizing args with
  | nil => rfl
  | cons a as ih => simp only [decodeArgList, ih]; rfl

theorem finishProps_dropType [Externals] (node : SpannedNode S) (l : List (Prop' E S V × PropState V)) :
    finishProps (dropType node) l = finishProps node l := by
  induction l with
  | nil => rfl
  | cons a as ih => simp only [finishProps, ih]; rfl

theorem decodeContent_dropType [Externals] (s : Struct E S V) (node : SpannedNode S) :
    decodeContent s (dropType node) = decodeContent s node := by
  unfold decodeContent decodeArgs decodeProps
  simp only [decodeArgList_dropType, finishProps_dropType]
  rfl

theorem Struct.node_dropType [Externals] {s : Struct E S V} (hs : s.spans = []) (hn : s.nodeNames = []) (ht : s.typeNames = [])
    (node : SpannedNode S) :
    s.node (dropType node) = (do let body ← decodeContent s node; pure (.record (body ++ assignExtra s))) := by
  unfold Struct.node decodeSpecials
  rw [hs, hn, ht, decodeContent_dropType]
  rfl

theorem Variant.arm_ident [Externals] {v : Variant E S V} {node : SpannedNode S} {c c' : Ctx E S} {x : FVal V}
    (h : v.arm node c = .ok x c') : ∃ y, x = .variant v.ident y := by
  unfold Variant.arm at h
  cases hk : v.kind with
  | unit =>
    rw [hk] at h; dsimp only at h
    rw [D.bind_ok_iff] at h
    obtain ⟨_, _, _, h⟩ := h
    cases h; exact ⟨_, rfl⟩
  | nested o i =>
    rw [hk] at h
    cases o with
    | false =>
      dsimp only at h
      rw [D.bind_ok_iff] at h
      obtain ⟨_, _, _, h⟩ := h
      cases h; exact ⟨_, rfl⟩
    | true =>
      dsimp only at h
      by_cases hn : nonEmptyNode node = true
      · rw [if_pos hn, D.bind_ok_iff] at h
        obtain ⟨_, _, _, h⟩ := h
        cases h; exact ⟨_, rfl⟩
      · rw [if_neg hn] at h
        cases h; exact ⟨_, rfl⟩
  | tuple s =>
    rw [hk] at h; dsimp only at h
    rw [D.bind_ok_iff] at h
    obtain ⟨_, _, _, h⟩ := h
    cases h; exact ⟨_, rfl⟩

/-! ### An enum for the examples -/

namespace Demo

/-- The attributes of a field: `mode` or none. -/
def attrs (mode : Option FieldMode) : PlainAttrs Unit Nat Int :=
  { mode := mode, decode := none, default := none, impls := num }

/-- `enum { A, B(i64), C(Option<i64>), D(#[argument] i64, #[property(name="x")] Option<i64>), #[skip] E }`,
with one more variant named `A` that is never reached. -/
def shapes : List (VariantDef Unit Nat Int) :=
  [⟨['A'], false, .unit⟩,
   ⟨['B'], false, .unnamed [⟨.indexed 0, false, false, .plain (attrs none)⟩]⟩,
   ⟨['C'], false, .unnamed [⟨.indexed 0, true, false, .plain (attrs none)⟩]⟩,
   ⟨['D'], false, .unnamed [⟨.indexed 0, false, false, .plain (attrs (some .argument))⟩,
      ⟨.indexed 1, true, false, .plain (attrs (some (.property (some ['x']))))⟩]⟩,
   ⟨['E'], true, .unit⟩,
   ⟨['A'], false, .unit⟩]

/-- The struct of the variant `D`. -/
def shapeD : Struct Unit Nat Int where
  arguments := [⟨.indexed 0, false, .normal, none, num⟩]
  properties := [⟨.indexed 1, ['x'], true, .normal, false, none, num⟩]

/-- The variants. -/
def shapeVariants : List (Variant Unit Nat Int) :=
  [⟨['A'], ['A'], .unit⟩, ⟨['B'], ['B'], .nested false num.node⟩, ⟨['C'], ['C'], .nested true num.node⟩,
   ⟨['D'], ['D'], .tuple shapeD⟩, ⟨['A'], ['A'], .unit⟩]

theorem shapes_ok : enumVariants shapes = .ok shapeVariants := by rfl

end Demo

/-! ### C42 -/

/-- A unit variant: chosen if it is the first for the name of the node; every
argument, property and child of the node is reported. -/
theorem c42_unit [Externals] {pre : List (VariantDef E S V)} {d post vs} {node : SpannedNode S}
    (hvs : enumVariants (pre ++ d :: post) = .ok vs) (hd : d.IsFor node.value.nodeName.value)
    (hpre : ∀ e ∈ pre, ¬ e.IsFor node.value.nodeName.value) (hk : d.fields = .unit) (c : Ctx E S) :
    ∃ c', enumNode vs node c = .ok (.variant d.ident (.record [])) c' ∧
      c'.errors = c.errors ++ node.value.arguments.map unexpectedArgument ++
        node.value.properties.map (fun p => unexpectedProperty p.1) ++ node.value.childNodes.map unexpectedNode := by
  obtain ⟨k, hk', ha⟩ := enumArms_first (names := vs.map (·.name)) hd hpre _ hvs
  rw [hk] at hk'
  cases hk'
  unfold enumNode
  rw [ha]
  unfold Variant.arm
  dsimp only
  rw [D.bind_ok (checkFlagNode_eq node c)]
  exact ⟨_, rfl, checkFlagNode_errors (checkFlagNode_eq node c)⟩

open Demo in
/-- `A 1` gives `A` and the argument is reported. -/
example (c) : ∃ c', enumNode shapeVariants (nd 'A' [int ['1']]) c = .ok (.variant ['A'] (.record [])) c' ∧
    c'.errors = c.errors ++ [unexpectedArgument (int ['1'])] := by
  simpa [nd, Node.arguments, Node.properties, Node.childNodes, Node.children] using
    c42_unit (pre := []) (d := ⟨['A'], false, .unit⟩) shapes_ok (node := nd 'A' [int ['1']]) ⟨rfl, rfl⟩ (by simp) rfl c

/-- A variant with one field without attributes: the field is decoded from the same node. -/
theorem c42_nested [Externals] {pre : List (VariantDef E S V)} {d post vs} {node : SpannedNode S}
    (hvs : enumVariants (pre ++ d :: post) = .ok vs) (hd : d.IsFor node.value.nodeName.value)
    (hpre : ∀ e ∈ pre, ¬ e.IsFor node.value.nodeName.value) {f : AttrAccess} {b : Bool} {a : PlainAttrs E S V}
    (hm : a.mode = none) (hk : d.fields = .unnamed [⟨f, false, b, .plain a⟩]) :
    enumNode vs node = (do let x ← a.impls.node node; pure (.variant d.ident x)) := by
  obtain ⟨k, hk', ha⟩ := enumArms_first (names := vs.map (·.name)) hd hpre _ hvs
  unfold enumNode
  rw [ha]
  have : d.fields.kind = .ok (.nested false a.impls.node) := by
    rw [hk]
    simp only [VariantFields.kind, Struct.new, List.foldlM_cons, List.foldlM_nil, addField, addFieldWith, hm]
    rfl
  rw [this] at hk'
  cases hk'
  rfl

open Demo in
example : enumNode shapeVariants (nd 'B' [int ['1']]) = (do let x ← num.node (nd 'B' [int ['1']]); pure (.variant ['B'] x)) :=
  c42_nested (pre := shapes.take 1) (d := ⟨['B'], false, .unnamed [⟨.indexed 0, false, false, .plain (attrs none)⟩]⟩)
    shapes_ok ⟨rfl, rfl⟩ (by rintro e he ⟨-, h⟩; simp only [shapes, List.take, List.mem_singleton] at he; subst he; revert h; decide) rfl rfl

/-- If the field is an `Option`, it is `None` for a node without arguments,
properties and children block, and else it is decoded from the same node. -/
theorem c42_nested_option [Externals] {pre : List (VariantDef E S V)} {d post vs} {node : SpannedNode S}
    (hvs : enumVariants (pre ++ d :: post) = .ok vs) (hd : d.IsFor node.value.nodeName.value)
    (hpre : ∀ e ∈ pre, ¬ e.IsFor node.value.nodeName.value) {f : AttrAccess} {b : Bool} {a : PlainAttrs E S V}
    (hm : a.mode = none) (hk : d.fields = .unnamed [⟨f, true, b, .plain a⟩]) :
    (node.value.arguments = [] → node.value.properties = [] → node.value.children = none →
      enumNode vs node = pure (.variant d.ident .none)) ∧
    (node.value.arguments ≠ [] ∨ node.value.properties ≠ [] ∨ node.value.children ≠ none →
      enumNode vs node = (do let x ← a.impls.node node; pure (.variant d.ident (.some x)))) := by
  obtain ⟨k, hk', ha⟩ := enumArms_first (names := vs.map (·.name)) hd hpre _ hvs
  unfold enumNode
  rw [ha]
  have : d.fields.kind = .ok (.nested true a.impls.node) := by
    rw [hk]
    simp only [VariantFields.kind, Struct.new, List.foldlM_cons, List.foldlM_nil, addField, addFieldWith, hm]
    rfl
  rw [this] at hk'
  cases hk'
  unfold Variant.arm
  dsimp only
  constructor
  · intro h1 h2 h3
    rw [if_neg (by simp [nonEmptyNode, h1, h2, h3])]
  · intro h
    rw [if_pos]
    unfold nonEmptyNode
    rcases h with h | h | h
    · simp [h]
    · simp [h]
    · cases hc : node.value.children with
      | none => exact absurd hc h
      | some _ => simp

open Demo in
example : enumNode shapeVariants (nd 'C') = pure (.variant ['C'] .none) ∧
    enumNode shapeVariants (nd 'C' [int ['1']]) = (do let x ← num.node (nd 'C' [int ['1']]); pure (.variant ['C'] (.some x))) := by
  have hpre : ∀ e ∈ shapes.take 2, ¬ e.IsFor ['C'] := by
    rintro e he ⟨-, h⟩
    simp only [shapes, List.take, List.mem_cons, List.not_mem_nil, or_false] at he
    rcases he with rfl | rfl <;> exact absurd h (by decide)
  refine ⟨(c42_nested_option (pre := shapes.take 2) (d := ⟨['C'], false, .unnamed [⟨.indexed 0, true, false, .plain (attrs none)⟩]⟩)
      shapes_ok (node := nd 'C') ⟨rfl, rfl⟩ hpre rfl rfl).1 rfl rfl rfl, ?_⟩
  exact (c42_nested_option (pre := shapes.take 2) (d := ⟨['C'], false, .unnamed [⟨.indexed 0, true, false, .plain (attrs none)⟩]⟩)
      shapes_ok (node := nd 'C' [int ['1']]) ⟨rfl, rfl⟩ hpre rfl rfl).2 (.inl (by simp [nd, Node.arguments]))

/-- Any other variant with fields in parentheses is decoded as the struct with
the same fields would be, except that a type annotation of the node is ignored. -/
theorem c42_tuple [Externals] {pre : List (VariantDef E S V)} {d post vs} {node : SpannedNode S}
    (hvs : enumVariants (pre ++ d :: post) = .ok vs) (hd : d.IsFor node.value.nodeName.value)
    (hpre : ∀ e ∈ pre, ¬ e.IsFor node.value.nodeName.value) {fields : List (FieldDef E S V)} {s : Struct E S V}
    (hk : d.fields = .unnamed fields) (hs : Struct.new fields = .ok s)
    (hone : s.allFields.length ≠ 1 ∨ s.extraFields = [])
    (hsp : s.spans = []) (hnn : s.nodeNames = []) (htn : s.typeNames = []) :
    enumNode vs node = (do let x ← s.node (dropType node); pure (.variant d.ident x)) := by
  obtain ⟨k, hk', ha⟩ := enumArms_first (names := vs.map (·.name)) hd hpre _ hvs
  unfold enumNode
  rw [ha]
  have : d.fields.kind = .ok (.tuple s) := by
    rw [hk]
    unfold VariantFields.kind
    dsimp only
    rw [hs]
    show (match s.allFields, s.extraFields with
      | [_], [f] => pure (.nested f.option f.impls.node)
      | _, _ => pure (.tuple s) : Except Str (VariantKind E S V)) = _
    split
    · rename_i h1 h2
      rcases hone with h | h
      · rw [h1] at h; simp at h
      · rw [h] at h2; cases h2
    · rfl
  rw [this] at hk'
  cases hk'
  unfold Variant.arm
  dsimp only
  rw [Struct.node_dropType hsp hnn htn, bind_assoc]
  rfl

open Demo in
/-- The variant `D` is decoded as a struct with an argument and a property. -/
example : enumNode shapeVariants (nd 'D' [int ['1']]) =
    (do let x ← shapeD.node (dropType (nd 'D' [int ['1']])); pure (.variant ['D'] x)) := by
  have hpre : ∀ e ∈ shapes.take 3, ¬ e.IsFor ['D'] := by
    rintro e he ⟨-, h⟩
    simp only [shapes, List.take, List.mem_cons, List.not_mem_nil, or_false] at he
    rcases he with rfl | rfl | rfl <;> exact absurd h (by decide)
  exact c42_tuple (pre := shapes.take 3) (d := shapes[3]) (post := shapes.drop 4) (node := nd 'D' [int ['1']]) shapes_ok ⟨rfl, rfl⟩ hpre
    (s := shapeD) rfl rfl (.inl (by decide)) rfl rfl rfl

/-- A name that no variant has is an error at the name of the node, which
names the variants: all of them if there are at most three, and else the first
two and the number of the others. -/
theorem c42_unknown [Externals] {defs : List (VariantDef E S V)} {vs} {node : SpannedNode S}
    (hvs : enumVariants defs = .ok vs) (hno : ∀ e ∈ defs, ¬ e.IsFor node.value.nodeName.value) (c : Ctx E S) :
    ∃ m, enumNode vs node c = .err (.conversion node.value.nodeName.span (.text m)) c ∧
      match (defs.filter (fun d => !d.skip)).map (fun d => escapeDefault (Externals.kebab d.ident)) with
      | [] => m = "expected one of ".toList
      | [x] => m = "expected one of `".toList ++ x ++ "`".toList
      | [x, y] => m = "expected one of `".toList ++ x ++ "`, `".toList ++ y ++ "`".toList
      | [x, y, z] => m = "expected one of `".toList ++ x ++ "`, `".toList ++ y ++ "`, `".toList ++ z ++ "`".toList
      | x :: y :: others =>
        m = "expected `".toList ++ x ++ "`, `".toList ++ y ++ "`, or one of ".toList ++
          Nat.toDigits 10 others.length ++ " others".toList := by
  refine ⟨variantError (vs.map (·.name)), ?_, ?_⟩
  · unfold enumNode
    rw [enumArms_none hno _ hvs]
    rfl
  · rw [enumVariants_names hvs]
    have : ((defs.filter (fun d => !d.skip)).map fun d => escapeDefault (Externals.kebab d.ident)) =
        ((defs.filter (fun d => !d.skip)).map fun d => Externals.kebab d.ident).map escapeDefault := by
      simp [Function.comp_def]
    rw [this]
    generalize ((defs.filter (fun d => !d.skip)).map fun d => Externals.kebab d.ident) = names
    match names with
    | [] => rfl
    | [x] => simp [variantError]
    | [x, y] => simp [variantError]
    | [x, y, z] => simp [variantError]
    | x :: y :: z :: w :: others =>
      simp [variantError]

open Demo in
/-- `E` is skipped, so there is no variant for it. -/
example (c) : ∃ m, enumNode shapeVariants (nd 'E') c = .err (.conversion 0 (.text m)) c ∧
    m = "expected `A`, `B`, or one of 3 others".toList := by
  have := c42_unknown shapes_ok (node := nd 'E') (by
    rintro e he ⟨hs, h⟩
    simp only [shapes, List.mem_cons, List.not_mem_nil, or_false] at he
    rcases he with rfl | rfl | rfl | rfl | rfl | rfl <;> first | exact absurd h (by decide) | cases hs) c
  obtain ⟨m, h1, h2⟩ := this
  exact ⟨m, h1, h2.trans (by decide)⟩

/-- The result is always the variant that is the first for the name of the node. -/
theorem c42_only [Externals] {defs : List (VariantDef E S V)} {vs} {node : SpannedNode S}
    (hvs : enumVariants defs = .ok vs) {c c' : Ctx E S} {x : FVal V} (h : enumNode vs node c = .ok x c') :
    ∃ pre d post y, defs = pre ++ d :: post ∧ d.IsFor node.value.nodeName.value ∧
      (∀ e ∈ pre, ¬ e.IsFor node.value.nodeName.value) ∧ x = .variant d.ident y := by
  rcases exists_first (p := fun d : VariantDef E S V => d.IsFor node.value.nodeName.value) defs with
    ⟨pre, d, post, rfl, hd, hpre⟩ | hno
  · obtain ⟨k, hk', ha⟩ := enumArms_first (names := vs.map (·.name)) hd hpre _ hvs
    unfold enumNode at h
    rw [ha] at h
    obtain ⟨y, hy⟩ := Variant.arm_ident h
    exact ⟨pre, d, post, y, rfl, hd, hpre, hy⟩
  · obtain ⟨m, hm, -⟩ := c42_unknown hvs hno c
    rw [h] at hm
    cases hm

open Demo in
example : ∃ c', enumNode shapeVariants (nd 'A') ⟨[], ()⟩ = .ok (.variant ['A'] (.record [])) c' := ⟨_, rfl⟩

/-! ### C43 -/

/-- What is reported for the type annotation of a value of a scalar enum. -/
def annotationError (rustType : Str) : Option (Spanned TypeName S) → List (DErr S)
  | none => []
  | some tn => [.typeName tn.span (some tn.value) ⟨[], true⟩ rustType]

theorem enumScalar_decode (rustType : Str) (vs : List ScalarVariant) (v : Value S) (c : Ctx E S) :
    (enumScalar (V := V) rustType vs).decode v c =
      (enumScalar (V := V) rustType vs).rawDecode v.literal (c.emitAll (annotationError rustType v.typeName)) := by
  unfold enumScalar Scalar.provided
  dsimp only
  cases v.typeName with
  | none => simp only [annotationError, Ctx.emitAll_nil]; rfl
  | some tn => rfl

/-- A string that is the name of a variant gives the (first) variant with that
name; a type annotation is reported. -/
theorem c43_accepts [Externals] (rustType : Str) {pre : List Str} {i post} (hpre : ∀ j ∈ pre, Externals.kebab j ≠ Externals.kebab i)
    (tn : Option (Spanned TypeName S)) (sp : S) (c : Ctx E S) :
    ∃ c', (enumScalar (V := V) rustType (scalarVariants (pre ++ i :: post))).decode ⟨tn, ⟨sp, .string (Externals.kebab i)⟩⟩ c =
      .ok (.variant i (.record [])) c' ∧ c'.errors = c.errors ++ annotationError rustType tn := by
  rw [enumScalar_decode]
  refine ⟨c.emitAll (annotationError rustType tn), ?_, rfl⟩
  have : (scalarVariants (pre ++ i :: post)).find? (fun v => Externals.kebab i = v.name) = some ⟨i, Externals.kebab i⟩ := by
    induction pre with
    | nil => simp [scalarVariants]
    | cons j pre ih =>
      have h1 := hpre j List.mem_cons_self
      have h2 := ih fun x hx => hpre x (List.mem_cons_of_mem _ hx)
      rw [← h2]
      simp only [scalarVariants, List.cons_append, List.map_cons]
      rw [List.find?_cons_of_neg]
      simpa using h1.symm
  unfold enumScalar Scalar.provided
  dsimp only
  rw [this]
  rfl

open Demo in
example (c : Ctx Unit Nat) : ∃ c', (enumScalar (V := Int) "T".toList (scalarVariants [['a'], ['b']])).decode (str ['b']) c =
    .ok (.variant ['b'] (.record [])) c' ∧ c'.errors = c.errors ++ [] :=
  c43_accepts "T".toList (pre := [['a']]) (by simp [Externals.kebab]) none 0 c

/-- Any other string is an error at the value, and so is any other kind of literal. -/
theorem c43_rejects [Externals] (rustType : Str) (idents : List Str) (v : Value S) (c : Ctx E S)
    (h : ∀ i ∈ idents, v.literal.value ≠ .string (Externals.kebab i)) :
    ∃ e c', (enumScalar (V := V) rustType (scalarVariants idents)).decode v c = .err e c' ∧
      c'.errors = c.errors ++ annotationError rustType v.typeName ∧
      match v.literal.value with
      | .string _ => ∃ m, e = .conversion v.literal.span (.text m)
      | lit => e = .scalarKind v.literal.span .string lit.kind := by
  rw [enumScalar_decode]
  unfold enumScalar Scalar.provided
  dsimp only
  cases hv : v.literal.value with
  | string s =>
    dsimp only
    have : (scalarVariants idents).find? (fun v => s = v.name) = none := by
      rw [List.find?_eq_none]
      intro w hw
      simp only [scalarVariants, List.mem_map] at hw
      obtain ⟨i, hi, rfl⟩ := hw
      have := h i hi
      rw [hv] at this
      simpa using this
    rw [this]
    exact ⟨_, _, rfl, rfl, _, rfl⟩
  | _ => exact ⟨_, _, rfl, rfl, by rw [DErr.kind, hv]; rfl⟩

open Demo in
example (c : Ctx Unit Nat) : ∃ e c', (enumScalar (V := Int) "T".toList (scalarVariants [['a'], ['b']])).decode (int ['1']) c = .err e c' ∧
    c'.errors = c.errors ++ [] ∧ e = .scalarKind 0 .string .int :=
  c43_rejects "T".toList _ (int ['1']) c (by simp [int])

/-- A value is accepted without an error exactly if it has no type annotation and
is a string that is the name of a variant; which is then the result. -/
theorem c43_iff [Externals] (rustType : Str) (idents : List Str) (v : Value S) (c : Ctx E S) :
    ((enumScalar (V := V) rustType (scalarVariants idents)).decode v c).Clean c ↔
      v.typeName = none ∧ ∃ i ∈ idents, v.literal.value = .string (Externals.kebab i) := by
  rcases exists_first (p := fun i : Str => v.literal.value = .string (Externals.kebab i)) idents with
    ⟨pre, i, post, rfl, hi, hpre⟩ | hno
  · have hpre' : ∀ j ∈ pre, Externals.kebab j ≠ Externals.kebab i := by
      intro j hj hji
      exact hpre j hj (by rw [hji]; exact hi)
    obtain ⟨c', hc, he⟩ := c43_accepts (V := V) rustType (post := post) hpre' v.typeName v.literal.span c
    have hv : v = ⟨v.typeName, ⟨v.literal.span, .string (Externals.kebab i)⟩⟩ := by
      rw [← hi]
    rw [← hv] at hc
    rw [hc]
    constructor
    · rintro ⟨x, c'', h1, h2⟩
      cases h1
      rw [he] at h2
      refine ⟨?_, i, by simp, hi⟩
      cases ht : v.typeName with
      | none => rfl
      | some tn => rw [ht] at h2; simp [annotationError] at h2
    · rintro ⟨ht, -⟩
      refine ⟨_, _, rfl, ?_⟩
      rw [he, ht]
      simp [annotationError]
  · obtain ⟨e, c', h, -⟩ := c43_rejects (V := V) rustType idents v c hno
    rw [h]
    constructor
    · rintro ⟨_, _, h, _⟩
      cases h
    · rintro ⟨-, i, hi, hv⟩
      exact absurd hv (hno i hi)

open Demo in
example (c : Ctx Unit Nat) : ((enumScalar (V := Int) "T".toList (scalarVariants [['a'], ['b']])).decode (str ['a']) c).Clean c :=
  (c43_iff _ _ _ c).2 ⟨rfl, ['a'], by simp, rfl⟩

end Knuffel
