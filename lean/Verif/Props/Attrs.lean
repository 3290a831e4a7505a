import Verif.Theory.Attrs
import Verif.Props.DeriveNew
/-!
# The front end of the derive macros

C55 (the language of the attributes) and C56 (what is derived for a struct or an enum).
The language is in `Spec/Attrs.lean`.  The parsers of `syn` for expressions and types are
arbitrary, but for what `SynLaws` says.
-/

set_option linter.unusedSectionVars false

namespace Knuffel
variable {X T E S V : Type}

/-! ### C55 -/

/-- The lists of attributes that are accepted, and what is read, are those of the grammar. -/
theorem c55_language {syn : Syn X T} (laws : SynLaws syn) (attrs : List Attribute) (as : List (Attr X T)) :
    parseAttrList syn attrs = .ok as ↔ AttrsOf syn attrs as := parseAttrList_iff laws attrs as

/-- There is only one way to read attributes. -/
theorem c55_unambiguous {syn : Syn X T} (laws : SynLaws syn) {attrs : List Attribute} {as bs : List (Attr X T)}
    (h : AttrsOf syn attrs as) (h' : AttrsOf syn attrs bs) : as = bs := by
  have := (c55_language laws attrs as).2 h
  rw [(c55_language laws attrs bs).2 h'] at this
  cases this; rfl

theorem isOption_iff (t : Ty) : t.isOption = true ↔ t.IsOption := by
  unfold Ty.isOption Ty.IsOption
  constructor
  · intro h
    split at h
    · rename_i name args
      exact ⟨args, by rw [of_decide_eq_true h]⟩
    · cases h
  · rintro ⟨args, rfl⟩; rfl

theorem isBool_iff (t : Ty) : t.isBool = true ↔ t.IsBool := by
  unfold Ty.isBool Ty.IsBool
  constructor
  · intro h
    split at h
    · rename_i name
      rw [of_decide_eq_true h]
    · cases h
  · rintro rfl; rfl

theorem withImpls_iff {impls : Nat → Impls E S V} {eval : X → FVal V} {k : Nat} {a : RawAttrs X} {x : FieldAttrs E S V} :
    x = a.withImpls impls eval k ↔ AtLevel impls eval k a x := by
  constructor
  · rintro rfl
    induction k, a using RawAttrs.withImpls.induct with
    | case1 k mode decode default => exact .plain
    | case2 k mode decode u default ih => exact .unwrapped ih
  · intro h
    induction h with
    | plain => rfl
    | unwrapped _ ih => rw [RawAttrs.withImpls, ih]

/-- A field is accepted exactly if its attributes are in the grammar and say one thing of it; then it is
accessed by its name or number, its type is recognised as `Option` or `bool` if it is written so, and its
attributes are what they say. -/
theorem c55_field {syn : Syn X T} (laws : SynLaws syn) (eval : X → FVal V) (idx : Nat) (f : FieldSyn E S V)
    (d : FieldDef E S V) : f.toDef syn eval idx = .ok d ↔ f.Means syn eval idx d := by
  unfold FieldSyn.toDef
  constructor
  · intro h
    obtain ⟨as, h1, h⟩ := except_bind_ok.1 h
    obtain ⟨a, h2, h⟩ := except_bind_ok.1 h
    cases h
    exact ⟨rfl, isOption_iff _, isBool_iff _, as, a, (c55_language laws _ _).1 h1, says_iff.1 h2, withImpls_iff.1 rfl⟩
  · rintro ⟨h1, h2, h3, as, a, h4, h5, h6⟩
    refine except_bind_ok.2 ⟨as, (c55_language laws _ _).2 h4, except_bind_ok.2 ⟨a, says_iff.2 h5, ?_⟩⟩
    obtain ⟨df, dopt, dbool, dattrs⟩ := d
    have e2 : dopt = f.ty.isOption := by rw [Bool.eq_iff_iff, isOption_iff]; exact h2
    have e3 : dbool = f.ty.isBool := by rw [Bool.eq_iff_iff, isBool_iff]; exact h3
    dsimp only at h1 h6
    rw [h1, withImpls_iff.2 h6, e2, e3]
    rfl

theorem Says.perm {as bs : List (Attr X T)} {f : RawAttrs X} (h : Says as f) (hp : as.Perm bs) : Says bs f := by
  have one : ∀ {β : Type} (g : Attr X T → Option β) (o : Option β), as.filterMap g = o.toList →
      bs.filterMap g = o.toList := by
    intro β g o ho
    have := hp.filterMap g
    rw [ho] at this
    cases o with
    | none => exact List.nil_perm.1 this
    | some x => exact List.singleton_perm.1 this |>.symm ▸ rfl
  exact ⟨fun a ha => h.only a (hp.mem_iff.2 ha), one _ _ h.mode, one _ _ h.decode, one _ _ h.unwrap, one _ _ h.default⟩

/-- The order of the attributes of a field, and how they are spread over several `#[knuffel(..)]`, do not
matter. -/
theorem c55_order {syn : Syn X T} (laws : SynLaws syn) (eval : X → FVal V) (idx : Nat) (f : FieldSyn E S V)
    (attrs : List Attribute) {as bs : List (Attr X T)} (h : AttrsOf syn f.attrs as) (h' : AttrsOf syn attrs bs)
    (hp : as.Perm bs) (d : FieldDef E S V) :
    f.toDef syn eval idx = .ok d ↔ { f with attrs := attrs }.toDef syn eval idx = .ok d := by
  rw [c55_field laws, c55_field laws]
  constructor
  · rintro ⟨h1, h2, h3, as', a, h4, h5, h6⟩
    cases c55_unambiguous laws h h4
    exact ⟨h1, h2, h3, bs, a, h', h5.perm hp, h6⟩
  · rintro ⟨h1, h2, h3, bs', a, h4, h5, h6⟩
    cases c55_unambiguous laws h' h4
    exact ⟨h1, h2, h3, as, a, h, h5.perm hp.symm, h6⟩

/-- Two modes, two decode modes, two `unwrap`s, two defaults, or an attribute that is not for fields: the
derive fails. -/
theorem c55_once {syn : Syn X T} (laws : SynLaws syn) (eval : X → FVal V) (idx : Nat) (f : FieldSyn E S V)
    {as : List (Attr X T)} (h : AttrsOf syn f.attrs as)
    (hbad : 2 ≤ (as.filterMap Attr.asMode).length ∨ 2 ≤ (as.filterMap Attr.asDecode).length ∨
      2 ≤ (as.filterMap Attr.asUnwrap).length ∨ 2 ≤ (as.filterMap Attr.asDefault).length ∨
      Attr.skip ∈ as ∨ ∃ t, Attr.spanType t ∈ as) :
    ∃ e, f.toDef syn eval idx = .error e := by
  cases hd : f.toDef syn eval idx with
  | error e => exact ⟨e, rfl⟩
  | ok d =>
    exfalso
    obtain ⟨-, -, -, as', a, h4, h5, -⟩ := (c55_field laws eval idx f d).1 hd
    cases c55_unambiguous laws h h4
    have len : ∀ {β : Type} (o : Option β), o.toList.length ≤ 1 := by intro β o; cases o <;> simp
    rw [h5.mode, h5.decode, h5.unwrap, h5.default] at hbad
    have l1 := len a.mode
    have l2 := len a.decode
    have l3 := len a.unwrap
    have l4 := len a.default
    rcases hbad with hb | hb | hb | hb | hb | ⟨t, hb⟩
    · omega
    · omega
    · omega
    · omega
    · exact h5.only _ hb
    · exact h5.only _ hb

theorem attrsText_append {syn : Syn X T} {o : Option (List TT)} {as : List (Attr X T)} {us : List TT} {bs : List (Attr X T)}
    (h : (o = none ∧ as = []) ∨ ∃ ts a, o = some ts ∧ as = [a] ∧ AttrText syn ts a) (hu : AttrsText syn us bs) :
    AttrsText syn (commaText o ++ us) (as ++ bs) := by
  rcases h with ⟨rfl, rfl⟩ | ⟨ts, a, rfl, rfl, h⟩
  · exact hu
  · have := AttrsText.cons h hu
    simpa [commaText] using this

theorem modeText {syn : Syn X T} (m : FieldMode) : AttrText syn m.text (.fieldMode m) := by
  cases m with
  | property name =>
    cases name with
    | none => exact .word (w := "property") (by simp [attrWords])
    | some s => exact .property
  | children name =>
    cases name with
    | none => exact .word (w := "children") (by simp [attrWords])
    | some s => exact .children
  | flatten c p =>
    cases c <;> cases p
    · exact .flatten .nil
    · exact .flatten .property
    · exact .flatten (.child_comma .nil)
    · exact .flatten (.child_comma .property)
  | argument => exact .word (w := "argument") (by simp [attrWords])
  | arguments => exact .word (w := "arguments") (by simp [attrWords])
  | properties => exact .word (w := "properties") (by simp [attrWords])
  | child => exact .word (w := "child") (by simp [attrWords])
  | span => exact .word (w := "span") (by simp [attrWords])
  | nodeName => exact .word (w := "node_name") (by simp [attrWords])
  | typeName => exact .word (w := "type_name") (by simp [attrWords])

/-- What can be said of a field can be written, and is read back. -/
theorem written_text {syn : Syn X T} {show' : X → List TT} (hs : ∀ x, syn.expr (show' x) = some (x, [])) :
    ∀ f : RawAttrs X, f.Writable → ∃ as : List (Attr X T), AttrsText syn (f.text show') as ∧ Says as f
  | ⟨mode, decode, none, default⟩, hw => by
    refine ⟨mode.toList.map .fieldMode ++ (decode.toList.map .decodeMode ++ (default.toList.map .default ++ [])), ?_, ?_⟩
    · rw [RawAttrs.text, List.append_assoc, ← List.append_nil (commaText (default.map _))]
      refine attrsText_append ?_ (attrsText_append ?_ (attrsText_append ?_ .nil))
      · cases mode with
        | none => exact .inl ⟨rfl, rfl⟩
        | some m => exact .inr ⟨_, _, rfl, rfl, modeText m⟩
      · cases decode with
        | none => exact .inl ⟨rfl, rfl⟩
        | some m =>
          refine .inr ⟨_, _, rfl, rfl, ?_⟩
          cases m with
          | normal => exact absurd rfl hw
          | str => exact .word (w := "str") (by simp [attrWords])
          | bytes => exact .word (w := "bytes") (by simp [attrWords])
      · cases default with
        | none => exact .inl ⟨rfl, rfl⟩
        | some x =>
          refine .inr ⟨_, _, rfl, rfl, ?_⟩
          cases x with
          | none => exact .word (w := "default") (by simp [attrWords])
          | some x => exact .default (hs x)
    · cases mode <;> cases decode <;> cases default <;>
        constructor <;> simp [Attr.forField, List.filterMap_cons, Attr.asMode, Attr.asDecode, Attr.asUnwrap, Attr.asDefault]
  | ⟨mode, decode, some u, default⟩, hw => by
    obtain ⟨us, hu, hsu⟩ := written_text hs u hw.2
    refine ⟨mode.toList.map .fieldMode ++ (decode.toList.map .decodeMode ++ (default.toList.map .default ++ [.unwrap u])), ?_, ?_⟩
    · rw [RawAttrs.text, List.append_assoc, List.append_assoc]
      refine attrsText_append ?_ (attrsText_append ?_ (attrsText_append ?_ (.last (.unwrap hu hsu))))
      · cases mode with
        | none => exact .inl ⟨rfl, rfl⟩
        | some m => exact .inr ⟨_, _, rfl, rfl, modeText m⟩
      · cases decode with
        | none => exact .inl ⟨rfl, rfl⟩
        | some m =>
          refine .inr ⟨_, _, rfl, rfl, ?_⟩
          cases m with
          | normal => exact absurd rfl hw.1
          | str => exact .word (w := "str") (by simp [attrWords])
          | bytes => exact .word (w := "bytes") (by simp [attrWords])
      · cases default with
        | none => exact .inl ⟨rfl, rfl⟩
        | some x =>
          refine .inr ⟨_, _, rfl, rfl, ?_⟩
          cases x with
          | none => exact .word (w := "default") (by simp [attrWords])
          | some x => exact .default (hs x)
    · cases mode <;> cases decode <;> cases default <;>
        constructor <;> simp [Attr.forField, List.filterMap_cons, Attr.asMode, Attr.asDecode, Attr.asUnwrap, Attr.asDefault]

/-- Everything that attributes can say of a field can be written, with `unwrap`s nested to any
depth, and is read back. -/
theorem c55_written {syn : Syn X T} (laws : SynLaws syn) {show' : X → List TT}
    (hs : ∀ x, syn.expr (show' x) = some (x, [])) (eval : X → FVal V) (idx : Nat) (f : FieldSyn E S V)
    (a : RawAttrs X) (ha : a.Writable) (hf : f.attrs = [⟨true, "knuffel".toList, some (a.text show')⟩]) :
    ∃ d, f.toDef syn eval idx = .ok d ∧ AtLevel f.impls eval 0 a d.attrs := by
  obtain ⟨as, h1, h2⟩ := written_text hs a ha
  have h3 : AttrsOf syn f.attrs as := by
    rw [hf]
    have := AttrsOf.knuffel (syn := syn) (a := ⟨true, "knuffel".toList, some (a.text show')⟩) (rest := []) rfl rfl rfl h1 .nil
    simpa using this
  have := (c55_field laws eval idx f ⟨_, _, _, _⟩).2 ⟨rfl, isOption_iff _, isBool_iff _, as, a, h3, h2, withImpls_iff.1 rfl⟩
  exact ⟨_, this, withImpls_iff.1 rfl⟩

/-! ### Examples for C55 -/

namespace AttrDemo

/-- A stand-in for `syn`: expressions and types are single tokens. -/
def syn : Syn Nat Nat where
  expr ts := match ts with
    | .other n :: rest => some (n, rest)
    | _ => none
  type ts := match ts with
    | .other n :: rest => some (n, rest)
    | _ => none

theorem one_token {f : List TT → Option (Nat × List TT)}
    (hf : ∀ ts, f ts = match ts with | .other n :: rest => some (n, rest) | _ => none) :
    (∀ ts x rest, f ts = some (x, rest) → ∃ p, ts = p ++ rest) ∧
    ∀ ts x rest, EndsHere rest → (f (ts ++ rest) = some (x, rest) ↔ f ts = some (x, [])) := by
  constructor
  · intro ts x rest h
    rw [hf] at h
    split at h
    · cases h; exact ⟨[_], rfl⟩
    · cases h
  · intro ts x rest he
    rw [hf, hf]
    cases ts with
    | nil =>
      rcases he with rfl | ⟨r, rfl⟩ <;> simp
    | cons t ts => cases t <;> simp

theorem laws : SynLaws syn :=
  have h := one_token (f := syn.expr) fun ts => by cases ts with | nil => rfl | cons t ts => cases t <;> rfl
  have h' := one_token (f := syn.type) fun ts => by cases ts with | nil => rfl | cons t ts => cases t <;> rfl
  ⟨h.1, h.2, h'.1, h'.2⟩

/-- The tokens of an identifier. -/
def w (s : String) : TT := .ident s.toList
/-- `#[knuffel(ts)]` -/
def attr (ts : List TT) : Attribute := ⟨true, "knuffel".toList, some ts⟩

/-- `#[knuffel(child, unwrap(argument, str), default=1)]` -/
def one : List Attribute :=
  [attr [w "child", .punct ',', w "unwrap", .parens [w "argument", .punct ',', w "str"], .punct ',', w "default", .punct '=', .other 1]]
/-- `#[knuffel(default=1)] #[doc = ".."] #[knuffel(unwrap(str, argument,), child,)]` -/
def two : List Attribute :=
  [attr [w "default", .punct '=', .other 1], ⟨true, "doc".toList, none⟩,
   attr [w "unwrap", .parens [w "str", .punct ',', w "argument", .punct ','], .punct ',', w "child", .punct ',']]
/-- What both say. -/
def said : RawAttrs Nat := ⟨some .child, none, some ⟨some .argument, some .str, none, none⟩, some (some 1)⟩

/-- A field of type `u8` with attributes. -/
def field (attrs : List Attribute) : FieldSyn Unit Nat Int :=
  ⟨some ['f'], .path false false [("u8".toList, false)], attrs, fun _ => Demo.innerImpls⟩

end AttrDemo

open AttrDemo in
example : parseAttrList syn one = .ok [.fieldMode .child, .unwrap ⟨some .argument, some .str, none, none⟩, .default (some 1)] ∧
    parseAttrList syn two = .ok [.default (some 1), .unwrap ⟨some .argument, some .str, none, none⟩, .fieldMode .child] :=
  ⟨rfl, rfl⟩
open AttrDemo in
/-- The hypotheses of `c55_order` are met. -/
example (d : FieldDef Unit Nat Int) :
    (field one).toDef syn (fun _ => .none) 0 = .ok d ↔ (field two).toDef syn (fun _ => .none) 0 = .ok d :=
  c55_order laws _ 0 (field one) two ((c55_language laws _ _).1 rfl) ((c55_language laws _ _).1 rfl)
    (.trans (.cons _ (.swap _ _ _)) (.trans (.swap _ _ _) (.cons _ (.swap _ _ _)))) d
open AttrDemo in
/-- `#[knuffel(argument, property)]` is refused. -/
example : ∃ e, (field [attr [w "argument", .punct ',', w "property"]]).toDef syn (fun _ => .none) 0 = .error e :=
  c55_once laws _ _ _ (as := [.fieldMode .argument, .fieldMode (.property none)]) ((c55_language laws _ _).1 rfl)
    (.inl (by decide))
open AttrDemo in
example : ∃ d, (field [attr (said.text fun n => [.other n])]).toDef syn (fun _ => .none) 0 = .ok d ∧
    AtLevel (fun _ => Demo.innerImpls) (fun _ => .none) 0 said d.attrs :=
  c55_written laws (fun _ => rfl) _ 0 _ said ⟨by decide, (by decide : some DecodeMode.str ≠ some .normal)⟩ rfl

/-! ### C56 -/

theorem fieldDefs_iff {syn : Syn X T} (laws : SynLaws syn) (eval : X → FVal V) (idx : Nat) (fs : List (FieldSyn E S V))
    (ds : List (FieldDef E S V)) : fieldDefs syn eval idx fs = .ok ds ↔ FieldsMean syn eval idx fs ds := by
  induction fs generalizing idx ds with
  | nil => exact ⟨fun h => by cases h; exact .nil, fun h => by cases h; rfl⟩
  | cons f fs ih =>
    unfold fieldDefs
    constructor
    · intro h
      obtain ⟨d, h1, h⟩ := except_bind_ok.1 h
      obtain ⟨ds', h2, h⟩ := except_bind_ok.1 h
      cases h
      exact .cons ((c55_field laws _ _ _ _).1 h1) ((ih _ _).1 h2)
    · intro h
      cases h with
      | cons h1 h2 =>
        exact except_bind_ok.2 ⟨_, (c55_field laws _ _ _ _).2 h1, except_bind_ok.2 ⟨_, (ih _ _).2 h2, rfl⟩⟩

theorem structParse_iff [Externals] {syn : Syn X T} (laws : SynLaws syn) (eval : X → FVal V) (fs : List (FieldSyn E S V))
    (s : Struct E S V) :
    Struct.parse syn eval fs = .ok s ↔ ∃ ds, FieldsMean syn eval 0 fs ds ∧ Struct.new ds = .ok s := by
  unfold Struct.parse
  rw [except_bind_ok]
  simp only [fieldDefs_iff laws]

theorem container_iff {as : List (Attr X T)} {ty ty' : Option T} :
    containerProps as ty = .ok ty' ↔
      (∀ a ∈ as, ∃ t, a = .spanType t) ∧ ty' = ((as.filterMap Attr.asSpanType).getLast?).or ty := by
  induction as generalizing ty with
  | nil => exact ⟨fun h => by cases h; simp, fun h => by simpa [containerProps] using h.2.symm⟩
  | cons a as ih =>
    cases a with
    | spanType t =>
      rw [containerProps, ih]
      simp only [List.mem_cons, forall_eq_or_imp, List.filterMap_cons, Attr.asSpanType]
      rw [List.getLast?_cons]
      cases (as.filterMap Attr.asSpanType).getLast? <;> simp
    | _ =>
      constructor
      · intro h; cases h
      · rintro ⟨h, -⟩
        obtain ⟨t, ht⟩ := h _ List.mem_cons_self
        cases ht

theorem containerSays_iff {as : List (Attr X T)} {ty : Option T} : containerProps as none = .ok ty ↔ ContainerSays as ty := by
  rw [container_iff]
  simp [ContainerSays]

/-- A struct with named fields: its attributes are `span_type`s of which the last counts, and its
fields are those declared. -/
theorem c56_struct [Externals] {syn : Syn X T} (laws : SynLaws syn) (eval : X → FVal V) (attrs : List Attribute)
    (fs : List (FieldSyn E S V)) (d : Definition E S V T) :
    Definition.parse syn eval (.struct attrs (.named fs)) = .ok d ↔
      ∃ as ty ds s, AttrsOf syn attrs as ∧ ContainerSays as ty ∧ FieldsMean syn eval 0 fs ds ∧ Struct.new ds = .ok s ∧
        d = .struct ty s := by
  unfold Definition.parse
  constructor
  · intro h
    obtain ⟨as, h1, h⟩ := except_bind_ok.1 h
    obtain ⟨ty, h2, h⟩ := except_bind_ok.1 h
    obtain ⟨s, h3, h⟩ := except_bind_ok.1 h
    cases h
    obtain ⟨ds, h4, h5⟩ := (structParse_iff laws _ _ _).1 h3
    exact ⟨as, ty, ds, s, (c55_language laws _ _).1 h1, containerSays_iff.1 h2, h4, h5, rfl⟩
  · rintro ⟨as, ty, ds, s, h1, h2, h3, h4, rfl⟩
    exact except_bind_ok.2 ⟨as, (c55_language laws _ _).2 h1, except_bind_ok.2 ⟨ty, containerSays_iff.2 h2,
      except_bind_ok.2 ⟨s, (structParse_iff laws _ _ _).2 ⟨ds, h3, h4⟩, rfl⟩⟩⟩

/-- A unit struct has no fields. -/
theorem c56_unit [Externals] {syn : Syn X T} (laws : SynLaws syn) (eval : X → FVal V) (attrs : List Attribute)
    (d : Definition E S V T) :
    Definition.parse syn eval (.struct attrs .unit) = .ok d ↔
      ∃ as ty, AttrsOf syn attrs as ∧ ContainerSays as ty ∧ d = .unitStruct ty {} := by
  unfold Definition.parse
  constructor
  · intro h
    obtain ⟨as, h1, h⟩ := except_bind_ok.1 h
    obtain ⟨ty, h2, h⟩ := except_bind_ok.1 h
    obtain ⟨s, h3, h⟩ := except_bind_ok.1 h
    cases h
    cases h3
    exact ⟨as, ty, (c55_language laws _ _).1 h1, containerSays_iff.1 h2, rfl⟩
  · rintro ⟨as, ty, h1, h2, rfl⟩
    exact except_bind_ok.2 ⟨as, (c55_language laws _ _).2 h1, except_bind_ok.2 ⟨ty, containerSays_iff.2 h2, rfl⟩⟩

theorem addField_more [Externals] {b b' : Struct E S V} {f : FieldDef E S V}
    (h : addField b f.field f.isOption f.isBool f.attrs = .ok b') (hf : f.declared ≠ some (.flatten false false)) :
    b.allFields.length + 1 ≤ b'.allFields.length := by
  have a := addField_adds h
  by_cases h2 : f.mode = some (.flatten true true)
  · unfold Struct.allFields
    rw [a.spans, a.nodeNames, a.typeNames, a.arguments, a.varArgs, a.properties, a.varProps, a.children, a.varChildren, a.extraFields]
    have e1 : f.asProp.toList.length = 1 := by simp [FieldDef.asProp, h2]
    simp only [List.length_append, List.length_map, List.map_append, e1]
    omega
  · have := (a.perm h h2 hf).length_eq
    simp at this
    omega

theorem new_more [Externals] {fields : List (FieldDef E S V)} {s : Struct E S V} (h : Struct.new fields = .ok s)
    (hf : NoEmptyFlatten fields) : fields.length ≤ s.allFields.length := by
  have key : ∀ b : Struct E S V, fields.foldlM (fun b f => addField b f.field f.isOption f.isBool f.attrs) b = .ok s →
      b.allFields.length + fields.length ≤ s.allFields.length := by
    clear h
    induction fields with
    | nil => intro b h; cases h; simp
    | cons f fs ih =>
      intro b h
      obtain ⟨b', hb, h⟩ := foldlM_cons_ok h
      have h1 := addField_more hb (hf f List.mem_cons_self)
      have h2 := ih (fun g hg => hf g (List.mem_cons_of_mem _ hg)) b' h
      simp only [List.length_cons]
      omega
  have := key {} h
  omega

/-- The condition in the code for a field that stands for the whole node. -/
theorem whole_iff [Externals] {ds : List (FieldDef E S V)} {s : Struct E S V} (h : Struct.new ds = .ok s)
    (hf : NoEmptyFlatten ds) :
    (∃ x f, s.allFields = [x] ∧ s.extraFields = [f]) ↔ ∃ d, Whole ds d := by
  have hx := (c52_roles h).2.2.2.2.2.2.2.2.2
  constructor
  · rintro ⟨x, f, h1, h2⟩
    have hl := new_more h hf
    rw [h1] at hl
    rw [h2] at hx
    match ds, hl with
    | [], _ => simp at hx
    | [d], _ =>
      refine ⟨d, rfl, ?_⟩
      cases hm : d.declared with
      | none => rfl
      | some m =>
        have : d.mode = some m := hm
        simp [FieldDef.asExtra, this] at hx
  · rintro ⟨d, rfl, hd⟩
    have hm : d.mode = none := hd
    have hl := (c52_all h (by simp only [List.mem_singleton]; rintro _ rfl; simp [hm])).length_eq
    obtain ⟨x, hx'⟩ := List.length_eq_one_iff.1 hl
    exact ⟨x, ⟨d.field, d.isOption, d.attrs.base.impls⟩, hx', by simpa [FieldDef.asExtra, hm] using hx⟩

theorem whole_extra [Externals] {ds : List (FieldDef E S V)} {s : Struct E S V} (h : Struct.new ds = .ok s)
    {d : FieldDef E S V} (hw : Whole ds d) : s.extraFields = [⟨d.field, d.isOption, d.attrs.base.impls⟩] := by
  have hx := (c52_roles h).2.2.2.2.2.2.2.2.2
  obtain ⟨rfl, hd⟩ := hw
  have : d.mode = none := hd
  simpa [FieldDef.asExtra, this] using hx

/-- A tuple struct is a newtype exactly if it has one field and this has no mode; the newtype then
is around that field. -/
theorem c56_tuple_partial [Externals] {syn : Syn X T} (laws : SynLaws syn) (eval : X → FVal V) (attrs : List Attribute)
    (fs : List (FieldSyn E S V)) (d : Definition E S V T)
    (hf : ∀ ds, FieldsMean syn eval 0 fs ds → NoEmptyFlatten ds) :
    Definition.parse syn eval (.struct attrs (.unnamed fs)) = .ok d ↔
      ∃ as ty ds s, AttrsOf syn attrs as ∧ ContainerSays as ty ∧ FieldsMean syn eval 0 fs ds ∧ Struct.new ds = .ok s ∧
        ((∃ f, Whole ds f ∧ d = .newType ty f.isOption f.attrs.base.impls.node) ∨
         ((¬ ∃ f, Whole ds f) ∧ d = .tupleStruct ty s)) := by
  unfold Definition.parse
  constructor
  · intro h
    obtain ⟨as, h1, h⟩ := except_bind_ok.1 h
    obtain ⟨ty, h2, h⟩ := except_bind_ok.1 h
    obtain ⟨s, h3, h⟩ := except_bind_ok.1 h
    obtain ⟨ds, h4, h5⟩ := (structParse_iff laws _ _ _).1 h3
    refine ⟨as, ty, ds, s, (c55_language laws _ _).1 h1, containerSays_iff.1 h2, h4, h5, ?_⟩
    have hw := whole_iff h5 (hf ds h4)
    split at h
    · rename_i x f ha he
      cases h
      obtain ⟨w, hw⟩ := hw.1 ⟨_, _, ha, he⟩
      rw [whole_extra h5 hw] at he
      cases he
      exact .inl ⟨w, hw, rfl⟩
    · rename_i hne
      cases h
      exact .inr ⟨fun hw' => by obtain ⟨x, f, ha, he⟩ := hw.2 hw'; exact hne _ _ ha he, rfl⟩
  · rintro ⟨as, ty, ds, s, h1, h2, h3, h4, h5⟩
    refine except_bind_ok.2 ⟨as, (c55_language laws _ _).2 h1, except_bind_ok.2 ⟨ty, containerSays_iff.2 h2,
      except_bind_ok.2 ⟨s, (structParse_iff laws _ _ _).2 ⟨ds, h3, h4⟩, ?_⟩⟩⟩
    have hw := whole_iff h4 (hf ds h3)
    rcases h5 with ⟨f, hf', rfl⟩ | ⟨hno, rfl⟩
    · obtain ⟨x, g, ha, he⟩ := hw.2 ⟨f, hf'⟩
      rw [whole_extra h4 hf'] at he
      cases he
      simp only [ha, whole_extra h4 hf']
      rfl
    · split
      · rename_i x f ha he
        exact absurd (hw.1 ⟨_, _, ha, he⟩) hno
      · rfl

theorem skip_iff {as : List (Attr X T)} {b b' : Bool} :
    variantSkip as b = .ok b' ↔ (∀ a ∈ as, a = .skip) ∧ b' = (b || !as.isEmpty) := by
  induction as generalizing b with
  | nil => exact ⟨fun h => by cases h; simp, fun h => by simpa [variantSkip] using h.2.symm⟩
  | cons a as ih =>
    cases a with
    | skip => rw [variantSkip, ih]; simp
    | _ =>
      constructor
      · intro h; cases h
      · rintro ⟨h, -⟩
        have := h _ List.mem_cons_self
        cases this

/-- No variant has a field with the attribute `flatten()`. -/
def NoEmptyFlattens (syn : Syn X T) (eval : X → FVal V) (vs : List (VariantSyn E S V)) : Prop :=
  ∀ v ∈ vs, ∀ fs ds, v.fields = .unnamed fs → FieldsMean syn eval 0 fs ds → NoEmptyFlatten ds

theorem kind_iff [Externals] {syn : Syn X T} (laws : SynLaws syn) (eval : X → FVal V) (fs : FieldsSyn E S V) (k : VariantKind E S V)
    (hf : ∀ us ds, fs = .unnamed us → FieldsMean syn eval 0 us ds → NoEmptyFlatten ds) :
    (fs.toVariant syn eval >>= VariantFields.kind) = .ok k ↔ KindOf syn eval fs k := by
  cases fs with
  | unit => exact ⟨fun h => by cases h; exact .unit, fun h => by cases h; rfl⟩
  | named us =>
    constructor
    · intro h
      obtain ⟨v, h1, h⟩ := except_bind_ok.1 h
      obtain ⟨ds, h2, h1⟩ := except_bind_ok.1 h1
      cases h1; cases h
    · intro h; cases h
  | unnamed us =>
    constructor
    · intro h
      obtain ⟨v, h1, h⟩ := except_bind_ok.1 h
      obtain ⟨ds, h2, h1⟩ := except_bind_ok.1 h1
      cases h1
      have h2 := (fieldDefs_iff laws _ _ _ _).1 h2
      obtain ⟨s, h3, h⟩ := except_bind_ok.1 h
      have hw := whole_iff h3 (hf us ds rfl h2)
      split at h
      · rename_i x f ha he
        cases h
        obtain ⟨w, hw⟩ := hw.1 ⟨_, _, ha, he⟩
        rw [whole_extra h3 hw] at he
        cases he
        exact .nested h2 h3 hw
      · rename_i hne
        cases h
        exact .tuple h2 h3 fun hw' => by obtain ⟨x, f, ha, he⟩ := hw.2 hw'; exact hne _ _ ha he
    · intro h
      cases h with
      | @nested _ ds d s h2 h3 h4 =>
        refine except_bind_ok.2 ⟨.unnamed ds, except_bind_ok.2 ⟨ds, (fieldDefs_iff laws _ _ _ _).2 h2, rfl⟩,
          except_bind_ok.2 ⟨s, h3, ?_⟩⟩
        obtain ⟨x, g, ha, he⟩ := (whole_iff h3 (hf us ds rfl h2)).2 ⟨d, h4⟩
        simp only [ha, whole_extra h3 h4]
        rfl
      | @tuple _ ds s h2 h3 h4 =>
        refine except_bind_ok.2 ⟨.unnamed ds, except_bind_ok.2 ⟨ds, (fieldDefs_iff laws _ _ _ _).2 h2, rfl⟩,
          except_bind_ok.2 ⟨s, h3, ?_⟩⟩
        split
        · rename_i x f ha he
          exact absurd ((whole_iff h3 (hf us ds rfl h2)).1 ⟨_, _, ha, he⟩) h4
        · rfl

theorem variants_iff [Externals] {syn : Syn X T} (laws : SynLaws syn) (eval : X → FVal V) (vs : List (VariantSyn E S V))
    (ws : List (Variant E S V)) (hf : NoEmptyFlattens syn eval vs) :
    (variantDefs syn eval vs >>= enumVariants) = .ok ws ↔ VariantsMean syn eval vs ws := by
  induction vs generalizing ws with
  | nil => exact ⟨fun h => by cases h; exact .nil, fun h => by cases h; rfl⟩
  | cons v vs ih =>
    have ih := fun ws => ih ws fun v' hv => hf v' (List.mem_cons_of_mem _ hv)
    have hk := kind_iff laws eval v.fields (hf := fun fs ds h1 h2 => hf v List.mem_cons_self fs ds h1 h2)
    constructor
    · intro h
      obtain ⟨defs, h1, h⟩ := except_bind_ok.1 h
      unfold variantDefs at h1
      obtain ⟨as, h2, h1⟩ := except_bind_ok.1 h1
      obtain ⟨skip, h3, h1⟩ := except_bind_ok.1 h1
      obtain ⟨fields, h4, h1⟩ := except_bind_ok.1 h1
      obtain ⟨ds, h5, h1⟩ := except_bind_ok.1 h1
      cases h1
      obtain ⟨h6, h7⟩ := skip_iff.1 h3
      have h2 := (c55_language laws _ _).1 h2
      cases hs : skip with
      | true =>
        rw [hs] at h h7
        refine .skip h2 (by rintro rfl; simp at h7) h6 ((ih _).1 (except_bind_ok.2 ⟨ds, h5, ?_⟩))
        exact h
      | false =>
        rw [hs] at h h7 h4
        have has : as = [] := by
          cases as with
          | nil => rfl
          | cons => simp at h7
        subst has
        unfold enumVariants at h
        simp only [VariantSyn.kept, Bool.false_eq_true, if_false] at h h4
        obtain ⟨k, h8, h⟩ := except_bind_ok.1 h
        obtain ⟨ws', h9, h⟩ := except_bind_ok.1 h
        cases h
        exact .keep h2 ((hk k).1 (except_bind_ok.2 ⟨_, h4, h8⟩)) ((ih _).1 (except_bind_ok.2 ⟨ds, h5, h9⟩))
    · intro h
      cases h with
      | @skip _ _ _ as h1 h2 h3 h4 =>
        obtain ⟨ds, h5, h6⟩ := except_bind_ok.1 ((ih _).2 h4)
        refine except_bind_ok.2 ⟨⟨v.ident, true, .unit⟩ :: ds, ?_, h6⟩
        unfold variantDefs
        exact except_bind_ok.2 ⟨as, (c55_language laws _ _).2 h1, except_bind_ok.2 ⟨true,
          skip_iff.2 ⟨h3, by cases as with | nil => exact absurd rfl h2 | cons => rfl⟩,
          except_bind_ok.2 ⟨.unit, rfl, except_bind_ok.2 ⟨ds, h5, rfl⟩⟩⟩⟩
      | @keep _ _ ws' k h1 h2 h4 =>
        obtain ⟨ds, h5, h6⟩ := except_bind_ok.1 ((ih _).2 h4)
        obtain ⟨fields, h7, h8⟩ := except_bind_ok.1 ((hk k).2 h2)
        refine except_bind_ok.2 ⟨⟨v.ident, false, fields⟩ :: ds, ?_, ?_⟩
        · unfold variantDefs
          exact except_bind_ok.2 ⟨[], (c55_language laws _ _).2 h1, except_bind_ok.2 ⟨false, rfl,
            except_bind_ok.2 ⟨fields, h7, except_bind_ok.2 ⟨ds, h5, rfl⟩⟩⟩⟩
        · unfold enumVariants
          simp only [Bool.false_eq_true, if_false]
          exact except_bind_ok.2 ⟨k, h8, except_bind_ok.2 ⟨ws', h6, rfl⟩⟩

/-- An enum: its variants are those without `skip`, in order, under the kebab case of their names, and each is
of the kind its fields say. -/
theorem c56_enum_partial [Externals] {syn : Syn X T} (laws : SynLaws syn) (eval : X → FVal V) (attrs : List Attribute)
    (vs : List (VariantSyn E S V)) (d : Definition E S V T) (hf : NoEmptyFlattens syn eval vs) :
    Definition.parse syn eval (.enum attrs vs) = .ok d ↔
      ∃ as ty ws, AttrsOf syn attrs as ∧ ContainerSays as ty ∧ VariantsMean syn eval vs ws ∧ d = .enum ty ws := by
  unfold Definition.parse
  constructor
  · intro h
    obtain ⟨as, h1, h⟩ := except_bind_ok.1 h
    obtain ⟨ty, h2, h⟩ := except_bind_ok.1 h
    obtain ⟨ds, h3, h⟩ := except_bind_ok.1 h
    obtain ⟨ws, h4, h⟩ := except_bind_ok.1 h
    cases h
    exact ⟨as, ty, ws, (c55_language laws _ _).1 h1, containerSays_iff.1 h2,
      (variants_iff laws eval vs ws hf).1 (except_bind_ok.2 ⟨ds, h3, h4⟩), rfl⟩
  · rintro ⟨as, ty, ws, h1, h2, h3, rfl⟩
    obtain ⟨ds, h3, h4⟩ := except_bind_ok.1 ((variants_iff laws eval vs ws hf).2 h3)
    exact except_bind_ok.2 ⟨as, (c55_language laws _ _).2 h1, except_bind_ok.2 ⟨ty, containerSays_iff.2 h2,
      except_bind_ok.2 ⟨ds, h3, except_bind_ok.2 ⟨ws, h4, rfl⟩⟩⟩⟩

/-- `DecodeScalar`: exactly the enums all of whose variants are without fields, under the kebab case of their
names, in order (no attribute is looked at). -/
theorem c56_scalar [Externals] (item : Item E S V) (ws : List ScalarVariant) :
    scalarParse item = .ok ws ↔ ∃ attrs vs, item = .enum attrs vs ∧ (∀ v ∈ vs, v.fields = .unit) ∧
      ws = vs.map fun v => ⟨v.ident, Externals.kebab v.ident⟩ := by
  cases item with
  | struct attrs fs => exact ⟨fun h => (by cases h), fun ⟨_, _, h, _⟩ => (by cases h)⟩
  | other => exact ⟨fun h => (by cases h), fun ⟨_, _, h, _⟩ => (by cases h)⟩
  | enum attrs vs =>
    have hall : vs.all (·.fields.isUnit) = true ↔ ∀ v ∈ vs, v.fields = .unit := by
      rw [List.all_eq_true]
      refine forall_congr' fun v => forall_congr' fun _ => ?_
      cases v.fields <;> simp [FieldsSyn.isUnit]
    rw [scalarParse]
    constructor
    · intro h
      split at h
      · rename_i h1
        cases h
        exact ⟨attrs, vs, rfl, hall.1 h1, by simp [scalarVariants]⟩
      · cases h
    · rintro ⟨attrs', vs', h, h1, rfl⟩
      cases h
      rw [if_pos (hall.2 h1)]
      simp [scalarVariants]

theorem fieldsMean_index {syn : Syn X T} {eval : X → FVal V} {idx : Nat} {fs : List (FieldSyn E S V)}
    {ds : List (FieldDef E S V)} (h : FieldsMean syn eval idx fs ds) (hi : ∀ f ∈ fs, f.ident = none) :
    ds.map (·.field) = (List.range' idx fs.length).map .indexed := by
  induction h with
  | nil => rfl
  | @cons idx f d fs ds h1 h2 ih =>
    have e := h1.field
    rw [hi f List.mem_cons_self] at e
    rw [List.map_cons, e, ih fun g hg => hi g (List.mem_cons_of_mem _ hg)]
    simp [List.range'_succ]

/-- The assertion "all tuple structure fields should be filled in" of the macro holds if each `flatten` names one
of `child` and `property`. -/
theorem c56_filled_partial [Externals] {syn : Syn X T} (laws : SynLaws syn) (eval : X → FVal V)
    (fs : List (FieldSyn E S V)) (hi : ∀ f ∈ fs, f.ident = none) (s : Struct E S V)
    (h : Struct.parse syn eval fs = .ok s)
    (hf : ∀ ds, FieldsMean syn eval 0 fs ds → ∀ d ∈ ds,
      d.declared ≠ some (.flatten true true) ∧ d.declared ≠ some (.flatten false false)) :
    s.filled = true := by
  obtain ⟨ds, h1, h2⟩ := (structParse_iff laws _ _ _).1 h
  have hp := c52_all h2 (hf ds h1)
  rw [fieldsMean_index h1 hi] at hp
  unfold Struct.filled
  have hp' := hp.filterMap AttrAccess.index?
  rw [List.filterMap_map, show (AttrAccess.index? ∘ AttrAccess.indexed) = some from rfl, List.filterMap_some] at hp'
  rw [decide_eq_true_eq, hp'.length_eq, List.length_range']
  have hs := List.pairwise_mergeSort (le := fun a b : Nat => decide (a ≤ b))
    (by intro a b c; simp; omega) (by intro a b; simp; omega)
    (s.allFields.filterMap AttrAccess.index?)
  rw [List.range_eq_range']
  refine ((List.mergeSort_perm _ _).trans hp').eq_of_pairwise (le := fun a b => decide (a ≤ b)) ?_ hs ?_
  · intro a b _ _ h1 h2
    simp at h1 h2
    omega
  · have := List.pairwise_lt_range' (s := 0) (n := fs.length) 1
    exact this.imp fun h => by simp; omega

/-! ### Examples for C56 -/

namespace AttrDemo

/-- `u8` -/
def u8 : Ty := .path false false [("u8".toList, false)]
/-- `Option<u8>` -/
def optU8 : Ty := .path false false [("Option".toList, true)]
/-- A field of a tuple. -/
def item (ty : Ty) (attrs : List Attribute) : FieldSyn Unit Nat Int := ⟨none, ty, attrs, fun _ => Demo.innerImpls⟩
/-- `(#[knuffel(argument)] Option<u8>, #[knuffel(arguments)] u8)` -/
def pair : List (FieldSyn Unit Nat Int) := [item optU8 [attr [w "argument"]], item u8 [attr [w "arguments"]]]
/-- `(#[knuffel(flatten())] u8, u8)` -/
def lost : List (FieldSyn Unit Nat Int) := [item u8 [attr [w "flatten", .parens []]], item u8 []]
/-- No default values are evaluated here. -/
def ev : Nat → FVal Int := fun _ => .none

/-- What the two fields of `pair` mean. -/
def pairDefs : List (FieldDef Unit Nat Int) :=
  [⟨.indexed 0, true, false, .plain ⟨some .argument, none, none, Demo.innerImpls⟩⟩,
   ⟨.indexed 1, false, false, .plain ⟨some .arguments, none, none, Demo.innerImpls⟩⟩]

end AttrDemo

section
variable [Externals]
open AttrDemo

theorem pair_mean : FieldsMean syn ev 0 pair pairDefs := (fieldDefs_iff laws _ _ _ _).1 rfl
theorem pair_only {ds : List (FieldDef Unit Nat Int)} (h : FieldsMean syn ev 0 pair ds) : ds = pairDefs := by
  have := (fieldDefs_iff laws _ _ _ _).2 h
  rw [(fieldDefs_iff laws _ _ _ _).2 pair_mean] at this
  cases this; rfl
theorem pair_flat (ds : List (FieldDef Unit Nat Int)) (h : FieldsMean syn ev 0 pair ds) : NoEmptyFlatten ds := by
  cases pair_only h
  intro d hd
  rcases List.mem_cons.1 hd with rfl | hd
  · exact nofun
  · cases List.mem_singleton.1 hd; exact nofun

/-- `#[knuffel(span_type=1)] #[knuffel(span_type=2)] struct A { #[knuffel(child, unwrap(argument))] f: u8 }` -/
example : ∃ s, Definition.parse syn ev (.struct [attr [w "span_type", .punct '=', .other 1], attr [w "span_type", .punct '=', .other 2]]
      (.named [field [attr [w "child", .punct ',', w "unwrap", .parens [w "argument"]]]])) = .ok (.struct (some 2) s) ∧
    s.allFields = [.named ['f']] := by
  refine ⟨_, (c56_struct laws _ _ _ _).2 ⟨[.spanType 1, .spanType 2], _, _, _, (c55_language laws _ _).1 rfl,
    ⟨by simp, rfl⟩, (fieldDefs_iff laws _ _ _ _).1 rfl, rfl, rfl⟩, rfl⟩
example : Definition.parse syn ev (.struct (E := Unit) (S := Nat) (V := Int) [] .unit) = .ok (.unitStruct none {}) :=
  (c56_unit laws _ _ _).2 ⟨[], none, .nil, ⟨by simp, rfl⟩, rfl⟩
/-- The hypothesis of `c56_tuple_partial` is met by `pair`, which is not a newtype. -/
example : ∃ s, Definition.parse syn ev (.struct [] (.unnamed pair)) = .ok (.tupleStruct none s) ∧
    s.allFields = [.indexed 0, .indexed 1] :=
  ⟨_, (c56_tuple_partial laws _ _ _ _ pair_flat).2 ⟨[], none, pairDefs, _, .nil, ⟨by simp, rfl⟩, pair_mean, rfl,
    .inr ⟨by rintro ⟨f, h, -⟩; simp [pairDefs] at h, rfl⟩⟩, rfl⟩
/-- `struct A(Option<u8>);` is a newtype. -/
example : Definition.parse syn ev (.struct [] (.unnamed [item optU8 []])) = .ok (.newType none true Demo.innerImpls.node) := rfl
/-- `enum A { #[knuffel(skip)] B { f: u8 }, C, D(Option<u8>, u8), E(u8) }` -/
example : ∃ s, VariantsMean syn ev
      [⟨['B'], [attr [w "skip"]], .named [field []]⟩, ⟨['C'], [], .unit⟩, ⟨['D'], [], .unnamed pair⟩, ⟨['E'], [], .unnamed [item u8 []]⟩]
      [⟨['C'], Externals.kebab ['C'], .unit⟩, ⟨['D'], Externals.kebab ['D'], .tuple s⟩,
       ⟨['E'], Externals.kebab ['E'], .nested false Demo.innerImpls.node⟩] :=
  ⟨_, .skip ((c55_language laws _ _).1 rfl) (by simp) (by simp) <|
    .keep .nil .unit <|
    .keep .nil (.tuple pair_mean rfl (by rintro ⟨f, h, -⟩; simp [pairDefs] at h)) <|
    .keep .nil (.nested (d := ⟨.indexed 0, false, false, .plain ⟨none, none, none, Demo.innerImpls⟩⟩)
      ((fieldDefs_iff laws _ _ _ _).1 rfl) rfl ⟨rfl, rfl⟩) .nil⟩
example : ∀ s, Struct.parse syn ev pair = .ok s → s.filled = true :=
  fun s h => c56_filled_partial laws ev pair (by simp [pair, item]) s h fun ds hd => by
    cases pair_only hd
    intro d hd
    rcases List.mem_cons.1 hd with rfl | hd
    · exact ⟨nofun, nofun⟩
    · cases List.mem_singleton.1 hd; exact ⟨nofun, nofun⟩

/-- Without the hypothesis `c56_tuple_partial` fails: `struct A(#[knuffel(flatten())] u8, u8)` has two
fields and yet is taken for a newtype. -/
theorem c56_tuple_fails : ∃ (fs : List (FieldSyn Unit Nat Int)) (ty : Option Nat) (o : Bool) (dec : NodeDecoder Unit Nat (FVal Int)),
    fs.length = 2 ∧ Definition.parse syn ev (.struct [] (.unnamed fs)) = .ok (.newType ty o dec) :=
  ⟨lost, _, _, _, rfl, rfl⟩

theorem filled_nodup {s : Struct E S V} (h : s.filled = true) : (s.allFields.filterMap AttrAccess.index?).Nodup := by
  unfold Struct.filled at h
  rw [decide_eq_true_eq] at h
  exact (List.mergeSort_perm _ _).nodup_iff.1 (h ▸ List.nodup_range)

/-- Without its hypothesis `c56_filled_partial` fails: the macro panics on
`struct A(#[knuffel(flatten(child, property))] u8)`. -/
theorem c56_filled_fails : ∃ (fs : List (FieldSyn Unit Nat Int)) (s : Struct Unit Nat Int),
    (∀ f ∈ fs, f.ident = none) ∧ Struct.parse syn ev fs = .ok s ∧ s.filled = false :=
  ⟨[item u8 [attr [w "flatten", .parens [w "child", .punct ',', w "property"]]]], _, by simp [item], rfl,
    Bool.eq_false_iff.2 fun h => absurd (filled_nodup h) (show ¬ [0, 0].Nodup by decide)⟩

end

end Knuffel
