import Verif.Model.Attrs
/-!
# Specification: the language of the attributes

What may be written in `#[knuffel(..)]` and what it means
(derive/derive_decode.md), as a grammar; what a list of attributes says about a field, as a set.
Nothing here refers to the parser of the model.
-/

namespace Knuffel
variable {X T : Type}

/-- The end of an element of a list: the list ends or a comma follows. -/
def EndsHere (rest : List TT) : Prop := rest = [] ∨ ∃ r, rest = .punct ',' :: r

/-- What is assumed of the parsers for expressions and types: what they take is
at the beginning, and a comma after an expression or type ends it.  (A comma inside it, as in
`f::<A, B>()`, is not after an expression.) -/
structure SynLaws (syn : Syn X T) : Prop where
  expr_prefix : ∀ ts x rest, syn.expr ts = some (x, rest) → ∃ p, ts = p ++ rest
  expr_ends : ∀ ts x rest, EndsHere rest → (syn.expr (ts ++ rest) = some (x, rest) ↔ syn.expr ts = some (x, []))
  type_prefix : ∀ ts t rest, syn.type ts = some (t, rest) → ∃ p, ts = p ++ rest
  type_ends : ∀ ts t rest, EndsHere rest → (syn.type (ts ++ rest) = some (t, rest) ↔ syn.type ts = some (t, []))

/-- The attributes that are a single word. -/
def attrWords : List (String × Attr X T) :=
  [("argument", .fieldMode .argument), ("arguments", .fieldMode .arguments),
   ("property", .fieldMode (.property none)), ("properties", .fieldMode .properties),
   ("child", .fieldMode .child), ("children", .fieldMode (.children none)),
   ("span", .fieldMode .span), ("node_name", .fieldMode .nodeName), ("type_name", .fieldMode .typeName),
   ("str", .decodeMode .str), ("bytes", .decodeMode .bytes), ("default", .default none), ("skip", .skip)]

/-- The mode that an attribute gives. -/
def Attr.asMode : Attr X T → Option FieldMode
  | .fieldMode m => some m
  | _ => none
/-- The decode mode that an attribute gives. -/
def Attr.asDecode : Attr X T → Option DecodeMode
  | .decodeMode m => some m
  | _ => none
/-- What an attribute `unwrap(..)` says. -/
def Attr.asUnwrap : Attr X T → Option (RawAttrs X)
  | .unwrap u => some u
  | _ => none
/-- What an attribute `default` says. -/
def Attr.asDefault : Attr X T → Option (Option X)
  | .default x => some x
  | _ => none
/-- Attributes for fields. -/
def Attr.forField : Attr X T → Prop
  | .skip | .spanType _ => False
  | _ => True

/-- The attributes `as` say `f` of a field: there is nothing in them that is not for fields, they give at
most one mode, decode mode, `unwrap` and default, and these are those of `f`. -/
structure Says (as : List (Attr X T)) (f : RawAttrs X) : Prop where
  only : ∀ a ∈ as, a.forField
  mode : as.filterMap Attr.asMode = f.mode.toList
  decode : as.filterMap Attr.asDecode = f.decode.toList
  unwrap : as.filterMap Attr.asUnwrap = f.unwrap.toList
  default : as.filterMap Attr.asDefault = f.default.toList

/-- The items in `flatten(..)`, separated by commas, maybe one at the end. -/
inductive FlattenText : List TT → List FlattenItem → Prop
  | nil : FlattenText [] []
  | child : FlattenText [.ident "child".toList] [.child]
  | property : FlattenText [.ident "property".toList] [.property]
  | child_comma {ts is} : FlattenText ts is → FlattenText (.ident "child".toList :: .punct ',' :: ts) (.child :: is)
  | property_comma {ts is} : FlattenText ts is →
      FlattenText (.ident "property".toList :: .punct ',' :: ts) (.property :: is)

mutual
/-- A single attribute. -/
inductive AttrText (syn : Syn X T) : List TT → Attr X T → Prop
  | word {w a} : (w, a) ∈ attrWords → AttrText syn [.ident w.toList] a
  | property {s} : AttrText syn
      [.ident "property".toList, .parens [.ident "name".toList, .punct '=', .str s]] (.fieldMode (.property (some s)))
  | children {s} : AttrText syn
      [.ident "children".toList, .parens [.ident "name".toList, .punct '=', .str s]] (.fieldMode (.children (some s)))
  | unwrap {ts as f} : AttrsText syn ts as → Says as f → AttrText syn [.ident "unwrap".toList, .parens ts] (.unwrap f)
  | flatten {ts is} : FlattenText ts is → AttrText syn [.ident "flatten".toList, .parens ts]
      (.fieldMode (.flatten (decide (.child ∈ is)) (decide (.property ∈ is))))
  | default {ts x} : syn.expr ts = some (x, []) →
      AttrText syn (.ident "default".toList :: .punct '=' :: ts) (.default (some x))
  | spanType {ts t} : syn.type ts = some (t, []) →
      AttrText syn (.ident "span_type".toList :: .punct '=' :: ts) (.spanType t)
/-- Attributes separated by commas, maybe with a comma at the end. -/
inductive AttrsText (syn : Syn X T) : List TT → List (Attr X T) → Prop
  | nil : AttrsText syn [] []
  | last {ts a} : AttrText syn ts a → AttrsText syn ts [a]
  | cons {ts a us as} : AttrText syn ts a → AttrsText syn us as → AttrsText syn (ts ++ .punct ',' :: us) (a :: as)
end

/-- The attributes in what is written before a field, a variant or a type: `#[knuffel(..)]` once or several times,
and others in between. -/
inductive AttrsOf (syn : Syn X T) : List Attribute → List (Attr X T) → Prop
  | nil : AttrsOf syn [] []
  | knuffel {a ts as rest bs} : a.outer = true → a.path = "knuffel".toList → a.args = some ts →
      AttrsText syn ts as → AttrsOf syn rest bs → AttrsOf syn (a :: rest) (as ++ bs)
  | foreign {a rest bs} : ¬ (a.outer = true ∧ a.path = "knuffel".toList) → AttrsOf syn rest bs →
      AttrsOf syn (a :: rest) bs

/-! ### Writing attributes down -/

/-- `name="s"` in parentheses, if there is a name. -/
def nameText : Option Str → List TT
  | none => []
  | some s => [.parens [.ident "name".toList, .punct '=', .str s]]

/-- A mode as it is written. -/
def FieldMode.text : FieldMode → List TT
  | .argument => [.ident "argument".toList]
  | .arguments => [.ident "arguments".toList]
  | .property name => .ident "property".toList :: nameText name
  | .properties => [.ident "properties".toList]
  | .child => [.ident "child".toList]
  | .children name => .ident "children".toList :: nameText name
  | .flatten c p => [.ident "flatten".toList, .parens (
      (if c then [.ident "child".toList, .punct ','] else []) ++
      if p then [.ident "property".toList] else [])]
  | .span => [.ident "span".toList]
  | .nodeName => [.ident "node_name".toList]
  | .typeName => [.ident "type_name".toList]

/-- A decode mode as it is written; the normal one is the absence of an attribute. -/
def DecodeMode.text : DecodeMode → List TT
  | .normal => []
  | .str => [.ident "str".toList]
  | .bytes => [.ident "bytes".toList]

/-- A default as it is written. -/
def defaultText (show' : X → List TT) : Option X → List TT
  | none => [.ident "default".toList]
  | some x => .ident "default".toList :: .punct '=' :: show' x

/-- An element with a comma after it, if there is one. -/
def commaText : Option (List TT) → List TT
  | none => []
  | some ts => ts ++ [.punct ',']

/-- What is said of a field as attributes. -/
def RawAttrs.text (show' : X → List TT) : RawAttrs X → List TT
  | ⟨mode, decode, none, default⟩ =>
    commaText (mode.map FieldMode.text) ++ commaText (decode.map DecodeMode.text) ++
      commaText (default.map (defaultText show'))
  | ⟨mode, decode, some u, default⟩ =>
    commaText (mode.map FieldMode.text) ++ commaText (decode.map DecodeMode.text) ++
      commaText (default.map (defaultText show')) ++ [.ident "unwrap".toList, .parens (u.text show')]

/-- There is no attribute for the normal decode mode. -/
def RawAttrs.Writable : RawAttrs X → Prop
  | ⟨_, decode, none, _⟩ => decode ≠ some .normal
  | ⟨_, decode, some u, _⟩ => decode ≠ some .normal ∧ u.Writable

/-! ### What is derived -/

/-- The type is written `Option` or `Option<..>`. -/
def Ty.IsOption (t : Ty) : Prop := ∃ args, t = .path false false [("Option".toList, args)]
/-- The type is written `bool`. -/
def Ty.IsBool (t : Ty) : Prop := t = .path false false [("bool".toList, false)]

variable {E S V : Type}

/-- What is said of a field, with values for the expressions and with the implementations for each level: `impls k`
for what is said inside `k` `unwrap`s. -/
inductive AtLevel (impls : Nat → Impls E S V) (eval : X → FVal V) : Nat → RawAttrs X → FieldAttrs E S V → Prop
  | plain {k mode decode default} :
      AtLevel impls eval k ⟨mode, decode, none, default⟩ (.plain ⟨mode, decode, default.map (·.map eval), impls k⟩)
  | unwrapped {k mode decode u default a} : AtLevel impls eval (k + 1) u a →
      AtLevel impls eval k ⟨mode, decode, some u, default⟩
        (.unwrapped ⟨mode, decode, default.map (·.map eval), impls k⟩ a)

/-- The description `d` is that of the field `f`, which is number `idx`. -/
structure FieldSyn.Means (syn : Syn X T) (eval : X → FVal V) (idx : Nat) (f : FieldSyn E S V)
    (d : FieldDef E S V) : Prop where
  field : d.field = match f.ident with
    | some id => .named id
    | none => .indexed idx
  option : d.isOption = true ↔ f.ty.IsOption
  bool : d.isBool = true ↔ f.ty.IsBool
  attrs : ∃ as a, AttrsOf syn f.attrs as ∧ Says as a ∧ AtLevel f.impls eval 0 a d.attrs

/-- The same for a list of fields from number `idx` on. -/
inductive FieldsMean (syn : Syn X T) (eval : X → FVal V) : Nat → List (FieldSyn E S V) → List (FieldDef E S V) → Prop
  | nil {idx} : FieldsMean syn eval idx [] []
  | cons {idx f d fs ds} : f.Means syn eval idx d → FieldsMean syn eval (idx + 1) fs ds →
      FieldsMean syn eval idx (f :: fs) (d :: ds)

/-- The type given by an attribute `span_type`. -/
def Attr.asSpanType : Attr X T → Option T
  | .spanType t => some t
  | _ => none

/-- The attributes of a struct or an enum: only `span_type`, of which the last counts. -/
def ContainerSays (as : List (Attr X T)) (ty : Option T) : Prop :=
  (∀ a ∈ as, ∃ t, a = .spanType t) ∧ ty = (as.filterMap Attr.asSpanType).getLast?

/-- The mode of a field. -/
def FieldDef.declared (d : FieldDef E S V) : Option FieldMode := d.attrs.base.mode

/-- There is one field, and it has no mode: it stands for the node as a whole. -/
def Whole (ds : List (FieldDef E S V)) (d : FieldDef E S V) : Prop := ds = [d] ∧ d.declared = none

/-- No field has the attribute `flatten()`, with nothing in the parentheses. -/
def NoEmptyFlatten (ds : List (FieldDef E S V)) : Prop := ∀ d ∈ ds, d.declared ≠ some (.flatten false false)

/-- The kind of a variant with these fields. -/
inductive KindOf [Externals] (syn : Syn X T) (eval : X → FVal V) : FieldsSyn E S V → VariantKind E S V → Prop
  | unit : KindOf syn eval .unit .unit
  | nested {fs ds d s} : FieldsMean syn eval 0 fs ds → Struct.new ds = .ok s → Whole ds d →
      KindOf syn eval (.unnamed fs) (.nested d.isOption d.attrs.base.impls.node)
  | tuple {fs ds s} : FieldsMean syn eval 0 fs ds → Struct.new ds = .ok s → (¬ ∃ d, Whole ds d) →
      KindOf syn eval (.unnamed fs) (.tuple s)

/-- The variants of an enum: those without `skip`, in order, under the kebab case of
their names. -/
inductive VariantsMean [Externals] (syn : Syn X T) (eval : X → FVal V) :
    List (VariantSyn E S V) → List (Variant E S V) → Prop
  | nil : VariantsMean syn eval [] []
  | skip {v vs ws as} : AttrsOf syn v.attrs as → as ≠ [] → (∀ a ∈ as, a = .skip) → VariantsMean syn eval vs ws →
      VariantsMean syn eval (v :: vs) ws
  | keep {v vs ws k} : AttrsOf syn v.attrs [] → KindOf syn eval v.fields k → VariantsMean syn eval vs ws →
      VariantsMean syn eval (v :: vs) (⟨v.ident, Externals.kebab v.ident, k⟩ :: ws)

/-- The variants without attributes, that is, those that are not skipped. -/
inductive Kept (syn : Syn X T) : List (VariantSyn E S V) → List (VariantSyn E S V) → Prop
  | nil : Kept syn [] []
  | skip {v vs ws} : ¬ AttrsOf syn v.attrs [] → Kept syn vs ws → Kept syn (v :: vs) ws
  | keep {v vs ws} : AttrsOf syn v.attrs [] → Kept syn vs ws → Kept syn (v :: vs) (v :: ws)

end Knuffel
