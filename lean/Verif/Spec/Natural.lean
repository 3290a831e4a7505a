import Verif.Spec.Doc
import Verif.Model.Derive
import Verif.Model.ParseDecode
import Verif.Model.Containers
/-!
# Specification: decoders that see the same but for the spans

`g : S → T` replaces spans of one type by spans of another.  A decoder for nodes
with spans in `S` and a decoder for nodes with spans in `T` *agree* along `g` if
on a node and on the same node with every span replaced they end in the same
way: with the same value (up to `h`, which replaces the spans kept inside
values) or the same error, or both panic, and with the same errors recorded, every
span in them replaced; and the extensions of the context are the same.

The rest says the same of implementations for a field and of the descriptions of
structs and enums: the same fields with the same attributes, and implementations
that agree.  Nothing here models code.
-/

namespace Knuffel

variable {E S T α β V W : Type}

/-- Replace the spans of the recorded errors. -/
def Ctx.mapSpan (g : S → T) (c : Ctx E S) : Ctx E T := ⟨c.errors.map (DErr.mapSpan g), c.extensions⟩

/-- Replace the spans in what a decoder ends with. -/
def Out.mapSpan (g : S → T) (h : α → β) : Out E S α → Out E T β
  | .ok a c => .ok (h a) (c.mapSpan g)
  | .err e c => .err (e.mapSpan g) (c.mapSpan g)
  | .panic => .panic

/-- The two computations agree: started with the same errors and extensions they
end in the same way. -/
def Agrees (g : S → T) (h : α → β) (d : D E S α) (d' : D E T β) : Prop :=
  ∀ c, d' (c.mapSpan g) = (d c).mapSpan g h

/-- Agreement of `DecodeScalar` implementations. -/
structure Scalar.Agrees (g : S → T) (h : α → β) (d : Scalar E S α) (d' : Scalar E T β) : Prop where
  typeCheck : ∀ t, Knuffel.Agrees g id (d.typeCheck t) (d'.typeCheck (t.map (Spanned.mapSpan g)))
  rawDecode : ∀ x, Knuffel.Agrees g h (d.rawDecode x) (d'.rawDecode (x.mapSpan g))
  decode : ∀ v, Knuffel.Agrees g h (d.decode v) (d'.decode (v.mapSpan g))

/-- A node with its span replaced, and the spans inside it. -/
def mapNode (g : S → T) (n : SpannedNode S) : SpannedNode T := ⟨g n.span, n.value.mapSpan g⟩

/-- Agreement of `Decode` implementations. -/
def NodeAgrees (g : S → T) (h : α → β) (d : NodeDecoder E S α) (d' : NodeDecoder E T β) : Prop :=
  ∀ n, Agrees g h (d n) (d' (mapNode g n))

/-- Agreement of `DecodeChildren` implementations. -/
def ChildrenAgree (g : S → T) (h : α → β) (d : ChildrenDecoder E S α) (d' : ChildrenDecoder E T β) : Prop :=
  ∀ ns, Agrees g h (d ns) (d' (ns.map (mapNode g)))

/-- Agreement of `DecodePartial` implementations. -/
structure Partial.Agrees (g : S → T) (h : α → β) (d : Partial E S α) (d' : Partial E T β) : Prop where
  insertChild : ∀ a n, Knuffel.Agrees g (Prod.map id h) (d.insertChild a n) (d'.insertChild (h a) (mapNode g n))
  insertProperty : ∀ a k v, Knuffel.Agrees g (Prod.map id h) (d.insertProperty a k v)
    (d'.insertProperty (h a) (k.mapSpan g) (v.mapSpan g))

/-- Agreement of `DecodeSpan` implementations. -/
def SpanAgrees (g : S → T) (h : α → β) (d : SpanDecoder E S α) (d' : SpanDecoder E T β) : Prop :=
  ∀ s c, d' (g s) (c.mapSpan g) = (h (d s c).1, (d s c).2.mapSpan g)

mutual
/-- Replace the values at the leaves. -/
def FVal.map (h : V → W) : FVal V → FVal W
  | .leaf v => .leaf (h v)
  | .none => .none
  | .some x => .some (x.map h)
  | .bool b => .bool b
  | .list xs => .list (FVal.mapList h xs)
  | .pairs xs => .pairs (FVal.mapPairs h xs)
  | .record fs => .record (FVal.mapEnv h fs)
  | .variant n p => .variant n (p.map h)
/-- The same in a list. -/
def FVal.mapList (h : V → W) : List (FVal V) → List (FVal W)
  | [] => []
  | x :: xs => x.map h :: FVal.mapList h xs
/-- The same in a list of pairs. -/
def FVal.mapPairs (h : V → W) : List (FVal V × FVal V) → List (FVal W × FVal W)
  | [] => []
  | (x, y) :: xs => (x.map h, y.map h) :: FVal.mapPairs h xs
/-- The same in the fields of a struct. -/
def FVal.mapEnv (h : V → W) : List (AttrAccess × FVal V) → List (AttrAccess × FVal W)
  | [] => []
  | (f, x) :: xs => (f, x.map h) :: FVal.mapEnv h xs
end

/-- The implementations for the type of a field agree. -/
structure Impls.Agrees (g : S → T) (h : V → W) (i : Impls E S V) (j : Impls E T W) : Prop where
  scalar : i.scalar.Agrees g (FVal.map h) j.scalar
  node : NodeAgrees g (FVal.map h) i.node j.node
  part : i.part.Agrees g (FVal.map h) j.part
  fromStr : ∀ s, j.fromStr s = (i.fromStr s).map (FVal.map h)
  fromBytes : ∀ s, j.fromBytes s = (i.fromBytes s).map (FVal.map h)
  keyFromStr : ∀ s, j.keyFromStr s = (i.keyFromStr s).map (FVal.map h)
  span : SpanAgrees g (FVal.map h) i.span j.span
  default : j.default = i.default.map h

/-- Lists of the same length whose elements stand in the relation. -/
def Listwise (R : α → β → Prop) : List α → List β → Prop
  | [], [] => True
  | a :: as, b :: bs => R a b ∧ Listwise R as bs
  | _, _ => False

/-- Both are there and stand in the relation, or neither is. -/
def Optionwise (R : α → β → Prop) : Option α → Option β → Prop
  | none, none => True
  | some a, some b => R a b
  | _, _ => False

/-- The same error, or results that stand in the relation. -/
def Resultwise (R : α → β → Prop) : Except Str α → Except Str β → Prop
  | .ok a, .ok b => R a b
  | .error e, .error e' => e = e'
  | _, _ => False

/-- The same attributes, defaults up to `h`, implementations that agree. -/
structure PlainAttrs.Agrees (g : S → T) (h : V → W) (a : PlainAttrs E S V) (b : PlainAttrs E T W) : Prop where
  mode : b.mode = a.mode
  decode : b.decode = a.decode
  default : b.default = a.default.map (Option.map (FVal.map h))
  impls : a.impls.Agrees g h b.impls

/-- The same with `unwrap`. -/
def FieldAttrs.Agrees (g : S → T) (h : V → W) : FieldAttrs E S V → FieldAttrs E T W → Prop
  | .plain a, .plain b => a.Agrees g h b
  | .unwrapped a i, .unwrapped b j => a.Agrees g h b ∧ i.Agrees g h j
  | _, _ => False

/-- The same field with attributes that agree. -/
structure FieldDef.Agrees (g : S → T) (h : V → W) (a : FieldDef E S V) (b : FieldDef E T W) : Prop where
  field : b.field = a.field
  isOption : b.isOption = a.isOption
  isBool : b.isBool = a.isBool
  attrs : a.attrs.Agrees g h b.attrs

/-- The same fields of a variant. -/
def VariantFields.Agrees (g : S → T) (h : V → W) : VariantFields E S V → VariantFields E T W → Prop
  | .unit, .unit => True
  | .unnamed a, .unnamed b => Listwise (FieldDef.Agrees g h) a b
  | .named a, .named b => Listwise (FieldDef.Agrees g h) a b
  | _, _ => False

/-- The same variant. -/
structure VariantDef.Agrees (g : S → T) (h : V → W) (a : VariantDef E S V) (b : VariantDef E T W) : Prop where
  ident : b.ident = a.ident
  skip : b.skip = a.skip
  fields : a.fields.Agrees g h b.fields

/-! ## Results of parsing and decoding in one go -/

/-- Replace the spans of an error. -/
def AnyErr.mapSpan {O O' : Type} (g : Sp O → Sp O') : AnyErr O → AnyErr O'
  | .parse e => .parse (e.mapSpan g)
  | .decode e => .decode (e.mapSpan g)

/-- Replace the spans in the result. -/
def mapResult {O O' : Type} (g : Sp O → Sp O') (h : α → β) :
    Option (Except (List (AnyErr O)) α) → Option (Except (List (AnyErr O')) β)
  | some (.ok a) => some (.ok (h a))
  | some (.error es) => some (.error (es.map (AnyErr.mapSpan g)))
  | none => none

/-- Forget a span, in the form of a span. -/
def blankSpan {O : Type} (_ : Sp O) : Sp Unit := ⟨(), ()⟩

/-- The value behind a smart pointer replaced. -/
def Ptr.mapValue (h : α → β) (p : Ptr α) : Ptr β := ⟨p.kind, h p.value, p.clones⟩

end Knuffel
