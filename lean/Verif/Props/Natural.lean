import Verif.Theory.NaturalDerive
import Verif.Theory.NaturalImpls
import Verif.Props.Layout
import Verif.Props.Total
import Verif.Props.Decode
import Verif.Theory.DeriveDemo
/-!
# C65: decoding does not look at spans

`Spec/Natural.lean` says when two decoders agree along a replacement `g` of
spans.  The theorems say that every decoder of the library agrees with itself
(at the other span type), and that what the derive macros generate agrees
whenever the implementations for the types of the fields do.  Then decoding a
text does not depend on its layout or on the span type, except for the spans in
values and errors.
-/

namespace Knuffel
open Cst

variable {E S T V W Q R α β : Type}

/-! ### Derived decoders -/

section
variable [Externals] {g : S → T} {h : V → W}

/-- **C65** for structs: declarations with the same fields and attributes, and
implementations that agree, give the same compile error, or decoders that agree. -/
theorem c65_struct {l : List (FieldDef E S V)} {l' : List (FieldDef E T W)}
    (hl : Listwise (FieldDef.Agrees g h) l l') :
    Resultwise (fun s s' => NodeAgrees g (FVal.map h) s.node s'.node ∧
        ChildrenAgree g (FVal.map h) s.root s'.root ∧ s.part.Agrees g (FVal.map h) s'.part)
      (Struct.new l) (Struct.new l') := by
  have hs := struct_new_agrees hl
  cases h1 : Struct.new l <;> cases h2 : Struct.new l' <;> rw [h1, h2] at hs
  · exact hs
  · exact hs.elim
  · exact hs.elim
  · exact ⟨Struct.Agrees.node hs, Struct.Agrees.root hs, Struct.Agrees.part hs⟩

/-- **C65** for newtype structs. -/
theorem c65_newtype {d : NodeDecoder E S (FVal V)} {d' : NodeDecoder E T (FVal W)}
    (hd : NodeAgrees g (FVal.map h) d d') : NodeAgrees g (FVal.map h) (newTypeNode d) (newTypeNode d') :=
  newTypeNode_agrees hd

/-- **C65** for enums. -/
theorem c65_enum {l : List (VariantDef E S V)} {l' : List (VariantDef E T W)}
    (hl : Listwise (VariantDef.Agrees g h) l l') :
    Resultwise (fun vs vs' => NodeAgrees g (FVal.map h) (enumNode vs) (enumNode vs'))
      (enumVariants l) (enumVariants l') := by
  have hs := enumVariants_agrees hl
  cases h1 : enumVariants l <;> cases h2 : enumVariants l' <;> rw [h1, h2] at hs
  · exact hs
  · exact hs.elim
  · exact hs.elim
  · exact enumNode_agrees hs

/-- **C65** for enums of scalars. -/
theorem c65_scalar_enum (rustType : Str) (vs : List ScalarVariant) :
    (enumScalar (E := E) (S := S) (V := V) rustType vs).Agrees g (FVal.map h) (enumScalar rustType vs) :=
  enumScalar_agrees rustType vs
end

/-! ### An example -/

namespace NaturalDemo
open Demo

/-- Implementations for a field whose values are numbers or spans, at any type of
spans: numbers as scalars, the span of a node as a child. -/
def impls (E S : Type) : Impls E S (Int ⊕ S) where
  scalar := { typeCheck := (intScalar 64 .i64).typeCheck
              rawDecode := fun v => ((intScalar 64 .i64).rawDecode v).map (FVal.leaf ∘ Sum.inl)
              decode := fun v => ((intScalar 64 .i64).decode v).map (FVal.leaf ∘ Sum.inl) }
  node n := pure (.leaf (.inr n.span))
  part := ⟨fun x _ => pure (false, x), fun x _ _ => pure (false, x)⟩
  fromStr s := .ok (.leaf (.inl s.length))
  fromBytes _ := .error ['b']
  keyFromStr s := .ok (.leaf (.inl s.length))
  span s c := (.leaf (.inr s), c)
  default := .leaf (.inl 0)

theorem impls_agree (g : S → T) : (impls E S).Agrees g (Sum.map id g) (impls E T) where
  scalar := by
    have h := intScalar_agrees (E := E) (g := g) 64 .i64
    exact ⟨h.typeCheck, fun x => (h.rawDecode x).map fun _ => by simp, fun x => (h.decode x).map fun _ => by simp⟩
  node n := Agrees.pure' (by simp [mapNode])
  part := ⟨fun _ _ => Agrees.pure _, fun _ _ _ => Agrees.pure _⟩
  fromStr s := by simp [impls, Except.map]
  fromBytes s := rfl
  keyFromStr s := by simp [impls, Except.map]
  span s c := by simp [impls]
  default := by simp [impls]

/-- The fields of a struct: the span of the node, an argument, a property with a
default, a child with `unwrap(argument)`, all other children. -/
def fields (E S : Type) : List (FieldDef E S (Int ⊕ S)) :=
  [⟨fld 's', false, false, .plain ⟨some .span, none, none, impls E S⟩⟩,
   ⟨fld 'a', false, false, .plain ⟨some .argument, none, none, impls E S⟩⟩,
   ⟨fld 'p', false, false, .plain ⟨some (.property none), some .str, some none, impls E S⟩⟩,
   ⟨fld 'c', false, false, .unwrapped ⟨some .child, none, none, impls E S⟩
     (.plain ⟨some .argument, none, none, impls E S⟩)⟩,
   ⟨fld 'w', false, false, .plain ⟨some (.children none), none, none, impls E S⟩⟩]

theorem fields_agree (g : S → T) : Listwise (FieldDef.Agrees g (Sum.map id g)) (fields E S) (fields E T) := by
  have h := impls_agree (E := E) g
  exact ⟨⟨rfl, rfl, rfl, ⟨rfl, rfl, rfl, h⟩⟩, ⟨rfl, rfl, rfl, ⟨rfl, rfl, rfl, h⟩⟩, ⟨rfl, rfl, rfl, ⟨rfl, rfl, rfl, h⟩⟩,
    ⟨rfl, rfl, rfl, ⟨rfl, rfl, rfl, h⟩, ⟨rfl, rfl, rfl, h⟩⟩, ⟨rfl, rfl, rfl, ⟨rfl, rfl, rfl, h⟩⟩, trivial⟩

/-- The struct. -/
def struct (E S : Type) : Struct E S (Int ⊕ S) :=
  match Struct.new (fields E S) with
  | .ok s => s
  | .error _ => {}

theorem struct_new (E S : Type) : Struct.new (fields E S) = .ok (struct E S) := rfl

/-- The declaration is accepted, and the derived decoders agree. -/
example (g : S → T) : NodeAgrees g (FVal.map (Sum.map id g)) (struct Unit S).node (struct Unit T).node := by
  have h := c65_struct (fields_agree (E := Unit) g)
  rw [struct_new, struct_new] at h
  exact h.1

/-- The node `k 5 p="abc" { c 7; z }`, with numbers as spans. -/
def node : SpannedNode Nat :=
  ⟨10, .mk none ⟨11, ['k']⟩ [⟨none, ⟨12, .int .dec ['5']⟩⟩] [(⟨13, ['p']⟩, ⟨none, ⟨14, .string ['a', 'b', 'c']⟩⟩)]
    (some ⟨15, [⟨16, .mk none ⟨17, ['c']⟩ [⟨none, ⟨18, .int .dec ['7']⟩⟩] [] none⟩, ⟨19, .mk none ⟨20, ['z']⟩ [] [] none⟩]⟩)⟩

/-- It is decoded, and the spans in the value are those of the node. -/
example : (struct Unit Nat).node node ⟨[], ()⟩ = .ok (.record [(fld 's', .leaf (.inr 10)), (fld 'a', .leaf (.inl 5)),
    (fld 'p', .leaf (.inl 3)), (fld 'c', .leaf (.inl 7)), (fld 'w', .list [.leaf (.inr 19)])]) ⟨[], ()⟩ := rfl

/-- Variants of an enum. -/
def variants (E S : Type) : List (VariantDef E S (Int ⊕ S)) :=
  [⟨['k'], false, .unnamed (fields E S)⟩, ⟨['u'], false, .unit⟩, ⟨['v'], true, .unit⟩]

theorem variants_agree (g : S → T) : Listwise (VariantDef.Agrees g (Sum.map id g)) (variants E S) (variants E T) :=
  ⟨⟨rfl, rfl, fields_agree g⟩, ⟨rfl, rfl, trivial⟩, ⟨rfl, rfl, trivial⟩, trivial⟩

example : ∃ vs, enumVariants (variants Unit Nat) = .ok vs ∧ vs.length = 2 := ⟨_, rfl, rfl⟩
example (g : S → T) : NodeAgrees g (FVal.map (Sum.map id g)) (newTypeNode (struct Unit S).node) (newTypeNode (struct Unit T).node) := by
  have h := c65_struct (fields_agree (E := Unit) g)
  rw [struct_new, struct_new] at h
  exact c65_newtype h.1
end NaturalDemo

/-! ### The types of the library -/

section
variable {g : S → T}

/-- **C65** for the scalars. -/
theorem c65_scalars :
    (∀ ptr t, (intScalar (E := E) (S := S) ptr t).Agrees g id (intScalar ptr t)) ∧
    (∀ (t : FloatTy) (round : Str → α) zero, (floatScalar (E := E) (S := S) t round zero).Agrees g id (floatScalar t round zero)) ∧
    (stringScalar (E := E) (S := S)).Agrees g id stringScalar ∧
    (pathBufScalar (E := E) (S := S)).Agrees g id pathBufScalar ∧
    (arcPathScalar (E := E) (S := S)).Agrees g id arcPathScalar ∧
    (arcStrScalar (E := E) (S := S)).Agrees g id arcStrScalar ∧
    (boolScalar (E := E) (S := S)).Agrees g id boolScalar ∧
    (literalScalar (E := E) (S := S)).Agrees g id literalScalar :=
  ⟨intScalar_agrees, floatScalar_agrees, .provided (.noTypeCheck _) .textRaw, .provided (.noTypeCheck _) .textRaw,
    .provided (.noTypeCheck _) .textRaw, .provided (.noTypeCheck _) .textRaw, boolScalar_agrees,
    .provided (fun _ => .pure ()) fun x => .pure x.value⟩

/-- **C65** for `Option`, `Box`, `Arc`, `Rc` and `Spanned` around scalars. -/
theorem c65_wrapped_scalars {h : α → β} {d : Scalar E S α} {d' : Scalar E T β} (hd : d.Agrees g h d') :
    (optionScalar d).Agrees g (Option.map h) (optionScalar d') ∧
    (∀ k, (ptrScalar k d).Agrees g (Ptr.mapValue h) (ptrScalar k d')) ∧
    (∀ (q : Q → R) ds ds', SpanAgrees g q ds ds' →
      (spannedScalar ds d).Agrees g (fun x => ⟨q x.span, h x.value⟩) (spannedScalar ds' d')) :=
  ⟨optionScalar_agrees hd, fun k => ptrScalar_agrees k hd, fun _ _ _ hs => spannedScalar_agrees hs hd⟩

/-- **C65** for smart pointers and vectors. -/
theorem c65_containers {h : α → β} {d : NodeDecoder E S α} {d' : NodeDecoder E T β} (hd : NodeAgrees g h d d') :
    (∀ k, NodeAgrees g (Ptr.mapValue h) (ptrNode k d) (ptrNode k d')) ∧
    ChildrenAgree g (List.map h) (vecChildren d) (vecChildren d') :=
  ⟨fun k => ptrNode_agrees k hd, vecChildren_agree hd⟩

/-- **C65** for smart pointers around documents and flattened structs. -/
theorem c65_pointers {h : α → β} :
    (∀ (d : ChildrenDecoder E S α) (d' : ChildrenDecoder E T β), ChildrenAgree g h d d' →
      ∀ k, ChildrenAgree g (Ptr.mapValue h) (ptrChildren k d) (ptrChildren k d')) ∧
    (∀ (d : Partial E S α) (d' : Partial E T β), d.Agrees g h d' →
      (ptrPartial d).Agrees g (Ptr.mapValue h) (ptrPartial d')) :=
  ⟨fun _ _ hd k => ptrChildren_agree k hd, fun _ _ hd => ptrPartial_agrees hd⟩

/-- **C65** for the types of the syntax tree. -/
theorem c65_ast {q : Q → R} {ds : SpanDecoder E S Q} {ds' : SpanDecoder E T R} (hs : SpanAgrees g q ds ds') :
    (valueScalar ds).Agrees g (Value.mapSpan q) (valueScalar ds') ∧
    NodeAgrees g (Node.mapSpan q) (astNodeDecoder ds) (astNodeDecoder ds') ∧
    NodeAgrees g (mapNode q) (astSpannedDecoder ds) (astSpannedDecoder ds') :=
  ⟨valueScalar_agrees hs, astNodeDecoder_agrees hs, astSpannedDecoder_agrees hs⟩

/-- **C65** for spans: the span of the tree itself, and a byte span taken from a line span. -/
theorem c65_spans :
    SpanAgrees (E := E) g g SpanDecoder.same SpanDecoder.same ∧
    SpanAgrees (E := E) LinePos.toOffsetSpan id SpanDecoder.lineToByte SpanDecoder.same :=
  ⟨fun _ _ => rfl, fun _ _ => rfl⟩
end

/-! ### From the text -/

section
open NaturalDemo Demo
variable {Ty : TypeId → Type}

/-- Parsing and decoding in one go follows the decoders. -/
theorem decodeParsed_map {O O' : Type} {g : Sp O → Sp O'} {h : α → β}
    {set : Ctx (Extensions Ty) (Sp O) → Ctx (Extensions Ty) (Sp O)}
    {set' : Ctx (Extensions Ty) (Sp O') → Ctx (Extensions Ty) (Sp O')}
    (hset : set' Ctx.new = (set Ctx.new).mapSpan g)
    {d : ChildrenDecoder (Extensions Ty) (Sp O) α} {d' : ChildrenDecoder (Extensions Ty) (Sp O') β}
    (hd : ChildrenAgree g h d d') (doc : Document (Sp O)) :
    decodeParsed (some (.ok (doc.mapSpan g))) set' d' = mapResult g h (decodeParsed (some (.ok doc)) set d) := by
  have hn : (doc.mapSpan g).nodes = doc.nodes.map (mapNode g) := mapNodes_eq g doc.nodes
  simp only [decodeParsed]
  rw [hset, hn, hd doc.nodes (set Ctx.new)]
  cases d doc.nodes (set Ctx.new) with
  | ok v c =>
    obtain ⟨es, ex⟩ := c
    cases es with
    | nil => rfl
    | cons e es => simp [Out.mapSpan, Ctx.mapSpan, Ctx.hasErrors, Ctx.intoErrors, mapResult, AnyErr.mapSpan]
  | err e c => simp [Out.mapSpan, Ctx.mapSpan, Ctx.emitError, Ctx.intoErrors, mapResult, AnyErr.mapSpan]
  | panic => rfl

/-- **C65**, span types: `parse` with byte spans gives what `parse` with line
spans gives, every span replaced by its byte offsets — the same value, or the
same errors of the parser or of the decoder. -/
theorem c65_line (width : Char → Nat) (strWidth : Str → Nat) {h : α → β}
    {set : Ctx (Extensions Ty) (Sp LinePos) → Ctx (Extensions Ty) (Sp LinePos)}
    {set' : Ctx (Extensions Ty) (Sp Nat) → Ctx (Extensions Ty) (Sp Nat)}
    (hset : set' Ctx.new = (set Ctx.new).mapSpan LinePos.toOffsetSpan)
    {d : ChildrenDecoder (Extensions Ty) (Sp LinePos) α} {d' : ChildrenDecoder (Extensions Ty) (Sp Nat) β}
    (hd : ChildrenAgree LinePos.toOffsetSpan h d d') (text : Str) :
    parseWithContext set' d' text =
      mapResult LinePos.toOffsetSpan h (parseWithContextLine width strWidth set d text) := by
  unfold parseWithContext parseWithContextLine
  rcases c21_line_agrees width strWidth text with ⟨doc, h1, h2⟩ | ⟨es, h1, h2⟩
  · rw [h1, h2]
    exact decodeParsed_map hset hd doc
  · rw [h1, h2]
    simp [decodeParsed, mapResult, AnyErr.mapSpan]

/-- **C65**, layout: texts that are parsed to the same document up to spans are
decoded to the same value up to spans, or fail with the same errors up to spans. -/
theorem c65_same_document {h : α → β} {d : ChildrenDecoder (Extensions Ty) (Sp Nat) α}
    {d0 : ChildrenDecoder (Extensions Ty) (Sp Unit) β} (hd : ChildrenAgree blankSpan h d d0) {t1 t2 : Str}
    {doc1 doc2 : Document (Sp Nat)} (h1 : parseAst t1 = some (.ok doc1)) (h2 : parseAst t2 = some (.ok doc2))
    (he : doc1.erase = doc2.erase) :
    mapResult blankSpan h (parseDecode d t1) = mapResult blankSpan h (parseDecode d t2) := by
  have key : ∀ doc : Document (Sp Nat), doc.mapSpan blankSpan = doc.erase.mapSpan fun _ => (⟨(), ()⟩ : Sp Unit) := by
    intro doc
    exact congrArg Document.mk (nodes_map_map (fun _ => ()) (fun _ => (⟨(), ()⟩ : Sp Unit)) doc.nodes).symm
  have hset : (id (Ctx.new : Ctx (Extensions Ty) (Sp Unit))) = (id (Ctx.new : Ctx (Extensions Ty) (Sp Nat))).mapSpan blankSpan := rfl
  unfold parseDecode parseWithContext
  rw [h1, h2, ← decodeParsed_map hset hd, ← decodeParsed_map hset hd, key, key, he]

/-- **C65** with C04 and C05: the white space, comments, terminators and
commented-out elements of an accepted text can be changed without changing what
it is decoded to. -/
theorem c65_layout {h : α → β} {d : ChildrenDecoder (Extensions Ty) (Sp Nat) α}
    {d0 : ChildrenDecoder (Extensions Ty) (Sp Unit) β} (hd : ChildrenAgree blankSpan h d d0) {b1 b2 : BodyC}
    (h1 : b1.Ok true []) (h2 : b2.Ok true []) (he : b1.undash.plain = b2.undash.plain) :
    mapResult blankSpan h (parseDecode d b1.text) = mapResult blankSpan h (parseDecode d b2.text) := by
  obtain ⟨d1, d2, p1, p2, p3⟩ := c05_slashdash b1 b2 h1 h2 he
  exact c65_same_document hd p1 p2 p3

/-- The texts `a true` / `b` in two lines, and the same in another layout, decoded
to nodes of the syntax tree. -/
example : mapResult blankSpan (List.map (mapNode blankSpan))
      (parseDecode (T := Ty) (vecChildren (astSpannedDecoder SpanDecoder.same)) demo1.text) =
    mapResult blankSpan (List.map (mapNode blankSpan))
      (parseDecode (T := Ty) (vecChildren (astSpannedDecoder SpanDecoder.same)) demo3.text) :=
  c65_layout (d0 := vecChildren (astSpannedDecoder SpanDecoder.same))
    (c65_containers (c65_ast c65_spans.1).2.2).2 demo1_ok demo3_ok rfl

/-- The struct above as the element of a vector: layout and span types do not matter. -/
example (b : BodyC) (hb : b.Ok true []) (hp : b.undash.plain = demo1.undash.plain) :
    mapResult blankSpan (List.map (FVal.map (Sum.map id blankSpan)))
      (parseDecode (T := Ty) (vecChildren (NaturalDemo.struct _ _).node) b.text) =
    mapResult blankSpan (List.map (FVal.map (Sum.map id blankSpan)))
      (parseDecode (T := Ty) (vecChildren (NaturalDemo.struct _ _).node) demo1.text) := by
  have h := c65_struct (fields_agree (E := Extensions Ty) (blankSpan (O := Nat)))
  rw [struct_new, struct_new] at h
  exact c65_layout (c65_containers h.1).2 hb demo1_ok hp

/-- **C65** with C24: a byte order mark before an accepted text moves the spans
in the result by three bytes and changes nothing else. -/
theorem c65_bom {h : α → α} {d : ChildrenDecoder (Extensions Ty) (Sp Nat) α}
    (hd : ChildrenAgree (fun s => ⟨s.start + 3, s.stop + 3⟩) h d d) {text : Str} {doc : Document (Sp Nat)}
    (ht : parseAst text = some (.ok doc)) :
    parseDecode d ('﻿' :: text) = mapResult (fun s => ⟨s.start + 3, s.stop + 3⟩) h (parseDecode d text) := by
  have h2 := (c24_bom text _).2 ⟨doc, ht, rfl⟩
  unfold parseDecode parseWithContext
  rw [ht, h2]
  exact decodeParsed_map rfl hd doc

example : parseDecode (T := Ty) (vecChildren (NaturalDemo.struct _ _).node) ('\uFEFF' :: demo1.text) =
    mapResult (fun s => ⟨s.start + 3, s.stop + 3⟩) (List.map (FVal.map (Sum.map id fun s => ⟨s.start + 3, s.stop + 3⟩)))
      (parseDecode (T := Ty) (vecChildren (NaturalDemo.struct _ _).node) demo1.text) := by
  have h := c65_struct (fields_agree (E := Extensions Ty) (fun s : Sp Nat => (⟨s.start + 3, s.stop + 3⟩ : Sp Nat)))
  rw [struct_new] at h
  exact c65_bom (c65_containers h.1).2 (c06_accepted _ demo1 demo1_ok rfl)
end

end Knuffel
