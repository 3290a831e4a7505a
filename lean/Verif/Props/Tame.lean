import Verif.Theory.TameSchema
import Verif.Props.Decode
import Verif.Props.Attrs
/-!
# Decoders mind their own business

C82.  What that means is in `Spec/Tame.lean`.
-/

namespace Knuffel
variable {E S V X T α β : Type}

/-! ### What comes with the library -/

/-- **C82**: numbers, texts, paths, booleans, literals and whole values, and the derived enums of names. -/
theorem c82_scalars (ptr : Nat) (t : IntTy) (f : FloatTy) {F : Type} (round : Str → F) (zero : F) (rustType : Str)
    (names : List ScalarVariant) (ds : SpanDecoder E S T) (hs : ∀ s, Tame (ds.run s)) (v : Value S) :
    Tame ((intScalar (E := E) ptr t).decode v) ∧ Tame ((floatScalar (E := E) f round zero).decode v) ∧
    Tame ((stringScalar (E := E)).decode v) ∧ Tame ((pathBufScalar (E := E)).decode v) ∧
    Tame ((arcPathScalar (E := E)).decode v) ∧ Tame ((arcStrScalar (E := E)).decode v) ∧
    Tame ((boolScalar (E := E)).decode v) ∧ Tame ((literalScalar (E := E)).decode v) ∧
    Tame ((enumScalar (E := E) (V := V) rustType names).decode v) ∧ Tame ((valueScalar ds).decode v) := by
  refine ⟨tame_provided (tame_numTypeCheck _ _) (tame_intRaw ptr t) v,
    tame_provided (tame_numTypeCheck _ _) (tame_floatRaw f round zero) v,
    tame_provided (tame_noTypeCheck _) tame_textRaw v, tame_provided (tame_noTypeCheck _) tame_textRaw v,
    tame_provided (tame_noTypeCheck _) tame_textRaw v, tame_provided (tame_noTypeCheck _) tame_textRaw v,
    tame_provided (tame_noTypeCheck _) tame_boolRaw v, tame_provided (fun _ => Tame.pure _) (fun _ => Tame.pure _) v,
    tame_provided (fun t => ?_) (fun l => ?_) v, tame_value hs v⟩
  · cases t with
    | none => exact Tame.pure _
    | some t => exact Tame.emit _
  · split
    · split
      · exact Tame.pure _
      · exact Tame.fail _
    · exact Tame.fail _

/-- **C82**: `bytes` and flags. -/
theorem c82_functions [Externals] (v : Value S) (n : SpannedNode S) :
    Tame (decodeBytes (E := E) v) ∧ Tame (checkFlagNode (E := E) n) := ⟨Tame.decodeBytes v, Tame.checkFlagNode n⟩

/-- The span decoders of the library are so. -/
example (s : Sp LinePos) : Tame ((SpanDecoder.lineToByte (E := E)).run s) ∧ Tame ((SpanDecoder.same (E := E)).run s) :=
  ⟨Tame.pure _, Tame.pure _⟩

/-- A number that is too large: an error after those there were, and 0. -/
example : (intScalar (E := Unit) (S := Nat) 64 .u8).decode ⟨none, ⟨7, .int .dec "256".toList⟩⟩ ⟨[.unsupported 1 []], ()⟩ =
    .ok 0 ⟨[.unsupported 1 [], .conversion 7 (.parseInt .posOverflow)], ()⟩ := rfl

/-- **C82**: nodes of the syntax tree. -/
theorem c82_ast (ds : SpanDecoder E S T) (hs : ∀ s, Tame (ds.run s)) (n : SpannedNode S) :
    Tame (astNodeDecoder ds n) ∧ Tame (astSpannedDecoder ds n) :=
  ⟨tame_astNode hs _, (hs _).bind fun _ => (tame_astNode hs _).bind fun _ => Tame.pure _⟩

/-- The hypothesis is met by the blanket implementation. -/
example (n : SpannedNode Nat) : Tame (astSpannedDecoder (E := E) SpanDecoder.same n) :=
  (c82_ast _ (fun _ => Tame.pure _) n).2

/-- **C82**: scalars in `Option`, in pointers and with their span, if what is inside checks its type and decodes
literals in such a way. -/
theorem c82_wrapped {d : Scalar E S α} (ht : ∀ t, Tame (d.typeCheck t)) (hr : ∀ l, Tame (d.rawDecode l)) (k : PtrKind)
    {ds : SpanDecoder E S T} (hs : ∀ s, Tame (ds.run s)) (v : Value S) :
    Tame ((optionScalar d).decode v) ∧ Tame ((ptrScalar k d).decode v) ∧ Tame ((spannedScalar ds d).decode v) := by
  refine ⟨tame_provided ht (fun l => ?_) v, tame_provided ht (fun l => tame_map _ (hr l)) v,
    tame_provided ht (fun l => (hr l).bind fun _ => (hs l.span).bind fun _ => Tame.pure _) v⟩
  split
  · exact Tame.pure _
  · exact tame_map _ (hr l)

/-- `Option<i64>`. -/
example (v : Value Nat) : Tame ((optionScalar (intScalar (E := Unit) 64 .i64)).decode v) :=
  (c82_wrapped (tame_numTypeCheck _ _) (tame_intRaw _ _) .box (ds := SpanDecoder.same) (fun _ => Tame.pure _) v).1

/-- **C82** fails for a `Value` inside these: they panic, for every literal but `null` inside an `Option`.
src/convert_ast.rs:58-66. -/
theorem c82_value_inside (ds : SpanDecoder E S T) (v : Value S) (c : Ctx E S) (k : PtrKind) :
    (v.literal.value ≠ .null → (optionScalar (valueScalar ds)).decode v c = .panic) ∧
    (ptrScalar k (valueScalar ds)).decode v c = .panic ∧ (spannedScalar ds (valueScalar ds)).decode v c = .panic := by
  refine ⟨fun h => ?_, rfl, rfl⟩
  obtain ⟨t, s, l⟩ := v
  cases l with
  | null => exact absurd rfl h
  | _ => rfl

/-- Not so by itself. -/
example : (valueScalar (E := Unit) (S := Nat) SpanDecoder.same).decode ⟨none, ⟨3, .bool true⟩⟩ ⟨[], ()⟩ =
    .ok ⟨none, ⟨3, .bool true⟩⟩ ⟨[], ()⟩ := rfl

/-- **C82**: nodes in pointers, and lists of nodes. -/
theorem c82_nodes {d : NodeDecoder E S α} (hd : ∀ n, Tame (d n)) :
    (∀ k n, Tame (ptrNode k d n)) ∧ ∀ ns, Tame (vecChildren d ns) :=
  ⟨fun _ n => tame_map _ (hd n), fun ns => tame_vecLoop hd ns []⟩

/-- **C82**: documents in pointers. -/
theorem c82_documents {d : ChildrenDecoder E S α} (hd : ∀ ns, Tame (d ns)) (k : PtrKind) (ns : List (SpannedNode S)) :
    Tame (ptrChildren k d ns) := tame_map _ (hd ns)

/-- Nested: `Vec<Arc<Node>>` in a `Box`. -/
example (ns : List (SpannedNode Nat)) :
    Tame (ptrChildren .box (vecChildren (ptrNode .arc (astNodeDecoder (E := E) SpanDecoder.same))) ns) :=
  c82_documents (c82_nodes ((c82_nodes fun n => (c82_ast SpanDecoder.same (fun _ => Tame.pure _) n).1).1 .arc)).2 .box ns

/-- **C82**: flattened fields in a pointer that is not shared. -/
theorem c82_unshared {d : Partial E S α} (hc : ∀ x n, Tame (d.insertChild x n)) (hp : ∀ x n v, Tame (d.insertProperty x n v))
    (p : Ptr α) (h : p.kind = .box ∨ p.clones = 0) :
    (∀ n, Tame ((ptrPartial d).insertChild p n)) ∧ ∀ n v, Tame ((ptrPartial d).insertProperty p n v) :=
  tame_ptrPartial hc hp p h

/-- **C82** fails if it is shared. src/containers.rs:75-76, 121-122. -/
theorem c82_shared (d : Partial E S α) (p : Ptr α) (h : p.kind ≠ .box ∧ p.clones ≠ 0) (n : SpannedNode S) (c : Ctx E S) :
    (ptrPartial d).insertChild p n c = .panic := by
  obtain ⟨k, v, m⟩ := p
  obtain ⟨h1, h2⟩ := h
  have h2 : m ≠ 0 := h2
  cases k with
  | box => exact absurd rfl h1
  | _ =>
    show (match (Ptr.getMut ⟨_, v, m⟩ : D E S α) c with | .ok a c => _ | .err e c => _ | .panic => _) = _
    simp [Ptr.getMut, h2, D.panic]

/-- Both cases occur. -/
example : ((Ptr.new .rc 5).kind = .box ∨ (Ptr.new .rc 5).clones = 0) ∧ (⟨.rc, 5, 1⟩ : Ptr Nat).kind ≠ .box ∧ (⟨.rc, 5, 1⟩ : Ptr Nat).clones ≠ 0 :=
  ⟨.inr rfl, by decide, by decide⟩

/-! ### What is derived -/

section
variable [Externals]

/-- **C82**: what is derived for a struct: for a node, for a document, and as a flattened part of another struct. -/
theorem c82_struct {s : Struct E S V} (h : s.Tame) : (∀ n, Tame (s.node n)) ∧ (∀ ns, Tame (s.root ns)) ∧
    (∀ x n, Tame (s.part.insertChild x n)) ∧ ∀ x n v, Tame (s.part.insertProperty x n v) :=
  ⟨h.node, h.root, fun x n => Tame.insertChildArms n _ x h.children, fun x n v => Tame.insertPropertyArms n v _ x h.properties⟩

/-- **C82**: what is derived for an enum, and for a struct around an optional one. -/
theorem c82_enum {vs : List (Variant E S V)} (h : ∀ v ∈ vs, v.Tame) {inner : NodeDecoder E S (FVal V)} (hi : ∀ n, Tame (inner n))
    (n : SpannedNode S) : Tame (enumNode vs n) ∧ Tame (newTypeNode inner n) :=
  ⟨tame_enumArms _ n vs h, tame_newTypeNode hi n⟩

/-- **C82**: whatever `derive(Decode)` makes of an item, if what the types of its fields have is so. -/
theorem c82_derived (syn : Syn X T) (eval : X → FVal V) (item : Item E S V) (h : ∀ f ∈ item.fields, ∀ k, (f.impls k).Tame)
    (d : Definition E S V T) (hd : Definition.parse syn eval item = .ok d) (dec : NodeDecoder E S (FVal V))
    (hdec : d.node = .ok dec) (n : SpannedNode S) : Tame (dec n) :=
  tame_definition_node (tame_definition syn eval item h d hd) dec hdec n

/-- **C82**: whatever the other derives make of the fields of a struct. -/
theorem c82_derived_struct (syn : Syn X T) (eval : X → FVal V) (fields : List (FieldSyn E S V))
    (h : ∀ f ∈ fields, ∀ k, (f.impls k).Tame) (s : Struct E S V) (hs : Struct.parse syn eval fields = .ok s) :
    (∀ ns, Tame (s.root ns)) ∧ (∀ x n, Tame (s.part.insertChild x n)) ∧ ∀ x n v, Tame (s.part.insertProperty x n v) :=
  (c82_struct (tame_parse syn eval fields h s hs)).2

end

section
open Demo
attribute [local instance] Demo.ext

theorem Demo.num_tame : num.Tame where
  scalar v := (tame_provided (tame_numTypeCheck _ _) (tame_intRaw 64 .i64) v).bind fun _ => Tame.pure _
  node _ := Tame.pure _
  insertChild _ _ := Tame.pure _
  insertProperty _ _ _ := Tame.pure _
  span _ := Tame.pure _

theorem Demo.inner_tame : inner.Tame := by
  have := num_tame
  constructor <;> simp [inner, num_tame, num_tame.node]

theorem Demo.innerImpls_tame : innerImpls.Tame where
  scalar := num_tame.scalar
  node := num_tame.node
  insertChild x n := Tame.insertChildArms n _ x inner_tame.children
  insertProperty x n v := Tame.insertPropertyArms n v _ x inner_tame.properties
  span := num_tame.span

/-- A struct with fields of every kind, one of them flattened. -/
theorem Demo.outer_tame : outer.Tame := by
  constructor <;> simp [outer, num_tame, num_tame.node, innerImpls_tame]

/-- A variant of each kind. -/
example : ∀ v ∈ [(⟨['A'], ['a'], .unit⟩ : Variant Unit Nat Int), ⟨['B'], ['b'], .nested true num.node⟩, ⟨['C'], ['c'], .tuple outer⟩], v.Tame := by
  simp [Variant.Tame, num_tame.node, outer_tame]

/-- `#[knuffel(child, unwrap(argument))] f: u8` -/
example : ∃ d dec, Definition.parse AttrDemo.syn AttrDemo.ev (.struct [] (.named [AttrDemo.field
      [AttrDemo.attr [AttrDemo.w "child", .punct ',', AttrDemo.w "unwrap", .parens [AttrDemo.w "argument"]]]])) = .ok d ∧ d.node = .ok dec ∧
    ∀ n, Tame (dec n) := by
  have h : ∃ d, Definition.parse AttrDemo.syn AttrDemo.ev (.struct [] (.named [AttrDemo.field
      [AttrDemo.attr [AttrDemo.w "child", .punct ',', AttrDemo.w "unwrap", .parens [AttrDemo.w "argument"]]]])) = .ok d ∧ ∃ dec, d.node = .ok dec :=
    ⟨_, rfl, _, rfl⟩
  obtain ⟨d, hd, dec, hdec⟩ := h
  refine ⟨d, dec, hd, hdec, c82_derived _ _ _ ?_ d hd dec hdec⟩
  intro f hf k
  simp only [Item.fields, FieldsSyn.fields, List.mem_cons, List.not_mem_nil, or_false] at hf
  subst hf
  exact innerImpls_tame

/-- The same for a document and for a part, with `#[knuffel(property)] f: Option<u8>`. -/
example : ∃ s : Struct Unit Nat Int, Struct.parse AttrDemo.syn AttrDemo.ev
      [⟨some ['f'], AttrDemo.optU8, [AttrDemo.attr [AttrDemo.w "property"]], fun _ => innerImpls⟩] = .ok s ∧ ∀ ns, Tame (s.root ns) := by
  have h : ∃ s : Struct Unit Nat Int, Struct.parse AttrDemo.syn AttrDemo.ev
      [⟨some ['f'], AttrDemo.optU8, [AttrDemo.attr [AttrDemo.w "property"]], fun _ => innerImpls⟩] = .ok s := ⟨_, rfl⟩
  obtain ⟨s, hs⟩ := h
  exact ⟨s, hs, (c82_derived_struct _ _ _ (by simp [innerImpls_tame]) s hs).1⟩

end

/-- **C82**: every type that can be declared in the language of C72, for a node and for a document. -/
theorem c82_declared [Externals] (ptr : Nat) (d : Schema.Decl) (own : Schema.Own) (c : Schema.Content) :
    (∀ n : SpannedNode S, Tame (E := E) (d.node ptr n)) ∧
    ∀ ns : List (SpannedNode S), Tame (E := E) ((own.into ptr (c.struct ptr)).root ns) :=
  ⟨tame_decl E S ptr d, (tame_own ptr own (tame_content E S ptr c)).root⟩

/-! ### What follows -/

/-- **C82**: reading a text with such a decoder gives a value or errors, whatever the text and whatever is set in
the context before. -/
theorem c82_parse {Ty : TypeId → Type} {O : Type} {dec : ChildrenDecoder (Extensions Ty) (Sp O) α} (h : ∀ ns, Tame (dec ns))
    (setCtx : Ctx (Extensions Ty) (Sp O) → Ctx (Extensions Ty) (Sp O)) {ast : Option (Except (List (PErr O)) (Document (Sp O)))}
    (ha : ast ≠ none) : decodeParsed ast setCtx dec ≠ none := by
  unfold decodeParsed
  split
  · exact absurd rfl ha
  · simp
  · rename_i doc
    have h0 := h doc.nodes (setCtx Ctx.new).errors (setCtx Ctx.new).extensions
    split
    · split <;> simp
    · simp
    · rename_i hp
      rw [show setCtx Ctx.new = ⟨(setCtx Ctx.new).errors, (setCtx Ctx.new).extensions⟩ from rfl, h0.2] at hp
      cases hd : dec doc.nodes ⟨[], (setCtx Ctx.new).extensions⟩ <;> rw [hd] at hp h0
      · cases hp
      · cases hp
      · exact h0.1.elim

/-- **C82**: `parse`, `parse_with_context`, with either kind of spans. -/
theorem c82_parse_text {Ty : TypeId → Type} {dec : ChildrenDecoder (Extensions Ty) (Sp Nat) α} (h : ∀ ns, Tame (dec ns))
    (setCtx : Ctx (Extensions Ty) (Sp Nat) → Ctx (Extensions Ty) (Sp Nat)) (text : Str) :
    (∃ r, parseWithContext setCtx dec text = some r) ∧ ∃ r, parseDecode dec text = some r := by
  obtain ⟨r, hr⟩ := c01_parse_total text
  have ha : parseAst text ≠ none := by rw [hr]; simp
  exact ⟨Option.ne_none_iff_exists'.1 (c82_parse h setCtx ha), Option.ne_none_iff_exists'.1 (c82_parse h id ha)⟩

/-- **C82** with line spans. -/
theorem c82_parse_line {Ty : TypeId → Type} {dec : ChildrenDecoder (Extensions Ty) (Sp LinePos) α} (h : ∀ ns, Tame (dec ns))
    (setCtx : Ctx (Extensions Ty) (Sp LinePos) → Ctx (Extensions Ty) (Sp LinePos)) (width : Char → Nat) (strWidth : Str → Nat)
    (text : Str) : ∃ r, parseWithContextLine width strWidth setCtx dec text = some r := by
  obtain ⟨r, hr⟩ := c01_parse_total_line width strWidth text
  exact Option.ne_none_iff_exists'.1 (c82_parse h setCtx (by rw [hr]; simp))

/-- When reading fails there is at least one error. -/
theorem errors_ne_nil {Ty : TypeId → Type} {dec : ChildrenDecoder (Extensions Ty) (Sp Nat) α} {text : Str} {es : List (AnyErr Nat)}
    (h : parseDecode dec text = some (.error es)) : es ≠ [] := by
  rcases (c34_error_iff id dec text es).1 h with ⟨pes, hp, rfl⟩ | ⟨doc, hp, ⟨v, c, -, hc, rfl⟩ | ⟨e, c, -, rfl⟩⟩
  · simpa using ((c02_err_carries_reported text pes).1 hp).2
  · simpa using hc
  · simp

/-- The hypothesis is met by a list of nodes; without it the conclusion fails. -/
example : (∃ r, parseDecode (T := fun _ => Unit) (vecChildren (astNodeDecoder SpanDecoder.same)) "a 1".toList = some r) ∧
    parseDecode (T := fun _ => Unit) (fun _ => (D.panic : D _ _ Unit)) "a 1".toList = none :=
  ⟨(c82_parse_text (c82_nodes fun n => (c82_ast SpanDecoder.same (fun _ => Tame.pure _) n).1).2 id _).2, rfl⟩

theorem vec_each {d : NodeDecoder E S α} (h : ∀ n, Tame (d n)) (ext : E) (ns : List (SpannedNode S)) (acc : List α) (es0 : List (DErr S)) :
    ∃ vs, vecLoop d ns acc ⟨es0, ext⟩ = .ok (acc ++ vs) ⟨es0 ++ allErrors (ns.map (decodeNodeTop ext d)), ext⟩ ∧
      (allErrors (ns.map (decodeNodeTop ext d)) = [] → ns.map (decodeNodeTop ext d) = vs.map fun v => some (.ok v)) := by
  induction ns generalizing acc es0 with
  | nil => exact ⟨[], by simp [vecLoop, allErrors]; rfl, fun _ => rfl⟩
  | cons n ns ih =>
    have h0 := h n es0 ext
    simp only [vecLoop, h0.2]
    cases hd : d n ⟨[], ext⟩ with
    | panic => rw [hd] at h0; exact h0.1.elim
    | err e c =>
      rw [hd] at h0
      obtain ⟨ce, cx⟩ := c
      have hx : cx = ext := h0.1
      subst hx
      have ht : decodeNodeTop cx d n = some (.error (ce ++ [e])) := by simp only [decodeNodeTop, hd, finish]; rfl
      obtain ⟨vs, h1, h2⟩ := ih acc (es0 ++ (ce ++ [e]))
      refine ⟨vs, ?_, ?_⟩
      · simp only [Out.after, Ctx.emitError, List.append_assoc]
        rw [h1]
        simp [allErrors, ht]
      · simp [allErrors, ht]
    | ok a c =>
      rw [hd] at h0
      obtain ⟨ce, cx⟩ := c
      have hx : cx = ext := h0.1
      subst hx
      obtain ⟨vs, h1, h2⟩ := ih (acc ++ [a]) (es0 ++ ce)
      refine ⟨a :: vs, ?_, ?_⟩
      · simp only [Out.after]
        rw [h1]
        cases ce with
        | nil =>
          have ht : decodeNodeTop cx d n = some (.ok a) := by simp only [decodeNodeTop, hd, finish]; rfl
          simp [allErrors, ht]
        | cons e ce =>
          have ht : decodeNodeTop cx d n = some (.error (e :: ce)) := by simp only [decodeNodeTop, hd, finish]; rfl
          simp [allErrors, ht]
      · cases ce with
        | nil =>
          have ht : decodeNodeTop cx d n = some (.ok a) := by simp only [decodeNodeTop, hd, finish]; rfl
          intro he
          simp only [allErrors, List.map_cons, List.flatMap_cons, ht, List.nil_append] at he ⊢
          rw [h2 he]
        | cons e ce =>
          have ht : decodeNodeTop cx d n = some (.error (e :: ce)) := by simp only [decodeNodeTop, hd, finish]; rfl
          simp [allErrors, ht]

theorem allErrors_ok (vs : List α) : allErrors (vs.map fun v => (some (.ok v) : Option (Except (List (DErr S)) α))) = [] := by
  induction vs with
  | nil => rfl
  | cons v vs ih => simp [allErrors]

/-- **C82**: each of a list of nodes is decoded as if it were the only one.  If each by itself gives a value the list
consists of these; otherwise the errors are those of each, one after the other. -/
theorem c82_each {d : NodeDecoder E S α} (h : ∀ n, Tame (d n)) (ext : E) (ns : List (SpannedNode S)) :
    (∀ vs, finish (vecChildren d ns ⟨[], ext⟩) = some (.ok vs) ↔ ns.map (decodeNodeTop ext d) = vs.map fun v => some (.ok v)) ∧
    ∀ es, finish (vecChildren d ns ⟨[], ext⟩) = some (.error es) ↔ es ≠ [] ∧ es = allErrors (ns.map (decodeNodeTop ext d)) := by
  obtain ⟨ws, h1, h2⟩ := vec_each h ext ns [] []
  unfold vecChildren
  rw [h1]
  simp only [List.nil_append, finish, Ctx.hasErrors, Ctx.intoErrors]
  cases he : allErrors (ns.map (decodeNodeTop ext d)) with
  | nil =>
    have h2 := h2 he
    refine ⟨fun vs => ?_, fun es => by simp⟩
    rw [h2]
    simp only [List.isEmpty_nil, Bool.not_true, Bool.false_eq_true, if_false, Option.some.injEq, Except.ok.injEq]
    exact ⟨fun h => by rw [h], fun h => (List.map_inj_right (fun a b hab => by cases hab; rfl)).1 h⟩
  | cons e es' =>
    refine ⟨fun vs => ?_, fun es => ?_⟩
    · simp only [List.isEmpty_cons, Bool.not_false, if_true, Option.some.injEq, reduceCtorEq, false_iff]
      intro hv
      rw [hv, allErrors_ok] at he
      cases he
    · simp only [List.isEmpty_cons, Bool.not_false, if_true, Option.some.injEq, Except.error.injEq]
      exact ⟨fun h => by subst h; simp, fun h => h.2.symm⟩

/-- **C82**: so it is for a document read as a list of nodes. -/
theorem c82_each_text {Ty : TypeId → Type} {d : NodeDecoder (Extensions Ty) (Sp Nat) α} (h : ∀ n, Tame (d n)) (text : Str)
    (doc : Document (Sp Nat)) (hp : parseAst text = some (.ok doc)) (es : List (AnyErr Nat)) :
    parseDecode (vecChildren d) text = some (.error es) ↔
      es ≠ [] ∧ es = (allErrors (doc.nodes.map (decodeNodeTop (Ctx.new (T := Ty) (S := Sp Nat)).extensions d))).map .decode := by
  obtain ⟨ws, h1, -⟩ := vec_each h (Ctx.new (T := Ty) (S := Sp Nat)).extensions doc.nodes [] []
  unfold parseDecode parseWithContext decodeParsed
  rw [hp]
  have hc : (id Ctx.new : Ctx (Extensions Ty) (Sp Nat)) = ⟨[], (Ctx.new (T := Ty) (S := Sp Nat)).extensions⟩ := rfl
  simp only [vecChildren, hc, h1, List.nil_append, Ctx.hasErrors, Ctx.intoErrors]
  generalize allErrors (doc.nodes.map (decodeNodeTop (Ctx.new (T := Ty) (S := Sp Nat)).extensions d)) = el
  cases el with
  | nil => simp
  | cons e l =>
    simp only [List.isEmpty_cons, Bool.not_false, if_true, Option.some.injEq, Except.error.injEq]
    exact ⟨fun h => by subst h; simp, fun h => h.2.symm⟩

/-- Two of three nodes are no flags: three errors in all. -/
example : (parseDecode (T := fun _ => Unit) (vecChildren checkFlagNode) "a 1\nb\nc k=2 { d; }".toList).map (fun r => match r with
    | .ok _ => 0 | .error es => es.length) = some 3 ∧ ∀ n : SpannedNode (Sp Nat), Tame (E := Extensions fun _ => Unit) (checkFlagNode n) :=
  ⟨by decide +kernel, Tame.checkFlagNode⟩

end Knuffel
