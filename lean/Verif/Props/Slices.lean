import Verif.Theory.Slices
import Verif.Props.Layout
import Verif.Props.Meaning
/-!
# The text that a span covers

C66: the span of a part of a document covers exactly the text of this part.
-/

namespace Knuffel
open Cst

/-- The text is that of one node, `n` (without its spans). -/
def Means (text : Str) (n : Node Unit) : Prop :=
  ∃ d, parseAst text = some (.ok d) ∧ d.erase = ⟨[⟨(), n⟩]⟩

/-- A text is cut out by a span in at most one way. -/
theorem covers_unique {text w w' : Str} {s : Sp Nat} (h : Covers text s w) (h' : Covers text s w') : w = w' := by
  obtain ⟨u, v, rfl, rfl⟩ := h
  obtain ⟨u', v', h1, h2⟩ := h'
  have key : ∀ {a b a' b' : Str}, a ++ b = a' ++ b' → byteLen a = byteLen a' → a = a' ∧ b = b' := by
    intro a
    induction a with
    | nil =>
      intro b a' b' h hl
      cases a' with
      | nil => exact ⟨rfl, h⟩
      | cons x a' =>
        have := x.utf8Size_pos
        simp only [byteLen] at hl
        omega
    | cons y a ih =>
      intro b a' b' h hl
      cases a' with
      | nil =>
        have := y.utf8Size_pos
        simp only [byteLen] at hl
        omega
      | cons x a' =>
        simp only [List.cons_append, List.cons.injEq] at h
        obtain ⟨rfl, h⟩ := h
        simp only [byteLen] at hl
        obtain ⟨rfl, rfl⟩ := ih h (by omega)
        exact ⟨rfl, rfl⟩
  simp only [Sp.mk.injEq] at h2
  obtain ⟨h3, h4⟩ := h2
  obtain ⟨e1, -⟩ := key h1 (by rw [byteLen_append, byteLen_append]; exact h4)
  exact (key e1 h3).2

/-- **C66.** The characters that the span of a node covers — of a node at any depth — are the text of
this node alone: parsed by themselves they give this node and nothing else, with all its spans, only
moved to the beginning of the text.  (Proviso: the text does not contain the characters `/*/`; see C19.) -/
theorem c66_node (text : Str) (d : Document (Sp Nat)) (h : parseAst text = some (.ok d)) (ht : NoTie text)
    (n : SpannedNode (Sp Nat)) (hn : Occurs n d.nodes) :
    ∃ w, Covers text n.span w ∧ ∃ d', parseAst w = some (.ok d') ∧ d'.mapSpan (Sp.moved n.span.start) = ⟨[n]⟩ := by
  obtain ⟨c, p, v, ha, hok, rfl⟩ := document_at_strict ht h hn
  have hs : (c.value (byteSpan text) p).span = byteSpan text p (p + c.text.length) := by
    obtain ⟨ty, name, items, children, space, term⟩ := c
    rfl
  have hb : (BodyC.cons [] none c (.nil [])).Ok true [] := by
    simp only [BodyC.Ok, LinesOk, DashOk, BodyC.text, linesText, List.flatMap_nil, List.append_nil, true_and, and_true]
    exact NodeC.Ok.cut Cut.nil c hok
  have htx : (BodyC.cons [] none c (.nil [])).text = c.text := by simp [BodyC.text, linesText, dashText]
  refine ⟨c.text, by rw [hs]; exact ha.covers rfl, _, parse_complete _ hb htx, ?_⟩
  have hm := node_map (str := true) (fol := v) c (moved_byteSpan ha (n := (c.value (byteSpan text) p).span.start) (by rw [hs]; rfl))
    (Nat.le_refl _) hok
  simp only [Document.mapSpan, BodyC.value, linesText, dashText, List.flatMap_nil, List.append_nil, List.length_nil,
    Nat.add_zero, mapNodes, Document.mk.injEq, List.cons.injEq, and_true]
  have h1 := hm.1
  simp only [Spanned.mapSpan, Spanned.mk.injEq, and_true] at h1
  rw [hm.2, h1]

/-- **C66.** The span of a node begins at the parenthesis of its type annotation, if it has one,
otherwise at its name; the characters it covers end with a semicolon or a newline character, or are the
last ones of the text. -/
theorem c66_extent (text : Str) (d : Document (Sp Nat)) (h : parseAst text = some (.ok d))
    (n : SpannedNode (Sp Nat)) (hn : Occurs n d.nodes) :
    n.span.start = n.value.begins ∧
    ∃ w, Covers text n.span w ∧ ((∃ w' c, w = w' ++ [c] ∧ (c = ';' ∨ c ∈ newlineChars)) ∨ n.span.stop = byteLen text) := by
  obtain ⟨⟨ty, name, items, children, space, term⟩, p, v, ha, hok, rfl⟩ := document_at h hn
  have hcov := ha.covers rfl
  constructor
  · cases ty with
    | none => simp [NodeC.value, Node.begins, Node.typeName, Node.nodeName, tyValue, tyText, byteSpan]
    | some t => simp [NodeC.value, Node.begins, Node.typeName, tyValue, byteSpan]
  · refine ⟨_, hcov, ?_⟩
    obtain ⟨h1, h2, h3, h4, h5, h6, h7, h8⟩ := hok
    have hnl : ∀ n : Newline, ∃ a c, n.text = a ++ [c] ∧ c ∈ newlineChars := by
      intro n
      cases n
      · exact ⟨[], '\n', rfl, by decide⟩
      · exact ⟨['\r'], '\n', rfl, by decide⟩
      · exact ⟨[], '\r', rfl, by decide⟩
      · exact ⟨[], '\x0c', rfl, by decide⟩
      · exact ⟨[], '\u0085', rfl, by decide⟩
      · exact ⟨[], '\u2028', rfl, by decide⟩
      · exact ⟨[], '\u2029', rfl, by decide⟩
    have hend : v = [] → (byteSpan text p (p + (NodeC.mk ty name items children space term).text.length)).stop = byteLen text := by
      rintro rfl
      obtain ⟨u, h1, h2⟩ := ha
      have : p + (NodeC.mk ty name items children space term).text.length = text.length := by
        rw [h1, ← h2]; simp
      rw [this]
      simp [byteSpan]
    cases term with
    | semicolon => exact .inl ⟨_, ';', by rw [NodeC.text]; rfl, .inl rfl⟩
    | newline n =>
      obtain ⟨a, c, e, hc⟩ := hnl n
      exact .inl ⟨tyText ty ++ name.text ++ itemsText items ++ children.text ++ spacesText space ++ a, c,
        by rw [NodeC.text, Term.text, e]; simp, .inr hc⟩
    | eof => exact .inr (hend h8)
    | comment c =>
      cases hst : c.stop with
      | none =>
        have := h8.2
        rw [hst] at this
        exact .inr (hend this)
      | some n =>
        obtain ⟨a, x, e, hc⟩ := hnl n
        exact .inl ⟨tyText ty ++ name.text ++ itemsText items ++ children.text ++ spacesText space ++ ('/' :: '/' :: c.body ++ a), x,
          by rw [NodeC.text, Term.text, LineComment.text, hst, stopText, e]; simp, .inr hc⟩

/-- **C66.** The span of a children block covers the block from brace to brace, and what stands between
the braces, parsed by itself, gives the child nodes. -/
theorem c66_block (text : Str) (d : Document (Sp Nat)) (h : parseAst text = some (.ok d)) (ht : NoTie text)
    (n : SpannedNode (Sp Nat)) (hn : Occurs n d.nodes) (c : Spanned (List (SpannedNode (Sp Nat))) (Sp Nat))
    (hc : n.value.children = some c) :
    ∃ w, Covers text c.span ('{' :: w ++ ['}']) ∧
      ∃ d', parseAst w = some (.ok d') ∧ d'.mapSpan (Sp.moved (c.span.start + 1)) = ⟨c.value⟩ := by
  obtain ⟨b, p, v, ha, hok, rfl⟩ := node_block (document_at_strict ht h hn) hc
  refine ⟨b.text, ha.covers rfl, _, parse_complete b (BodyC.Ok.cut Cut.nil b hok) rfl, ?_⟩
  have hb : Stands text (p + 1) b.text ('}' :: v) := ha.sub ['{'] b.text ['}'] (by simp)
  have hp : byteLen (text.take (p + 1)) = (byteSpan text p (p + ('{' :: b.text ++ ['}']).length)).start + 1 := by
    obtain ⟨u, rfl, rfl⟩ := ha
    simp only [byteSpan]
    rw [List.take_length_add_append, List.take_left, byteLen_append]
    rfl
  have := body_map (str := true) (fol := '}' :: v) b (moved_byteSpan hb hp) (Nat.le_refl _) hok
  simp only [Document.mapSpan, this]

theorem means_node {text : Str} {c : NodeC} {n : Node Unit} (hok : c.Ok true []) (ht : c.text = text)
    (hn : (c.value (fun _ _ => ()) 0).value = n) : Means text n := by
  obtain ⟨d, h1, h2⟩ := body_erase (text := text) (b := .cons [] none c (.nil []))
    (by simpa [BodyC.Ok, LinesOk, DashOk, BodyC.text, linesText] using hok)
    (by simp [BodyC.text, linesText, dashText, ht])
  refine ⟨d, h1, ?_⟩
  rw [h2, BodyC.meaning]
  simp only [BodyC.value, linesText, dashText, List.flatMap_nil, List.append_nil, List.length_nil, Nat.add_zero, ← hn]

theorem bare_n : (Name.bare ['n']).Ok ∧ (Name.bare ['t']).Ok := by
  constructor <;> (refine ⟨.inr (.inr ⟨.inl ⟨by decide, by decide, by decide, by decide⟩, by decide⟩), by decide⟩)

theorem erase_val {text : Str} {c : Val} {p q : Nat} {v : Str} (_ : Stands text p c.text v) :
    c.value (fun _ _ => ()) q = (c.value (byteSpan text) p).mapSpan (fun _ => ()) := by
  exact (val_map (g := fun _ : Sp Nat => ()) (f := byteSpan text) (f' := fun _ _ => ()) (p := p) (p' := q) (n := c.text.length)
    (fun _ _ _ _ _ _ _ _ _ => rfl) (Nat.le_refl _)).symm

/-- **C66.** The span of a value — from the type annotation, if there is one, to the end of the literal —
covers exactly the text of the value: written as the argument of a node, these characters give this
value.  This holds of the arguments and of the values of properties, of nodes at any depth. -/
theorem c66_value (text : Str) (d : Document (Sp Nat)) (h : parseAst text = some (.ok d))
    (n : SpannedNode (Sp Nat)) (hn : Occurs n d.nodes) (x : Value (Sp Nat))
    (hx : x ∈ n.value.arguments ∨ ∃ k, (k, x) ∈ n.value.properties) :
    ∃ w, Covers text x.whole w ∧
      Means (['n', ' '] ++ w) (.mk none ⟨(), ['n']⟩ [x.mapSpan (fun _ => ())] [] none) := by
  have hat := document_at h hn
  obtain ⟨c, p, v, ha, hok, rfl⟩ : ValAt text x := by
    rcases hx with hx | ⟨k, hx⟩
    · exact node_args hat x hx
    · exact (node_props hat _ hx).2
  refine ⟨c.text, by rw [val_whole]; exact ha.covers rfl, ?_⟩
  refine means_node (c := .mk none (.bare ['n']) [⟨[.ws (.char ' ')], none, .arg c⟩] .none [] .eof) ?_ ?_ ?_
  · refine ⟨trivial, bare_n.1, (show some 'n' ≠ some '\ufeff' by decide), ?_, ⟨⟨by simp, ⟨?_, trivial⟩, trivial, hok⟩, trivial⟩, by rw [ChildrenC.Ok]; trivial, trivial, rfl⟩
    · show some ' ' ≠ some '\ufeff'
      decide
    · show (' ' : Char) ∈ wsChars
      decide
  · simp [NodeC.text, ChildrenC.text, tyText, Name.text, itemsText, Item.text, spacesText, Space.text, Ws.text, dashText,
      Entry.text, Term.text]
  · simp only [NodeC.value, tyValue, itemsArgs, itemsProps, propMap, List.foldl_nil, ChildrenC.value, Name.value, erase_val ha]

/-- **C66.** The span of the name of a property covers the name as it is written: with `=` and the text
of the value after it, it gives this property.  (When a property is written twice, the map keeps the
name of the first and the value of the last one.) -/
theorem c66_property (text : Str) (d : Document (Sp Nat)) (h : parseAst text = some (.ok d))
    (n : SpannedNode (Sp Nat)) (hn : Occurs n d.nodes) (k : Spanned Str (Sp Nat)) (x : Value (Sp Nat))
    (hx : (k, x) ∈ n.value.properties) :
    ∃ wk wx, Covers text k.span wk ∧ Covers text x.whole wx ∧
      Means (['n', ' '] ++ wk ++ ['='] ++ wx) (.mk none ⟨(), ['n']⟩ [] [(⟨(), k.value⟩, x.mapSpan (fun _ => ()))] none) := by
  obtain ⟨⟨ck, pk, vk, hak, hokk, hk⟩, ⟨c, p, v, ha, hok, hx'⟩⟩ := node_props (document_at h hn) _ hx
  simp only at hk hx'
  subst hk hx'
  refine ⟨ck.text, c.text, hak.covers rfl, by rw [val_whole]; exact ha.covers rfl, ?_⟩
  refine means_node (c := .mk none (.bare ['n']) [⟨[.ws (.char ' ')], none, .prop ck c⟩] .none [] .eof) ?_ ?_ ?_
  · refine ⟨trivial, bare_n.1, (show some 'n' ≠ some '\ufeff' by decide), ?_, ⟨⟨by simp, ⟨?_, trivial⟩, trivial, hokk, hok⟩, trivial⟩, by rw [ChildrenC.Ok]; trivial, trivial, rfl⟩
    · show some ' ' ≠ some '\ufeff'
      decide
    · show (' ' : Char) ∈ wsChars
      decide
  · simp [NodeC.text, ChildrenC.text, tyText, Name.text, itemsText, Item.text, spacesText, Space.text, Ws.text, dashText,
      Entry.text, Term.text]
  · simp only [NodeC.value, tyValue, itemsArgs, itemsProps, propMap, List.foldl_nil, List.foldl_cons, propInsert, ChildrenC.value,
      Name.value, erase_val ha]

/-- **C66.** The span of the name of a node covers the name as it is written.  (It is put after a type
annotation here, because in that place only a bare name may begin with a byte order mark.) -/
theorem c66_name (text : Str) (d : Document (Sp Nat)) (h : parseAst text = some (.ok d))
    (n : SpannedNode (Sp Nat)) (hn : Occurs n d.nodes) :
    ∃ w, Covers text n.value.nodeName.span w ∧
      Means (['(', 't', ')'] ++ w) (.mk (some ⟨(), .custom ['t']⟩) ⟨(), n.value.nodeName.value⟩ [] [] none) := by
  obtain ⟨⟨ty, name, items, children, space, term⟩, p, v, ha, hok, rfl⟩ := document_at h hn
  obtain ⟨h1, h2, h3, h4, h5, h6, h7, h8⟩ := hok
  have ha' := ha.sub (tyText ty) name.text (itemsText items ++ children.text ++ spacesText space ++ term.text) (by simp [NodeC.text])
  refine ⟨name.text, ha'.covers rfl, ?_⟩
  refine means_node (c := .mk (some (.bare ['t'])) name [] .none [] .eof) ?_ ?_ ?_
  · refine ⟨bare_n.2, h2, by cases name <;> trivial, ?_, trivial, by rw [ChildrenC.Ok]; trivial, trivial, rfl⟩
    cases name <;> simp [NameEndOk, itemsText, ChildrenC.text, spacesText, Term.text]
  · simp [NodeC.text, ChildrenC.text, tyText, Name.text, itemsText, spacesText, Term.text]
  · simp only [NodeC.value, tyValue, itemsArgs, itemsProps, propMap, List.foldl_nil, ChildrenC.value, Name.value, Node.nodeName]
    rfl

/-- **C66.** The span of a type annotation, of a node or of a value, covers the annotation with its
parentheses. -/
theorem c66_type_name (text : Str) (d : Document (Sp Nat)) (h : parseAst text = some (.ok d))
    (n : SpannedNode (Sp Nat)) (hn : Occurs n d.nodes) (t : Spanned TypeName (Sp Nat))
    (ht : n.value.typeName = some t ∨
      ∃ x : Value (Sp Nat), (x ∈ n.value.arguments ∨ ∃ k, (k, x) ∈ n.value.properties) ∧ x.typeName = some t) :
    ∃ w, Covers text t.span w ∧ w.head? = some '(' ∧ w.getLast? = some ')' ∧
      Means (w ++ ['n']) (.mk (some ⟨(), t.value⟩) ⟨(), ['n']⟩ [] [] none) := by
  have hat := document_at h hn
  obtain ⟨nm, p, v, ha, hok, rfl⟩ : ∃ (nm : Name) (p : Nat) (v : Str), Stands text p (tyText (some nm)) v ∧ nm.Ok ∧
      t = ⟨byteSpan text p (p + (tyText (some nm)).length), TypeName.fromString nm.value⟩ := by
    rcases ht with ht | ⟨x, hx, ht⟩
    · obtain ⟨⟨ty, name, items, children, space, term⟩, p, v, ha, hok, rfl⟩ := hat
      obtain ⟨h1, -⟩ := hok
      have ht' : tyValue (byteSpan text) p ty = some t := ht
      cases ty with
      | none => simp [tyValue] at ht'
      | some nm =>
        simp only [tyValue, Option.some.injEq] at ht'
        exact ⟨nm, p, _, ha.sub [] (tyText (some nm)) (name.text ++ itemsText items ++ children.text ++ spacesText space ++ term.text)
          (by simp [NodeC.text]), h1, ht'.symm⟩
    · obtain ⟨⟨ty, l⟩, p, v, ha, hok, rfl⟩ : ValAt text x := by
        rcases hx with hx | ⟨k, hx⟩
        · exact node_args hat x hx
        · exact (node_props hat _ hx).2
      have ht' : tyValue (byteSpan text) p ty = some t := ht
      cases ty with
      | none => simp [tyValue] at ht'
      | some nm =>
        simp only [tyValue, Option.some.injEq] at ht'
        exact ⟨nm, p, _, ha.sub [] (tyText (some nm)) l.text (by simp [Val.text]), hok.1, ht'.symm⟩
  refine ⟨tyText (some nm), ha.covers rfl, by simp [tyText], by simp [tyText, List.getLast?_append, List.getLast?_cons], ?_⟩
  refine means_node (c := .mk (some nm) (.bare ['n']) [] .none [] .eof) ?_ ?_ ?_
  · refine ⟨hok, bare_n.1, trivial, ?_, trivial, by rw [ChildrenC.Ok]; trivial, trivial, rfl⟩
    simp [NameEndOk, itemsText, ChildrenC.text, spacesText, Term.text]
  · simp [NodeC.text, ChildrenC.text, Name.text, itemsText, spacesText, Term.text]
  · simp only [NodeC.value, tyValue, itemsArgs, itemsProps, propMap, List.foldl_nil, ChildrenC.value, Name.value]

/-- The text of the examples. -/
def sliceText : Str := "a (t)1 k=\"ä\" k=2 { (u8)b; c true // x\n}".toList

/-- A check on the document of the text. -/
def sliceCheck (d : Document (Sp Nat)) : Bool :=
  match d.nodes with
  | [m] =>
    match m.value.children with
    | some c =>
      match c.value with
      | [_, n] => decide (n.span = ⟨27, 39⟩ ∧ c.span = ⟨18, 40⟩ ∧
          m.value.properties = [(⟨⟨7, 8⟩, ['k']⟩, ⟨none, ⟨⟨16, 17⟩, .int .dec ['2']⟩⟩)])
      | _ => false
    | none => false
  | _ => false

theorem sliceCheck_spec {d : Document (Sp Nat)} (h : sliceCheck d = true) : ∃ m a n c, d.nodes = [m] ∧
    m.value.children = some c ∧ c.value = [a, n] ∧ n.span = ⟨27, 39⟩ ∧ c.span = ⟨18, 40⟩ ∧
    m.value.properties = [(⟨⟨7, 8⟩, ['k']⟩, ⟨none, ⟨⟨16, 17⟩, .int .dec ['2']⟩⟩)] := by
  unfold sliceCheck at h
  split at h
  next m hm =>
    split at h
    next c hc =>
      split at h
      next a n hl =>
        obtain ⟨h1, h2, h3⟩ := of_decide_eq_true h
        exact ⟨m, a, n, c, hm, hc, hl, h1, h2, h3⟩
      · simp at h
    · simp at h
  · simp at h

/-- The second child of the node stands at the bytes 27 to 39, where the text is `c true // x` with its
newline; the block stands at the bytes 18 to 40; the property `k` has the span of the first `k` and the
value of the second. -/
example : ∃ d n m c, parseAst sliceText = some (.ok d) ∧ NoTie sliceText ∧ Occurs n d.nodes ∧ n.span = ⟨27, 39⟩ ∧
    Covers sliceText n.span "c true // x\n".toList ∧
    Occurs m d.nodes ∧ m.value.children = some c ∧ c.span = ⟨18, 40⟩ ∧
    m.value.properties = [(⟨⟨7, 8⟩, ['k']⟩, ⟨none, ⟨⟨16, 17⟩, .int .dec ['2']⟩⟩)] := by
  obtain ⟨d, hd, hc⟩ := of_parse (text := sliceText) sliceCheck (by decide +kernel)
  obtain ⟨m, a, n, c, h1, h2, h3, h4, h5, h6⟩ := sliceCheck_spec hc
  have hcov : Covers sliceText ⟨27, 39⟩ "c true // x\n".toList :=
    ⟨sliceText.take 26, sliceText.drop 38, by decide +kernel, by decide +kernel⟩
  have hm : Occurs m d.nodes := .here (by rw [h1]; simp)
  have hn : Occurs n d.nodes := .inside (m := m) (by rw [h1]; simp) h2 (.here (by rw [h3]; simp))
  exact ⟨d, n, m, c, hd, by unfold NoTie; decide +kernel, hn, h4, h4 ▸ hcov, hm, h2, h5, h6⟩

end Knuffel
