import Verif.Theory.Edit
import Verif.Props.Slices
/-!
# Editing a text

C68: other nodes in the place of a node, another value in the place of a value.
-/

namespace Knuffel
open Cst

theorem split_unique {a b a' b' : Str} (h : a ++ b = a' ++ b') (hl : byteLen a = byteLen a') : a = a' ∧ b = b' := by
  induction a generalizing a' with
  | nil =>
    cases a' with
    | nil => exact ⟨rfl, h⟩
    | cons x a' =>
      have := x.utf8Size_pos
      simp only [byteLen] at hl
      omega
  | cons y a ih =>
    cases a' with
    | nil =>
      have := y.utf8Size_pos
      simp only [byteLen] at hl
      omega
    | cons x a' =>
      simp only [List.cons_append, List.cons.injEq] at h
      obtain ⟨rfl, h⟩ := h
      simp only [byteLen] at hl
      obtain ⟨rfl, rfl⟩ := ih h (by omega)
      exact ⟨rfl, rfl⟩

/-- The characters `w` stand between `u` and `v`, where the span says. -/
structure Between (text u w v : Str) (s : Sp Nat) : Prop where
  text : text = u ++ w ++ v
  span : s = ⟨byteLen u, byteLen u + byteLen w⟩

theorem between_unique {text u w v u' w' v' : Str} {s : Sp Nat} (h : Between text u w v s) (h' : Between text u' w' v' s) :
    u = u' ∧ w = w' ∧ v = v' := by
  obtain ⟨rfl, rfl⟩ := h
  obtain ⟨h1, h2⟩ := h'
  simp only [Sp.mk.injEq] at h2
  obtain ⟨e1, e2⟩ := split_unique h1 (by rw [byteLen_append, byteLen_append]; exact h2.2)
  obtain ⟨e3, e4⟩ := split_unique e1 h2.1
  exact ⟨e3, e4, e2⟩

theorem byteSpan_between {text a w z : Str} (h : text = a ++ (w ++ z)) :
    Between text a w z (byteSpan text a.length (a.length + w.length)) := by
  subst h
  refine ⟨by simp, ?_⟩
  unfold byteSpan
  rw [List.take_left, ← List.append_assoc, ← List.length_append, List.take_left, byteLen_append]

/-- The tree of a node, and what may stand in its place. -/
theorem replace_at {text u w v : Str} {d : Document (Sp Nat)} {n : SpannedNode (Sp Nat)} (h : parseAst text = some (.ok d))
    (ht : NoTie text) (hn : Occurs n d.nodes) (hs : Between text u w v n.span) :
    ∃ c : NodeC, c.text = w ∧ c.Ok true v ∧ n = c.value (byteSpan text) u.length ∧
      ∀ y : BodyC, Fill v y → ∃ d', parseAst (u ++ y.text ++ v) = some (.ok d') ∧
        Replaced n (y.value (fun _ _ => ()) 0) d.nodes (forget d'.nodes) := by
  obtain ⟨b, h1, h2, h3⟩ := parse_sound h
  have h1' := BodyC.Ok.strict b h1 (by rw [h2]; exact ht)
  rw [h3] at hn
  obtain ⟨c, A, Z, e1, e2, e3, hr⟩ := edit_body (byteSpan text) b h1' hn
  rw [Nat.zero_add] at e2
  rw [List.append_nil] at e3 hr
  have hsp : n.span = byteSpan text A.length (A.length + c.text.length) := by
    rw [e2]
    obtain ⟨ty, name, items, children, space, term⟩ := c
    rfl
  obtain ⟨rfl, rfl, rfl⟩ := between_unique hs (hsp ▸ byteSpan_between (by rw [← h2]; exact e1))
  refine ⟨c, rfl, e3, e2, fun y hy => ?_⟩
  obtain ⟨b', g1, g2, -, g4⟩ := hr y hy
  refine ⟨_, parse_complete b' g2 (by rw [g1]; simp), ?_⟩
  rw [h3]
  rw [← forget_body g2 (byteSpan (u ++ y.text ++ v)) 0 0] at g4
  exact g4

theorem replace_newlines (text u w v : Str) (d : Document (Sp Nat)) (h : parseAst text = some (.ok d)) (ht : NoTie text)
    (n : SpannedNode (Sp Nat)) (hn : Occurs n d.nodes) (hs : Between text u w v n.span)
    (x : Str) (dx : Document (Sp Nat)) (hx : parseAst x = some (.ok dx)) (htx : NoTie x)
    (hne : x ≠ []) (hnl : x.head? ≠ some '\n') (K : Nat) (hK : 1 ≤ K) (hK' : K = 1 → '\\' ∉ x) :
    ∃ d', parseAst (u ++ (x ++ List.replicate K '\n') ++ v) = some (.ok d') ∧ Replaced n (forget dx.nodes) d.nodes (forget d'.nodes) := by
  obtain ⟨c, -, -, -, hr⟩ := replace_at h ht hn hs
  obtain ⟨b, h1, h2, h3⟩ := parse_sound hx
  have h1' := BodyC.Ok.strict b h1 (by rw [h2]; exact htx)
  obtain ⟨b', g1, g2, g3⟩ := ext_body b h1' K hK (by rw [h2]; exact hK')
  have hne' : b.text ≠ [] := by rw [h2]; exact hne
  have := hr b' ⟨g2 v, by simp [g1, hne'], by
    rw [g1, head_more hne' _ [], List.append_nil, h2]; exact hnl⟩
  rw [g1, h2] at this
  obtain ⟨d', p1, p2⟩ := this
  refine ⟨d', p1, ?_⟩
  have hv : b'.value (fun _ _ => ()) 0 = forget dx.nodes := by
    rw [h3, forget_body h1' _ 0 0]
    have := g3 (fun _ _ => ()) id (fun _ _ _ => rfl) 0
    have hid : ∀ l : List (SpannedNode Unit), l.map (fun n => (⟨(id n.span, n.value).1, (id n.span, n.value).2⟩ : SpannedNode Unit)) = l :=
      fun l => List.map_id l
    have := congrArg (List.map (fun q : Unit × Node Unit => (⟨q.1, q.2⟩ : SpannedNode Unit))) this
    rw [List.map_map, List.map_map] at this
    exact (hid _).symm.trans (this.trans (hid _))
  rw [← hv]
  exact p2

/-- **C68.** In a text that parses, let the text `w` of a node — at any depth — be replaced by any text `x`
that parses by itself, and two newlines: the new text parses, and its document is the old one, with the
nodes of `x` in the place of the node.  (If `x` has no nodes, the node is deleted.  Provisos: neither
text contains the characters `/*/`, see C19; `x` is not empty and does not begin with a line feed, which
might be the end of a CR LF.) -/
theorem c68_nodes (text u w v : Str) (d : Document (Sp Nat)) (h : parseAst text = some (.ok d)) (ht : NoTie text)
    (n : SpannedNode (Sp Nat)) (hn : Occurs n d.nodes) (hs : Between text u w v n.span)
    (x : Str) (dx : Document (Sp Nat)) (hx : parseAst x = some (.ok dx)) (htx : NoTie x)
    (hne : x ≠ []) (hnl : x.head? ≠ some '\n') :
    ∃ d', parseAst (u ++ (x ++ ['\n', '\n']) ++ v) = some (.ok d') ∧ Replaced n (forget dx.nodes) d.nodes (forget d'.nodes) :=
  replace_newlines text u w v d h ht n hn hs x dx hx htx hne hnl 2 (by decide) (fun h => absurd h (by decide))

/-- **C68.** One newline is enough if `x` contains no backslash. -/
theorem c68_nodes_newline (text u w v : Str) (d : Document (Sp Nat)) (h : parseAst text = some (.ok d)) (ht : NoTie text)
    (n : SpannedNode (Sp Nat)) (hn : Occurs n d.nodes) (hs : Between text u w v n.span)
    (x : Str) (dx : Document (Sp Nat)) (hx : parseAst x = some (.ok dx)) (htx : NoTie x)
    (hne : x ≠ []) (hnl : x.head? ≠ some '\n') (hb : '\\' ∉ x) :
    ∃ d', parseAst (u ++ (x ++ ['\n']) ++ v) = some (.ok d') ∧ Replaced n (forget dx.nodes) d.nodes (forget d'.nodes) :=
  replace_newlines text u w v d h ht n hn hs x dx hx htx hne hnl 1 (by decide) (fun _ => hb)

/-- The text `w` is that of the value `x` and nothing else: written as the argument of a node, it is its
only argument, which covers it. -/
def IsValue (w : Str) (x : Value Unit) : Prop :=
  ∃ d m y, parseAst (['n', ' '] ++ w) = some (.ok d) ∧ m ∈ d.nodes ∧ m.value.arguments = [y] ∧
    y.whole = ⟨2, 2 + byteLen w⟩ ∧ y.mapSpan (fun _ => ()) = x

theorem isValue_tree {w : Str} {x : Value Unit} (h : IsValue w x) : ∃ c : Val, c.Ok ∧ c.text = w ∧ ∀ q, c.value (fun _ _ => ()) q = x := by
  obtain ⟨d, m, y, h1, h2, h3, h4, rfl⟩ := h
  obtain ⟨c, p, v, hst, hok, hy⟩ := node_args (document_at h1 (.here h2)) y (by simp [h3])
  refine ⟨c, hok, ?_, fun q => by rw [hy]; exact (forget_val _ c p q).symm⟩
  obtain ⟨a, ha, rfl⟩ := hst
  have hb := byteSpan_between ha
  rw [← val_whole, ← hy] at hb
  exact (between_unique (u' := ['n', ' ']) (v' := []) hb ⟨by simp, by rw [h4]; rfl⟩).2.1

/-- A node with other entries. -/
theorem replace_items {text u w v : Str} {d : Document (Sp Nat)} (h : parseAst text = some (.ok d)) (ht : NoTie text)
    {n : SpannedNode (Sp Nat)} (hn : Occurs n d.nodes) (hs : Between text u w v n.span) :
    ∃ ty name items children space term, (NodeC.mk ty name items children space term).text = w ∧
      (NodeC.mk ty name items children space term).Ok true v ∧
      n = (NodeC.mk ty name items children space term).value (byteSpan text) u.length ∧
      ∀ items', ItemsOk true (children.text ++ spacesText space ++ term.text ++ v) items' →
        (itemsText items').head? = (itemsText items).head? →
        ∃ d', parseAst (u ++ (NodeC.mk ty name items' children space term).text ++ v) = some (.ok d') ∧
          Replaced n [(NodeC.mk ty name items' children space term).value (fun _ _ => ()) 0] d.nodes (forget d'.nodes) := by
  obtain ⟨⟨ty, name, items, children, space, term⟩, h1, h2, h3, h4⟩ := replace_at h ht hn hs
  refine ⟨ty, name, items, children, space, term, h1, h2, h3, fun items' hok hh => ?_⟩
  obtain ⟨q1, q2, q3, q4, q5, q6, q7, q8⟩ := h2
  have hok' : (NodeC.mk ty name items' children space term).Ok true v := by
    refine ⟨q1, q2, q3, q4.congr ?_, hok, q6, q7, q8⟩
    simp only [List.append_assoc]
    cases hi : itemsText items with
    | nil =>
      rw [hi] at hh
      rw [List.head?_eq_none_iff.1 hh]
    | cons x l =>
      rw [hi] at hh
      cases hi' : itemsText items' with
      | nil => rw [hi'] at hh; simp at hh
      | cons x' l' => rw [hi'] at hh; simpa using hh.symm
  have hhd := node_head hok'
  have htx : (BodyC.cons [] none (.mk ty name items' children space term) (.nil [])).text = (NodeC.mk ty name items' children space term).text := by
    simp [BodyC.text, linesText, dashText]
  obtain ⟨d', p1, p2⟩ := h4 (.cons [] none (.mk ty name items' children space term) (.nil [])) ⟨by
    simp only [BodyC.Ok, LinesOk, DashOk, BodyC.text, linesText, List.flatMap_nil, List.nil_append, true_and, and_true]
    exact hok', by rw [htx]; exact hhd.1, by rw [htx]; exact hhd.2⟩
  rw [htx] at p1
  refine ⟨d', p1, ?_⟩
  simpa only [BodyC.value, linesText, dashText, List.flatMap_nil, List.append_nil, List.length_nil, Nat.add_zero] using p2

/-- **C68.** In a text that parses, let the text of an argument be replaced by the text of another value:
the new text parses, and its document is the old one with this argument replaced. -/
theorem c68_argument (text u w v : Str) (d : Document (Sp Nat)) (h : parseAst text = some (.ok d)) (ht : NoTie text)
    (n : SpannedNode (Sp Nat)) (hn : Occurs n d.nodes) (a b : List (Value (Sp Nat))) (x : Value (Sp Nat))
    (hx : n.value.arguments = a ++ x :: b) (hs : Between text u w v x.whole) (w' : Str) (x' : Value Unit) (hw : IsValue w' x') :
    ∃ d', parseAst (u ++ w' ++ v) = some (.ok d') ∧
      Replaced n [⟨(), (n.value.mapSpan (fun _ => ())).withArgs
        (a.map (Value.mapSpan fun _ => ()) ++ x' :: b.map (Value.mapSpan fun _ => ()))⟩] d.nodes (forget d'.nodes) := by
  obtain ⟨c', hc1, rfl, hc3⟩ := isValue_tree hw
  obtain ⟨w0, hcov, -⟩ := c66_node text d h ht n hn
  obtain ⟨U, V, hU1, hU2⟩ := hcov
  obtain ⟨ty, name, items, children, space, term, e1, e2, e3, hr⟩ := replace_items h ht hn ⟨hU1, hU2⟩
  have hargs : itemsArgs (byteSpan text) (U.length + (tyText ty ++ name.text).length) items = a ++ x :: b := by
    rw [← hx, e3]; rfl
  obtain ⟨l1, i, l2, c, rfl, g1, g2, g3, g4, g5⟩ := args_split _ hargs
  obtain ⟨q1, q2, q3, q4, q5, q6, q7, q8⟩ := e2
  obtain ⟨o1, o2⟩ := itemsOk_split q5
  have hit : i.text = spacesText i.before ++ c.text := by simp [Item.text, g1, g2, dashText, Entry.text]
  -- where the argument stands
  have htext : text = (U ++ tyText ty ++ name.text ++ itemsText l1 ++ spacesText i.before) ++ (c.text ++
      (itemsText l2 ++ children.text ++ spacesText space ++ term.text ++ V)) := by
    rw [hU1, ← e1]
    simp [NodeC.text, itemsText, hit]
  have hbt := byteSpan_between htext
  have hsp : x.whole = byteSpan text (U ++ tyText ty ++ name.text ++ itemsText l1 ++ spacesText i.before).length
      ((U ++ tyText ty ++ name.text ++ itemsText l1 ++ spacesText i.before).length + c.text.length) := by
    rw [g3, val_whole]
    congr 1 <;> simp only [List.length_append] <;> omega
  rw [← hsp] at hbt
  obtain ⟨rfl, rfl, rfl⟩ := between_unique hs hbt
  have o3 : ItemsOk true (children.text ++ spacesText space ++ term.text ++ V) (l1 ++ { i with entry := .arg c' } :: l2) := by
    refine itemsOk_join o1.any ⟨?_, o2.2⟩
    exact o2.1.entry (e := .arg c') hc1 g1 _
  obtain ⟨d', p1, p2⟩ := hr _ o3 (by
    rw [itemsText_append, itemsText_append]
    refine head_congr _ ?_
    simp only [itemsText, List.flatMap_cons, Item.text]
    cases hsb : i.before with
    | nil => exact absurd hsb o2.1.1
    | cons s l =>
      have := space_ne_nil s
      cases hst : s.text with
      | nil => exact absurd hst this
      | cons => simp [spacesText, hst])
  refine ⟨d', ?_, ?_⟩
  · rw [← p1]
    congr 1
    simp [NodeC.text, itemsText, Item.text, g1, dashText, Entry.text]
  · have hv : (NodeC.mk ty name (l1 ++ { i with entry := .arg c' } :: l2) children space term).value (fun _ _ => ()) 0 =
        ⟨(), (n.value.mapSpan (fun _ => ())).withArgs
        (a.map (Value.mapSpan fun _ => ()) ++ x' :: b.map (Value.mapSpan fun _ => ()))⟩ := by
      have hf := forget_node (c := .mk ty name (l1 ++ i :: l2) children space term) (fol := V)
        ⟨q1, q2, q3, q4, q5, q6, q7, q8⟩ (byteSpan text) U.length 0
      injection hf with _ hf
      rw [e3, hf]
      simp only [NodeC.value, Node.withArgs, Spanned.mk.injEq, Node.mk.injEq, true_and]
      refine ⟨?_, ?_, ?_⟩
      · rw [itemsArgs_append, ← g4, ← g5, forget_args o1 _ _ (0 + (tyText ty ++ name.text).length),
          forget_args o2.2 _ _ (0 + (tyText ty ++ name.text).length + (itemsText l1).length + ({ i with entry := .arg c' } : Item).text.length)]
        simp only [itemsArgs, g1, hc3]
      · rw [itemsProps_append, itemsProps_append]
        simp only [itemsProps, g1, g2]
        rw [props_unit o2.2]
      · exact children_unit q6 _ _
    rw [← hv]
    exact p2

/-- **C68.** The same of the value of a property. -/
theorem c68_property (text u w v : Str) (d : Document (Sp Nat)) (h : parseAst text = some (.ok d)) (ht : NoTie text)
    (n : SpannedNode (Sp Nat)) (hn : Occurs n d.nodes) (k : Spanned Str (Sp Nat)) (x : Value (Sp Nat))
    (hx : (k, x) ∈ n.value.properties) (hs : Between text u w v x.whole) (w' : Str) (x' : Value Unit) (hw : IsValue w' x') :
    ∃ d', parseAst (u ++ w' ++ v) = some (.ok d') ∧
      Replaced n [⟨(), (n.value.mapSpan (fun _ => ())).withProp k.value x'⟩] d.nodes (forget d'.nodes) := by
  obtain ⟨c', hc1, rfl, hc3⟩ := isValue_tree hw
  obtain ⟨w0, hcov, -⟩ := c66_node text d h ht n hn
  obtain ⟨U, V, hU1, hU2⟩ := hcov
  obtain ⟨ty, name, items, children, space, term, e1, e2, e3, hr⟩ := replace_items h ht hn ⟨hU1, hU2⟩
  rw [e3] at hx
  obtain ⟨r1, k', r2, hrs, hk1, hk2⟩ := propMap_last (l := itemsProps (byteSpan text) (U.length + (tyText ty ++ name.text).length) items) hx
  obtain ⟨l1, i, l2, nm, c, rfl, g1, g2, g0, g3, g4, g5⟩ := props_split _ hrs
  obtain ⟨q1, q2, q3, q4, q5, q6, q7, q8⟩ := e2
  obtain ⟨o1, o2⟩ := itemsOk_split q5
  have hit : i.text = spacesText i.before ++ (nm.text ++ '=' :: c.text) := by simp [Item.text, g1, g2, dashText, Entry.text]
  -- where the value stands
  have htext : text = (U ++ tyText ty ++ name.text ++ itemsText l1 ++ spacesText i.before ++ nm.text ++ ['=']) ++ (c.text ++
      (itemsText l2 ++ children.text ++ spacesText space ++ term.text ++ V)) := by
    rw [hU1, ← e1]
    simp [NodeC.text, itemsText, hit]
  have hbt := byteSpan_between htext
  have hsp : x.whole = byteSpan text (U ++ tyText ty ++ name.text ++ itemsText l1 ++ spacesText i.before ++ nm.text ++ ['=']).length
      ((U ++ tyText ty ++ name.text ++ itemsText l1 ++ spacesText i.before ++ nm.text ++ ['=']).length + c.text.length) := by
    rw [g3, val_whole]
    congr 1 <;> simp only [List.length_append, List.length_cons, List.length_nil] <;> omega
  rw [← hsp] at hbt
  obtain ⟨rfl, rfl, rfl⟩ := between_unique hs hbt
  have hen : Entry.Ok (.prop nm c) := g2 ▸ o2.1.2.2.2
  have o3 : ItemsOk true (children.text ++ spacesText space ++ term.text ++ V) (l1 ++ { i with entry := .prop nm c' } :: l2) := by
    refine itemsOk_join o1.any ⟨?_, o2.2⟩
    exact o2.1.entry (e := .prop nm c') ⟨hen.1, hc1⟩ g1 _
  obtain ⟨d', p1, p2⟩ := hr _ o3 (by
    rw [itemsText_append, itemsText_append]
    refine head_congr _ ?_
    simp only [itemsText, List.flatMap_cons, Item.text]
    cases hsb : i.before with
    | nil => exact absurd hsb o2.1.1
    | cons s l =>
      have := space_ne_nil s
      cases hst : s.text with
      | nil => exact absurd hst this
      | cons => simp [spacesText, hst])
  refine ⟨d', ?_, ?_⟩
  · rw [← p1]
    congr 1
    simp [NodeC.text, itemsText, Item.text, g1, dashText, Entry.text]
  · have hv : (NodeC.mk ty name (l1 ++ { i with entry := .prop nm c' } :: l2) children space term).value (fun _ _ => ()) 0 =
        ⟨(), (n.value.mapSpan (fun _ => ())).withProp k.value x'⟩ := by
      have hf := forget_node (c := .mk ty name (l1 ++ i :: l2) children space term) (fol := V)
        ⟨q1, q2, q3, q4, q5, q6, q7, q8⟩ (byteSpan text) U.length 0
      injection hf with _ hf
      rw [e3, hf]
      simp only [NodeC.value, Node.withProp, Spanned.mk.injEq, Node.mk.injEq, true_and]
      refine ⟨?_, ?_, ?_⟩
      · rw [itemsArgs_append, itemsArgs_append]
        simp only [itemsArgs, g1, g2]
        rw [args_unit o2.2]
      · rw [itemsProps_append, itemsProps_append]
        simp only [itemsProps, g1, g2, hc3]
        rw [setProp_map (by rw [← hk1, g0])]
        · rw [props_unit o2.2]
        · intro kv hkv
          rw [← forget_props o2.2 (byteSpan text) (U.length + (tyText ty ++ name.text).length + (itemsText l1 ++ i.text).length), g5] at hkv
          obtain ⟨kv', hkv', rfl⟩ := List.mem_map.1 hkv
          exact hk2 kv' hkv'
      · exact children_unit q6 _ _
    rw [← hv]
    exact p2

/-- In `sliceText`, the second child (the text `c true // x` with its newline) is replaced by two other nodes;
it is deleted when its text is replaced by a space. -/
example : ∃ d n dx d' dd, parseAst sliceText = some (.ok d) ∧ Occurs n d.nodes ∧
    parseAst ['(', 't', ')', 'y', ' ', '5', ';', 'z', '{', '}'] = some (.ok dx) ∧ dx.nodes.length = 2 ∧
    parseAst (sliceText.take 26 ++ (['(', 't', ')', 'y', ' ', '5', ';', 'z', '{', '}'] ++ ['\n']) ++ sliceText.drop 38) = some (.ok d') ∧
    Replaced n (forget dx.nodes) d.nodes (forget d'.nodes) ∧
    parseAst (sliceText.take 26 ++ ([' '] ++ ['\n']) ++ sliceText.drop 38) = some (.ok dd) ∧
    Replaced n [] d.nodes (forget dd.nodes) := by
  obtain ⟨d, hd, hc⟩ := of_parse (text := sliceText) sliceCheck (by decide +kernel)
  obtain ⟨dx, hx, hlx⟩ := of_parse (text := ['(', 't', ')', 'y', ' ', '5', ';', 'z', '{', '}']) (fun d => decide (d.nodes.length = 2)) (by decide +kernel)
  obtain ⟨de, he, hle⟩ := of_parse (text := [' ']) (fun d => decide (d.nodes.length = 0)) (by decide +kernel)
  obtain ⟨m, a, n, c, h1, h2, h3, h4, -, -⟩ := sliceCheck_spec hc
  have hbt : Between sliceText (sliceText.take 26) "c true // x\n".toList (sliceText.drop 38) n.span :=
    ⟨by decide +kernel, by rw [h4]; decide +kernel⟩
  have hn : Occurs n d.nodes := .inside (m := m) (by rw [h1]; simp) h2 (.here (by rw [h3]; simp))
  have ht : NoTie sliceText := by unfold NoTie; decide +kernel
  obtain ⟨d', p1, p2⟩ := c68_nodes_newline _ _ _ _ d hd ht n hn hbt _ dx hx (by unfold NoTie; decide +kernel) (by decide) (by decide) (by decide)
  obtain ⟨dd, p3, p4⟩ := c68_nodes_newline _ _ _ _ d hd ht n hn hbt _ de he (by unfold NoTie; decide +kernel) (by decide) (by decide) (by decide)
  have hnil : forget de.nodes = [] := by
    have := of_decide_eq_true hle
    rw [List.length_eq_zero_iff.1 this]
    rfl
  rw [hnil] at p4
  exact ⟨d, n, dx, d', dd, hd, hn, hx, of_decide_eq_true hlx, p1, p2, p3, p4⟩

/-- A check on the document of a text of one node. -/
def editCheck (args : List (Value (Sp Nat))) (d : Document (Sp Nat)) : Bool :=
  match d.nodes with
  | [m] => decide (m.value.arguments = args)
  | _ => false

theorem editCheck_spec {args} {d : Document (Sp Nat)} (h : editCheck args d = true) : ∃ m, d.nodes = [m] ∧ m.value.arguments = args := by
  unfold editCheck at h
  split at h
  next m hm => exact ⟨m, hm, of_decide_eq_true h⟩
  · simp at h

/-- The text `(u8)0x1F` is that of a value. -/
theorem edit_value : IsValue ['(', 'u', '8', ')', '0', 'x', '1', 'F'] ⟨some ⟨(), .builtin .u8⟩, ⟨(), .int .hex ['1', 'F']⟩⟩ := by
  obtain ⟨d, hd, hc⟩ := of_parse (text := ['n', ' '] ++ ['(', 'u', '8', ')', '0', 'x', '1', 'F'])
    (editCheck [⟨some ⟨⟨2, 6⟩, .builtin .u8⟩, ⟨⟨6, 10⟩, .int .hex ['1', 'F']⟩⟩]) (by decide +kernel)
  obtain ⟨m, h1, h2⟩ := editCheck_spec hc
  exact ⟨d, m, _, hd, by rw [h1]; simp, h2, by decide +kernel, by decide +kernel⟩

/-- In `sliceText`, the value of the property `k` is replaced. -/
example : ∃ d m d', parseAst sliceText = some (.ok d) ∧ Occurs m d.nodes ∧
    parseAst (sliceText.take 15 ++ ['(', 'u', '8', ')', '0', 'x', '1', 'F'] ++ sliceText.drop 16) = some (.ok d') ∧
    Replaced m [⟨(), (m.value.mapSpan (fun _ => ())).withProp ['k'] ⟨some ⟨(), .builtin .u8⟩, ⟨(), .int .hex ['1', 'F']⟩⟩⟩]
      d.nodes (forget d'.nodes) := by
  obtain ⟨d, hd, hc⟩ := of_parse (text := sliceText) sliceCheck (by decide +kernel)
  obtain ⟨m, a, n, c, h1, h2, h3, h4, -, h6⟩ := sliceCheck_spec hc
  have hm : Occurs m d.nodes := .here (by rw [h1]; simp)
  obtain ⟨d', p1, p2⟩ := c68_property sliceText (sliceText.take 15) ['2'] (sliceText.drop 16) d hd (by unfold NoTie; decide +kernel) m hm ⟨⟨7, 8⟩, ['k']⟩
    ⟨none, ⟨⟨16, 17⟩, .int .dec ['2']⟩⟩ (by rw [h6]; simp) ⟨by decide +kernel, by decide +kernel⟩ _ _ edit_value
  exact ⟨d, m, d', hd, hm, p1, p2⟩

/-- In a node with the arguments `1` and `true`, and a commented-out `2` between them, the second argument
is replaced. -/
example : ∃ d m d', parseAst ['n', ' ', '1', ' ', '/', '-', '2', ' ', 't', 'r', 'u', 'e'] = some (.ok d) ∧ Occurs m d.nodes ∧
    parseAst (['n', ' ', '1', ' ', '/', '-', '2', ' '] ++ ['(', 'u', '8', ')', '0', 'x', '1', 'F'] ++ []) = some (.ok d') ∧
    Replaced m [⟨(), (m.value.mapSpan (fun _ => ())).withArgs
      [⟨none, ⟨(), .int .dec ['1']⟩⟩, ⟨some ⟨(), .builtin .u8⟩, ⟨(), .int .hex ['1', 'F']⟩⟩]⟩] d.nodes (forget d'.nodes) := by
  obtain ⟨d, hd, hc⟩ := of_parse (text := ['n', ' ', '1', ' ', '/', '-', '2', ' ', 't', 'r', 'u', 'e'])
    (editCheck [⟨none, ⟨⟨2, 3⟩, .int .dec ['1']⟩⟩, ⟨none, ⟨⟨8, 12⟩, .bool true⟩⟩]) (by decide +kernel)
  obtain ⟨m, h1, h2⟩ := editCheck_spec hc
  have hm : Occurs m d.nodes := .here (by rw [h1]; simp)
  obtain ⟨d', p1, p2⟩ := c68_argument _ ['n', ' ', '1', ' ', '/', '-', '2', ' '] ['t', 'r', 'u', 'e'] [] d hd (by unfold NoTie; decide +kernel) m hm
    [⟨none, ⟨⟨2, 3⟩, .int .dec ['1']⟩⟩] [] ⟨none, ⟨⟨8, 12⟩, .bool true⟩⟩ h2 ⟨by decide +kernel, by decide +kernel⟩ _ _ edit_value
  exact ⟨d, m, d', hd, hm, p1, p2⟩

end Knuffel
