import Verif.Theory.Extend
import Verif.Theory.Lines
import Verif.Spec.Slices
/-!
# Parts of a text, taken out of it
-/

namespace Knuffel.Cst

/-! ### What follows may be cut off -/

/-- `f'` is empty, or begins as `f` does. -/
def Cut (f' f : Str) : Prop := f' = [] ∨ f'.head? = f.head?

theorem Cut.append (a : Str) {f f' : Str} (h : Cut f' f) : Cut (a ++ f') (a ++ f) := by
  rcases h with rfl | h
  · cases a with
    | nil => exact .inl rfl
    | cons x a => exact .inr rfl
  · exact .inr (head_congr _ h)

theorem Cut.nil {f : Str} : Cut [] f := .inl rfl

theorem Newline.Ok.cut {f f' : Str} (h : Cut f' f) {n : Newline} (hn : n.Ok f) : n.Ok f' := by
  rcases h with rfl | h
  · cases n <;> simp [Newline.Ok]
  · exact hn.congr h.symm

theorem LineComment.Ok.cut {f f' : Str} (h : Cut f' f) {c : LineComment} (hc : c.Ok f) : c.Ok f' := by
  rcases h with rfl | h
  · refine ⟨hc.1, ?_⟩
    have := hc.2
    cases hs : c.stop with
    | none => simp only
    | some n => simp only [hs] at this ⊢; exact this.cut Cut.nil
  · exact hc.congr h.symm

theorem EscEnd.Ok.cut {f f' : Str} (h : Cut f' f) {e : EscEnd} (he : e.Ok f) : e.Ok f' := by
  cases e with
  | comment c => exact LineComment.Ok.cut h he
  | newline n => exact Newline.Ok.cut h he

theorem Space.Ok.cut {b} {f f' : Str} (h : Cut f' f) {s : Space} (hs : s.Ok b f) : s.Ok b f' := by
  cases s with
  | ws w => exact hs
  | esc l e => exact ⟨hs.1, EscEnd.Ok.cut h hs.2⟩

theorem SpacesOk.cut {b} {f f' : Str} (h : Cut f' f) {l : List Space} (hl : SpacesOk b f l) : SpacesOk b f' l := by
  induction l with
  | nil => trivial
  | cons x l ih => exact ⟨hl.1.cut (h.append _), ih hl.2⟩

theorem Line.Ok.cut {b} {f f' : Str} (h : Cut f' f) {s : Line} (hs : s.Ok b f) : s.Ok b f' := by
  cases s with
  | newline n => exact Newline.Ok.cut h hs
  | ws w => exact hs
  | comment c => exact LineComment.Ok.cut h hs

theorem LinesOk.cut {b} {f f' : Str} (h : Cut f' f) {l : List Line} (hl : LinesOk b f l) : LinesOk b f' l := by
  induction l with
  | nil => trivial
  | cons x l ih => exact ⟨hl.1.cut (h.append _), ih hl.2⟩

theorem DashOk.cut {b} {f f' : Str} (h : Cut f' f) {d : Option (List Space)} (hd : DashOk b f d) : DashOk b f' d := by
  cases d with
  | none => trivial
  | some l => exact SpacesOk.cut h hd

theorem Term.Ok.cut {f f' : Str} (h : Cut f' f) {e : Term} (he : e.Ok f) : e.Ok f' := by
  cases e with
  | newline n => exact Newline.Ok.cut h he
  | comment c => exact LineComment.Ok.cut h he
  | semicolon => trivial
  | eof =>
    rcases h with rfl | h
    · rfl
    · exact nil_of_head h.symm he

theorem NameEndOk.cut {f f' : Str} (h : Cut f' f) {n : Name} (hn : NameEndOk f n) : NameEndOk f' n := by
  rcases h with rfl | h
  · cases n <;> simp [NameEndOk]
  · exact hn.congr h.symm

theorem NodeC.Ok.cut {b} {f f' : Str} (h : Cut f' f) : (n : NodeC) → n.Ok b f → n.Ok b f'
  | .mk ty name items children space term, hn => by
    rw [NodeC.Ok] at hn ⊢
    obtain ⟨h1, h2, h3, h4, h5, h6, h7, h8⟩ := hn
    exact ⟨h1, h2, h3, h4.cut (h.append _), h5.any, ChildrenC.Ok.any children h6,
      h7.cut (h.append _), h8.cut h⟩

theorem BodyC.Ok.cut {b} {f f' : Str} (h : Cut f' f) : (x : BodyC) → x.Ok b f → x.Ok b f'
  | .nil lines, hx => by
    rw [BodyC.Ok] at hx ⊢
    exact hx.cut h
  | .cons lines dash node rest, hx => by
    rw [BodyC.Ok] at hx ⊢
    obtain ⟨h1, h2, h3, h4⟩ := hx
    exact ⟨h1.cut (h.append _), h2.cut (h.append _), NodeC.Ok.cut (h.append _) node h3,
      BodyC.Ok.cut h rest h4⟩

end Knuffel.Cst

namespace Knuffel
open Cst

/-! ### Parts at their places -/

/-- The characters `w` stand in the text from character number `p` on, and `v` follows. -/
def Stands (text : Str) (p : Nat) (w v : Str) : Prop := ∃ u, text = u ++ (w ++ v) ∧ u.length = p

theorem Stands.at {text : Str} {p p' : Nat} {w v v' : Str} (h : Stands text p w v) (hp : p = p') (hv : v = v') :
    Stands text p' w v' := by subst hp hv; exact h

theorem Stands.sub {text : Str} {p : Nat} {w v : Str} (h : Stands text p w v) (a w' b : Str) (hw : w = a ++ w' ++ b) :
    Stands text (p + a.length) w' (b ++ v) := by
  obtain ⟨u, rfl, rfl⟩ := h
  exact ⟨u ++ a, by rw [hw]; simp, by simp⟩

theorem Stands.covers {text : Str} {p q : Nat} {w v : Str} (h : Stands text p w v) (hq : q = p + w.length) :
    Covers text (byteSpan text p q) w := by
  obtain ⟨u, rfl, rfl⟩ := h
  refine ⟨u, v, by simp, ?_⟩
  rw [hq]
  unfold byteSpan
  rw [List.take_left, ← List.append_assoc, ← List.length_append, List.take_left, byteLen_append]

theorem moved_byteSpan {text : Str} {p : Nat} {w v : Str} (h : Stands text p w v) {n : Nat} (hn : byteLen (text.take p) = n) :
    SpanRel (Sp.moved n) (byteSpan w) (byteSpan text) 0 p w.length := by
  obtain ⟨u, rfl, rfl⟩ := h
  rw [List.take_left] at hn
  intro i j i' j' _ h1 h2 h3 h4
  have e1 : i' = u.length + i := by omega
  have e2 : j' = u.length + j := by omega
  subst e1 e2 hn
  simp only [byteSpan, Sp.moved, Sp.mk.injEq]
  constructor
  · rw [List.take_length_add_append, byteLen_append, List.take_append_of_le_length (by omega), Nat.add_comm]
  · rw [List.take_length_add_append, byteLen_append, List.take_append_of_le_length (by omega), Nat.add_comm]

/-- The node is the meaning of a legal tree whose characters stand in the text. -/
def NodeAt (str : Bool) (text : Str) (n : SpannedNode (Sp Nat)) : Prop :=
  ∃ (c : NodeC) (p : Nat) (v : Str), Stands text p c.text v ∧ c.Ok str v ∧ n = c.value (byteSpan text) p

theorem body_nodes {str : Bool} {text : Str} (b : BodyC) {p : Nat} {v : Str} (ha : Stands text p b.text v) (hok : b.Ok str v) :
    ∀ n ∈ b.value (byteSpan text) p, NodeAt str text n := by
  match b with
  | .nil lines => intro n hn; simp [BodyC.value] at hn
  | .cons lines dash node rest =>
    obtain ⟨h1, h2, h3, h4⟩ := hok
    have hat : Stands text (p + (linesText lines ++ dashText dash).length) node.text (rest.text ++ v) :=
      ha.sub (linesText lines ++ dashText dash) node.text rest.text (by simp [BodyC.text])
    have har : Stands text (p + (linesText lines ++ dashText dash).length + node.text.length) rest.text v := by
      have := ha.sub (linesText lines ++ dashText dash ++ node.text) rest.text [] (by simp [BodyC.text])
      rw [List.length_append, ← Nat.add_assoc] at this
      exact this
    have hr := body_nodes rest har h4
    intro n hn
    cases dash with
    | some d => exact hr n hn
    | none =>
      rw [BodyC.value] at hn
      rcases List.mem_cons.1 hn with rfl | hn
      · exact ⟨node, _, _, hat, h3, rfl⟩
      · exact hr n hn

/-- The children block of a node is the meaning of nodes in braces. -/
theorem node_block {str : Bool} {text : Str} {n : SpannedNode (Sp Nat)} (h : NodeAt str text n) {c} (hc : n.value.children = some c) :
    ∃ (b : BodyC) (p : Nat) (v : Str), Stands text p ('{' :: b.text ++ ['}']) v ∧ b.Ok str ('}' :: v) ∧
      c = ⟨byteSpan text p (p + ('{' :: b.text ++ ['}']).length), b.value (byteSpan text) (p + 1)⟩ := by
  obtain ⟨⟨ty, name, items, children, space, term⟩, p, v, ha, hok, rfl⟩ := h
  obtain ⟨h1, h2, h3, h4, h5, h6, h7, h8⟩ := hok
  have hc' : children.value (byteSpan text) (p + (tyText ty ++ name.text ++ itemsText items).length) = some c := hc
  match children, hc' with
  | .none, hc' => simp [ChildrenC.value] at hc'
  | .some sp (some d) body, hc' => simp [ChildrenC.value] at hc'
  | .some sp none body, hc' =>
    simp only [ChildrenC.value, Option.some.injEq] at hc'
    have hat := ha.sub (tyText ty ++ name.text ++ itemsText items ++ spacesText sp) ('{' :: body.text ++ ['}'])
      (spacesText space ++ term.text) (by simp [NodeC.text, ChildrenC.text, dashText])
    rw [List.length_append, ← Nat.add_assoc] at hat
    refine ⟨body, _, _, hat, ?_, ?_⟩
    · rw [ChildrenC.Ok] at h6
      simpa using h6.2.2
    · rw [← hc']
      simp [Nat.add_assoc]

theorem occurs_at {str : Bool} {text : Str} {n : SpannedNode (Sp Nat)} {l} (h : Occurs n l) (hl : ∀ m ∈ l, NodeAt str text m) : NodeAt str text n := by
  induction h with
  | here h => exact hl _ h
  | inside hm hc _ ih =>
    obtain ⟨b, p, v, ha, hok, rfl⟩ := node_block (hl _ hm) hc
    refine ih (body_nodes b (v := '}' :: v) ?_ hok)
    have := ha.sub ['{'] b.text ['}'] (by simp)
    exact this

theorem document_at {text : Str} {d : Document (Sp Nat)} (h : parseAst text = some (.ok d))
    {n : SpannedNode (Sp Nat)} (hn : Occurs n d.nodes) : NodeAt false text n := by
  obtain ⟨b, h1, h2, h3⟩ := parse_sound h
  refine occurs_at hn ?_
  rw [h3]
  exact body_nodes b (v := []) ⟨[], by simp [h2], rfl⟩ h1

theorem document_at_strict {text : Str} {d : Document (Sp Nat)} (ht : NoTie text) (h : parseAst text = some (.ok d))
    {n : SpannedNode (Sp Nat)} (hn : Occurs n d.nodes) : NodeAt true text n := by
  obtain ⟨b, h1, h2, h3⟩ := parse_sound h
  refine occurs_at hn ?_
  rw [h3]
  exact body_nodes b (v := []) ⟨[], by simp [h2], rfl⟩ (BodyC.Ok.strict b h1 (by rw [h2]; exact ht))

/-- The value is the meaning of a legal value whose characters stand in the text. -/
def ValAt (text : Str) (x : Value (Sp Nat)) : Prop :=
  ∃ (c : Val) (p : Nat) (v : Str), Stands text p c.text v ∧ c.Ok ∧ x = c.value (byteSpan text) p

/-- The same of the name of a property. -/
def KeyAt (text : Str) (k : Spanned Str (Sp Nat)) : Prop :=
  ∃ (c : PropName) (p : Nat) (v : Str), Stands text p c.text v ∧ c.Ok ∧
    k = ⟨byteSpan text p (p + c.text.length), c.value⟩

theorem items_args {text : Str} {str : Bool} {fol : Str} {l : List Item} : ∀ {p : Nat} {v : Str}, Stands text p (itemsText l) v → ItemsOk str fol l →
    ∀ x ∈ itemsArgs (byteSpan text) p l, ValAt text x := by
  induction l with
  | nil => intro p v _ _ x hx; simp [itemsArgs] at hx
  | cons i l ih =>
    intro p v ha hok
    have har : Stands text (p + i.text.length) (itemsText l) v := by
      have := ha.sub i.text (itemsText l) [] (by simp [itemsText])
      exact this
    have hr := ih har hok.2
    have hai := ha.sub (spacesText i.before ++ dashText i.dash) i.entry.text (itemsText l) (by simp [itemsText, Item.text])
    have hen := hok.1.2.2.2
    unfold itemsArgs
    cases hd : i.dash with
    | some d => exact hr
    | none =>
      cases he : i.entry with
      | prop _ _ => exact hr
      | arg c =>
        rw [hd, he] at hai
        rw [he] at hen
        simp only [List.mem_cons, forall_eq_or_imp]
        exact ⟨⟨c, _, _, hai, hen, rfl⟩, hr⟩

theorem items_props {text : Str} {str : Bool} {fol : Str} {l : List Item} : ∀ {p : Nat} {v : Str}, Stands text p (itemsText l) v → ItemsOk str fol l →
    ∀ kv ∈ itemsProps (byteSpan text) p l, KeyAt text kv.1 ∧ ValAt text kv.2 := by
  induction l with
  | nil => intro p v _ _ x hx; simp [itemsProps] at hx
  | cons i l ih =>
    intro p v ha hok
    have har : Stands text (p + i.text.length) (itemsText l) v := by
      have := ha.sub i.text (itemsText l) [] (by simp [itemsText])
      exact this
    have hr := ih har hok.2
    have hai := ha.sub (spacesText i.before ++ dashText i.dash) i.entry.text (itemsText l) (by simp [itemsText, Item.text])
    have hen := hok.1.2.2.2
    unfold itemsProps
    cases hd : i.dash with
    | some d => exact hr
    | none =>
      cases he : i.entry with
      | arg _ => exact hr
      | prop k c =>
        rw [hd, he] at hai
        rw [he] at hen
        simp only [List.mem_cons, forall_eq_or_imp]
        refine ⟨⟨⟨k, _, _, hai.sub [] k.text ('=' :: c.text) (by simp [Entry.text]), hen.1, rfl⟩,
          ⟨c, _, itemsText l ++ v, ?_, hen.2, rfl⟩⟩, hr⟩
        exact hai.sub (k.text ++ ['=']) c.text [] (by simp [Entry.text]) |>.at (by simp only [List.length_append]; rfl) rfl

theorem node_args {str : Bool} {text : Str} {n : SpannedNode (Sp Nat)} (h : NodeAt str text n) : ∀ x ∈ n.value.arguments, ValAt text x := by
  obtain ⟨⟨ty, name, items, children, space, term⟩, p, v, ha, hok, rfl⟩ := h
  obtain ⟨h1, h2, h3, h4, h5, h6, h7, h8⟩ := hok
  exact items_args (ha.sub (tyText ty ++ name.text) (itemsText items) (children.text ++ spacesText space ++ term.text)
    (by simp [NodeC.text])) h5

theorem node_props {str : Bool} {text : Str} {n : SpannedNode (Sp Nat)} (h : NodeAt str text n) :
    ∀ kv ∈ n.value.properties, KeyAt text kv.1 ∧ ValAt text kv.2 := by
  obtain ⟨⟨ty, name, items, children, space, term⟩, p, v, ha, hok, rfl⟩ := h
  obtain ⟨h1, h2, h3, h4, h5, h6, h7, h8⟩ := hok
  exact propMap_all (items_props (ha.sub (tyText ty ++ name.text) (itemsText items) (children.text ++ spacesText space ++ term.text)
    (by simp [NodeC.text])) h5)

/-- The whole value, with its type annotation. -/
theorem val_whole {text : Str} {c : Val} {p : Nat} : (c.value (byteSpan text) p).whole = byteSpan text p (p + c.text.length) := by
  obtain ⟨_ | t, l⟩ := c
  · simp [Val.value, Value.whole, tyValue, Val.text, tyText]
  · simp [Val.value, Value.whole, tyValue, Val.text, byteSpan, Nat.add_assoc]

end Knuffel
