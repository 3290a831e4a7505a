import Verif.Theory.Slices
import Verif.Theory.Written
/-!
# Putting other nodes in the place of a node
-/

namespace Knuffel.Cst

/-! ### Something else may follow -/

/-- What may come before `f` may come before `f'`. -/
def Instead (f f' : Str) : Prop :=
  f ≠ [] ∧ f' ≠ [] ∧ (f.head? = f'.head? ∨ f'.head? ≠ some '\n')

theorem Instead.append (a : Str) {f f' : Str} (h : Instead f f') : Instead (a ++ f) (a ++ f') := by
  cases a with
  | nil => exact h
  | cons x a => exact ⟨by simp, by simp, .inl rfl⟩

theorem Newline.Ok.instead {f f' : Str} (h : Instead f f') {n : Newline} (hn : n.Ok f) : n.Ok f' := by
  rcases h.2.2 with h | h
  · exact hn.congr h
  · cases n <;> first | trivial | exact h

theorem LineComment.Ok.instead {f f' : Str} (h : Instead f f') {c : LineComment} (hc : c.Ok f) : c.Ok f' := by
  obtain ⟨b, _ | n⟩ := c
  · exact absurd hc.2 h.1
  · exact ⟨hc.1, Newline.Ok.instead h hc.2⟩

theorem EscEnd.Ok.instead {f f' : Str} (h : Instead f f') {e : EscEnd} (he : e.Ok f) : e.Ok f' := by
  cases e with
  | comment c => exact LineComment.Ok.instead h he
  | newline n => exact Newline.Ok.instead h he

theorem Space.Ok.instead {b} {f f' : Str} (h : Instead f f') {s : Space} (hs : s.Ok b f) : s.Ok b f' := by
  cases s with
  | ws w => exact hs
  | esc l e => exact ⟨hs.1, EscEnd.Ok.instead h hs.2⟩

theorem SpacesOk.instead {b} {f f' : Str} (h : Instead f f') {l : List Space} (hl : SpacesOk b f l) : SpacesOk b f' l := by
  induction l with
  | nil => trivial
  | cons x l ih => exact ⟨hl.1.instead (h.append _), ih hl.2⟩

theorem Line.Ok.instead {b} {f f' : Str} (h : Instead f f') {s : Line} (hs : s.Ok b f) : s.Ok b f' := by
  cases s with
  | newline n => exact Newline.Ok.instead h hs
  | ws w => exact hs
  | comment c => exact LineComment.Ok.instead h hs

theorem LinesOk.instead {b} {f f' : Str} (h : Instead f f') {l : List Line} (hl : LinesOk b f l) : LinesOk b f' l := by
  induction l with
  | nil => trivial
  | cons x l ih => exact ⟨hl.1.instead (h.append _), ih hl.2⟩

theorem Term.Ok.instead {f f' : Str} (h : Instead f f') {e : Term} (he : e.Ok f) : e.Ok f' ∧ e.text ≠ [] := by
  cases e with
  | newline n => exact ⟨Newline.Ok.instead h he, by cases n <;> simp [Term.text, Newline.text]⟩
  | comment c => exact ⟨LineComment.Ok.instead h he, by simp [Term.text, LineComment.text]⟩
  | semicolon => exact ⟨trivial, by simp [Term.text]⟩
  | eof => exact absurd he h.1

theorem NodeC.Ok.instead {b} {f f' : Str} (h : Instead f f') : (n : NodeC) → n.Ok b f → n.Ok b f'
  | .mk ty name items children space term, hn => by
    rw [NodeC.Ok] at hn ⊢
    obtain ⟨h1, h2, h3, h4, h5, h6, h7, h8⟩ := hn
    have ht := h8.instead h
    have hh : (term.text ++ f).head? = (term.text ++ f').head? := head_more ht.2 _ _
    refine ⟨h1, h2, h3, h4.congr ?_, h5.any, ChildrenC.Ok.any children h6, h7.congr hh, ht.1⟩
    rw [List.append_assoc, List.append_assoc _ term.text f']
    exact head_congr _ hh

/-! ### Nodes after nodes -/

/-- Lines before nodes. -/
def BodyC.after (l : List Line) : BodyC → BodyC
  | .nil l' => .nil (l ++ l')
  | .cons l' d n r => .cons (l ++ l') d n r

/-- Nodes, and then nodes. -/
def BodyC.join : BodyC → BodyC → BodyC
  | .nil l, r => r.after l
  | .cons l d n b, r => .cons l d n (b.join r)

theorem BodyC.after_text (l : List Line) (b : BodyC) : (b.after l).text = linesText l ++ b.text := by
  cases b <;> simp [BodyC.after, BodyC.text, linesText_append]

theorem BodyC.after_ok {s fol} {l : List Line} {b : BodyC} (h : LinesOk s (b.text ++ fol) l) (hb : b.Ok s fol) : (b.after l).Ok s fol := by
  cases b with
  | nil l' =>
    rw [BodyC.Ok] at hb
    rw [BodyC.after, BodyC.Ok]
    exact lines_append_ok h hb
  | cons l' d n r =>
    rw [BodyC.Ok] at hb
    rw [BodyC.after, BodyC.Ok]
    refine ⟨lines_append_ok ?_ hb.1, hb.2.1, hb.2.2.1, hb.2.2.2⟩
    simpa [BodyC.text] using h

theorem BodyC.join_text (b r : BodyC) : (b.join r).text = b.text ++ r.text := by
  match b with
  | .nil l => rw [BodyC.join, BodyC.after_text, BodyC.text]
  | .cons l d n b => rw [BodyC.join, BodyC.text, BodyC.text, BodyC.join_text b r]; simp

theorem BodyC.join_ok {s fol} (b : BodyC) {r : BodyC} (h : b.Ok s (r.text ++ fol)) (hr : r.Ok s fol) : (b.join r).Ok s fol := by
  match b with
  | .nil l =>
    rw [BodyC.Ok] at h
    exact BodyC.after_ok h hr
  | .cons l d n b =>
    rw [BodyC.Ok] at h
    rw [BodyC.join, BodyC.Ok, BodyC.join_text]
    obtain ⟨h1, h2, h3, h4⟩ := h
    exact ⟨by simpa using h1, by simpa using h2, by simpa using h3, BodyC.join_ok b h4 hr⟩

end Knuffel.Cst

namespace Knuffel
open Cst

/-- A body does not mean less or more, without spans, at another place. -/
theorem body_unit {s fol} {b : BodyC} (h : b.Ok s fol) (p q : Nat) :
    b.value (fun _ _ => ()) p = b.value (fun _ _ => ()) q := by
  have := body_map (g := fun _ : Unit => ()) (f := fun _ _ => ()) (f' := fun _ _ => ()) (p := p) (p' := q) b
    (fun _ _ _ _ _ _ _ _ _ => rfl) (Nat.le_refl _) h
  rw [← this]
  exact (mapNodes_id _).symm

theorem forget_body {s fol} {b : BodyC} (h : b.Ok s fol) {S : Type} (f : Nat → Nat → S) (p q : Nat) :
    forget (b.value f p) = b.value (fun _ _ => ()) q :=
  body_map (g := fun _ : S => ()) (f := f) (f' := fun _ _ => ()) (p := p) (p' := q) b
    (fun _ _ _ _ _ _ _ _ _ => rfl) (Nat.le_refl _) h

theorem forget_node {s fol} {c : NodeC} (h : c.Ok s fol) {S : Type} (f : Nat → Nat → S) (p q : Nat) :
    (⟨(), (c.value f p).value.mapSpan (fun _ => ())⟩ : SpannedNode Unit) = c.value (fun _ _ => ()) q := by
  have := (node_map (g := fun _ : S => ()) (f := f) (f' := fun _ _ => ()) (p := p) (p' := q) c
    (fun _ _ _ _ _ _ _ _ _ => rfl) (Nat.le_refl _) h).2
  rw [this]

theorem after_value {S : Type} (f : Nat → Nat → S) (l : List Line) (b : BodyC) (p : Nat) :
    (b.after l).value f p = b.value f (p + (linesText l).length) := by
  cases b with
  | nil => rfl
  | cons l' d n r =>
    cases d <;> simp [BodyC.after, BodyC.value, linesText_append, Nat.add_assoc]

theorem join_value {S : Type} (f : Nat → Nat → S) (r : BodyC) : (b : BodyC) → (p : Nat) →
    (b.join r).value f p = b.value f p ++ r.value f (p + b.text.length)
  | .nil l, p => by rw [BodyC.join, after_value, BodyC.text, BodyC.value]; rfl
  | .cons l d n b, p => by
    have := join_value f r b (p + (linesText l ++ dashText d).length + n.text.length)
    cases d with
    | none =>
      simp only [BodyC.join, BodyC.value, this, List.cons_append]
      simp [BodyC.text, Nat.add_assoc]
    | some d =>
      simp only [BodyC.join, BodyC.value, this]
      simp [BodyC.text, Nat.add_assoc]

theorem occurs_cons {S : Type} {n x : SpannedNode S} {l} (h : Occurs n (x :: l)) :
    n = x ∨ (∃ c, x.value.children = some c ∧ Occurs n c.value) ∨ Occurs n l := by
  cases h with
  | here h =>
    rcases List.mem_cons.1 h with h | h
    · exact .inl h
    · exact .inr (.inr (.here h))
  | inside h1 h2 h3 =>
    rcases List.mem_cons.1 h1 with rfl | h
    · exact .inr (.inl ⟨_, h2, h3⟩)
    · exact .inr (.inr (.inside h h2 h3))

theorem not_occurs_nil {S : Type} {n : SpannedNode S} (h : Occurs n []) : False := by
  cases h with
  | here h => exact absurd h (by simp)
  | inside h => exact absurd h (by simp)

theorem Replaced.behind {S : Type} {n : SpannedNode S} {ns l l'} (h : Replaced n ns l l') (x : SpannedNode S) :
    Replaced n ns (x :: l) (⟨(), x.value.mapSpan (fun _ => ())⟩ :: l') := by
  cases h with
  | here => exact .here (a := x :: _)
  | inside h1 h2 => exact .inside (a := x :: _) h1 h2

theorem node_head {c : NodeC} {f : Str} (h : c.Ok true f) : c.text ≠ [] ∧ c.text.head? ≠ some '\n' := by
  obtain ⟨x, r, hx, hs⟩ := node_solid h
  rw [hx]
  refine ⟨by simp, ?_⟩
  simp only [List.head?_cons, ne_eq, Option.some.injEq]
  rintro rfl
  exact hs.2.1 (by decide)

/-- What can be put in the place of the text of a node, before `g`: complete nodes. -/
structure Fill (g : Str) (y : BodyC) : Prop where
  ok : y.Ok true g
  ne : y.text ≠ []
  head : y.text.head? ≠ some '\n'

/-- The node can be replaced. -/
def CanReplace (f : Nat → Nat → Sp Nat) (p : Nat) (b : BodyC) (fol : Str) (n : SpannedNode (Sp Nat)) : Prop :=
  ∃ (c : NodeC) (A Z : Str), b.text = A ++ (c.text ++ Z) ∧ n = c.value f (p + A.length) ∧ c.Ok true (Z ++ fol) ∧
    ∀ y : BodyC, Fill (Z ++ fol) y → ∃ b' : BodyC, b'.text = A ++ (y.text ++ Z) ∧ b'.Ok true fol ∧
      (∀ g, Instead (b.text ++ g) (b'.text ++ g)) ∧
      Replaced n (y.value (fun _ _ => ()) 0) (b.value f p) (b'.value (fun _ _ => ()) 0)

mutual
theorem edit_children (f : Nat → Nat → Sp Nat) : (c : ChildrenC) → {p : Nat} → {fol : Str} → c.Ok true fol → {n : SpannedNode (Sp Nat)} →
    {k : Spanned (List (SpannedNode (Sp Nat))) (Sp Nat)} → c.value f p = some k → Occurs n k.value →
    ∃ (m : NodeC) (A Z : Str), c.text = A ++ (m.text ++ Z) ∧ n = m.value f (p + A.length) ∧ m.Ok true (Z ++ fol) ∧
      ∀ y : BodyC, Fill (Z ++ fol) y → ∃ c' : ChildrenC, c'.text = A ++ (y.text ++ Z) ∧ c'.Ok true fol ∧
        c'.text.head? = c.text.head? ∧ c'.text ≠ [] ∧
        ∃ k', c'.value (fun _ _ => ()) 0 = some ⟨(), k'⟩ ∧ Replaced n (y.value (fun _ _ => ()) 0) k.value k'
  | .none, _, _, _, _, _, hk, _ => by simp [ChildrenC.value] at hk
  | .some space (some d) body, _, _, _, _, _, hk, _ => by simp [ChildrenC.value] at hk
  | .some space none body, p, fol, hok, n, k, hk, hn => by
    rw [ChildrenC.Ok] at hok
    obtain ⟨h1, h2, h3⟩ := hok
    simp only [ChildrenC.value, Option.some.injEq] at hk
    subst hk
    obtain ⟨m, A, Z, hb, hm, hmo, hr⟩ := edit_body f body h3 hn
    refine ⟨m, spacesText space ++ '{' :: A, Z ++ ['}'], by simp [ChildrenC.text, dashText, hb], ?_, by simpa using hmo, ?_⟩
    · rw [hm]
      congr 1
      simp only [List.length_append, List.length_cons]
      omega
    · intro y hy
      obtain ⟨b', g1, g2, -, g4⟩ := hr y (by simpa using hy)
      have hh : ∀ r r' : Str, (spacesText space ++ '{' :: r).head? = (spacesText space ++ '{' :: r').head? := by
        intro r r'; cases spacesText space <;> simp
      refine ⟨.some space none b', by simp [ChildrenC.text, dashText, g1], ?_, ?_, by simp [ChildrenC.text], ?_⟩
      · rw [ChildrenC.Ok]
        exact ⟨h1.congr (by simp [dashText]), trivial, g2⟩
      · simp only [ChildrenC.text, dashText, List.append_nil, List.append_assoc, List.cons_append]
        exact hh _ _
      · refine ⟨_, rfl, ?_⟩
        rw [body_unit g2 _ 0]
        exact g4
theorem edit_body (f : Nat → Nat → Sp Nat) : (b : BodyC) → {p : Nat} → {fol : Str} → b.Ok true fol → {n : SpannedNode (Sp Nat)} →
    Occurs n (b.value f p) → CanReplace f p b fol n
  | .nil _, _, _, _, _, hn => (not_occurs_nil hn).elim
  | .cons lines dash node rest, p, fol, hok, n, hn => by
    rw [BodyC.Ok] at hok
    obtain ⟨h1, h2, h3, h4⟩ := hok
    have hne := node_head h3
    have hrest : Occurs n (rest.value f (p + (linesText lines ++ dashText dash).length + node.text.length)) →
        CanReplace f p (.cons lines dash node rest) fol n := by
      intro hn
      obtain ⟨c, A, Z, e1, e2, e3, hr⟩ := edit_body f rest h4 hn
      refine ⟨c, linesText lines ++ dashText dash ++ node.text ++ A, Z, by simp [BodyC.text, e1], ?_, e3, ?_⟩
      · rw [e2]
        congr 1
        simp only [List.length_append]
        omega
      · intro y hy
        obtain ⟨b', g1, g2, g3, g4⟩ := hr y hy
        refine ⟨.cons lines dash node b', by simp [BodyC.text, g1], ?_, ?_, ?_⟩
        · rw [BodyC.Ok]
          refine ⟨h1.congr ?_, h2.congr ?_, NodeC.Ok.instead (g3 fol) node h3, g2⟩
          · rw [List.append_assoc _ rest.text, List.append_assoc _ b'.text]
            exact head_more (by simp [hne.1]) _ _
          · rw [List.append_assoc _ rest.text, List.append_assoc _ b'.text]
            exact head_more hne.1 _ _
        · intro g
          rw [BodyC.text, BodyC.text]
          refine ⟨by simp [hne.1], by simp [hne.1], .inl ?_⟩
          rw [List.append_assoc _ rest.text, List.append_assoc _ b'.text]
          exact head_more (by simp [hne.1]) _ _
        · cases dash with
          | some d =>
            simp only [BodyC.value]
            rw [body_unit g2 _ 0]
            exact g4
          | none =>
            simp only [BodyC.value]
            rw [body_unit g2 _ 0, ← forget_node h3 f (p + (linesText lines ++ dashText none).length)]
            exact g4.behind _
    cases dash with
    | some d => exact hrest hn
    | none =>
      simp only [BodyC.value] at hn
      rcases occurs_cons hn with rfl | ⟨k, hk, hk'⟩ | hn
      · -- the node itself
        refine ⟨node, linesText lines, rest.text, by simp [BodyC.text, dashText], by simp [dashText], h3, ?_⟩
        intro y hy
        refine ⟨(y.join rest).after lines, by simp [BodyC.after_text, BodyC.join_text], ?_, ?_, ?_⟩
        · refine BodyC.after_ok (h1.instead ?_) (BodyC.join_ok y hy.ok h4)
          rw [BodyC.join_text]
          simp only [dashText, List.nil_append, List.append_assoc]
          refine ⟨by simp [hne.1], by simp [hy.ne], .inr ?_⟩
          have := head_more hy.ne (rest.text ++ fol) []
          rw [this, List.append_nil]
          exact hy.head
        · intro g
          rw [BodyC.after_text, BodyC.join_text, BodyC.text]
          simp only [dashText, List.append_assoc, List.append_nil]
          refine Instead.append _ ⟨by simp [hne.1], by simp [hy.ne], .inr ?_⟩
          have := head_more hy.ne (rest.text ++ g) []
          rw [this, List.append_nil]
          exact hy.head
        · rw [after_value, join_value, body_unit hy.ok (0 + (linesText lines).length) 0]
          simp only [BodyC.value]
          rw [← forget_body h4 f (p + (linesText lines ++ dashText none).length + node.text.length)]
          exact .here (a := [])
      · -- inside its children block
        obtain ⟨ty, name, items, children, space, term⟩ := node
        obtain ⟨m, A, Z, e1, e2, e3, hr⟩ := edit_children f children h3.2.2.2.2.2.1 hk hk'
        refine ⟨m, linesText lines ++ (tyText ty ++ name.text ++ itemsText items) ++ A, Z ++ spacesText space ++ term.text ++ rest.text,
          by simp [BodyC.text, NodeC.text, dashText, e1], ?_, by simpa using e3, ?_⟩
        · rw [e2]
          congr 1
          simp only [List.length_append, dashText, List.length_nil]
          omega
        · intro y hy
          obtain ⟨c', g1, g2, g3, g3', k', g4, g5⟩ := hr y (by simpa using hy)
          obtain ⟨q1, q2, q3, q4, q5, q6, q7, q8⟩ := h3
          have hcne : children.text ≠ [] := by
            intro hc
            rw [hc] at g3
            exact g3' (List.head?_eq_none_iff.1 g3)
          have hhead : ∀ a r r' : Str, (a ++ c'.text ++ r).head? = (a ++ children.text ++ r').head? := by
            intro a r r'
            cases a with
            | cons => simp
            | nil =>
              cases h5 : children.text with
              | nil => exact absurd h5 hcne
              | cons x l =>
                rw [h5] at g3
                cases h6 : c'.text with
                | nil => exact absurd h6 g3'
                | cons x' l' =>
                  rw [h6] at g3
                  simpa using g3
          have hb : (BodyC.cons lines none (.mk ty name items c' space term) rest).Ok true fol := by
            rw [BodyC.Ok, NodeC.Ok]
            refine ⟨h1.congr ?_, trivial, ⟨q1, q2, q3, q4.congr ?_, q5.any, ChildrenC.Ok.any c' g2, q7, q8⟩, h4⟩
            · simp only [NodeC.text, dashText, List.nil_append]
              have := hhead (tyText ty ++ name.text ++ itemsText items) (spacesText space ++ term.text ++ rest.text ++ fol) (spacesText space ++ term.text ++ rest.text ++ fol)
              simp only [List.append_assoc] at this ⊢
              exact this.symm
            · have := hhead (itemsText items) (spacesText space ++ term.text ++ (rest.text ++ fol)) (spacesText space ++ term.text ++ (rest.text ++ fol))
              simp only [List.append_assoc] at this ⊢
              exact this.symm
          refine ⟨_, ?_, hb, ?_, ?_⟩
          · simp [BodyC.text, NodeC.text, dashText, g1]
          · intro g
            simp only [BodyC.text, NodeC.text, dashText, List.append_nil]
            have := hhead (linesText lines ++ (tyText ty ++ name.text ++ itemsText items)) (spacesText space ++ term.text ++ rest.text ++ g) (spacesText space ++ term.text ++ rest.text ++ g)
            refine ⟨by simp [hcne], by simp [g3'], .inl ?_⟩
            simp only [List.append_assoc] at this ⊢
            exact this.symm
          · have hc0 : ∀ q, c'.value (fun _ _ => ()) q = some ⟨(), k'⟩ := by
              intro q
              have := children_map (g := fun _ : Unit => ()) (f := fun _ _ => ()) (f' := fun _ _ => ()) (p := 0) (p' := q) c'
                (fun _ _ _ _ _ _ _ _ _ => rfl) (Nat.le_refl _) g2
              rw [← this, g4]
              simp only [mapChildren]
              rw [show (fun _ : Unit => ()) = id from rfl, mapNodes_id]
            have hv : ∀ q, (NodeC.mk ty name items c' space term).value (fun _ _ => ()) q =
                ⟨(), (((NodeC.mk ty name items children space term).value f (p + (linesText lines ++ dashText none).length)).value.mapSpan
                  (fun _ => ())).withChildren (some ⟨(), k'⟩)⟩ := by
              intro q
              have := forget_node (c := .mk ty name items children space term) (fol := rest.text ++ fol)
                ⟨q1, q2, q3, q4, q5, q6, q7, q8⟩ f (p + (linesText lines ++ dashText none).length) q
              injection this with _ this
              rw [this]
              simp only [NodeC.value, Node.withChildren, hc0]
            simp only [BodyC.value]
            rw [hv, ← forget_body h4 f (p + (linesText lines ++ dashText none).length + (NodeC.mk ty name items children space term).text.length)]
            exact Replaced.inside (a := []) hk g5
      · exact hrest hn
end

/-! ### Other values in the place of a value -/

theorem entry_instead {e e' : Entry} (h' : e'.Ok) (f f' : Str) : Instead (e.text ++ f) (e'.text ++ f') := by
  obtain ⟨c, r, hc⟩ := entry_ne_nil e
  obtain ⟨c', r', hc', hs⟩ := entry_solid h'
  refine ⟨by simp [hc], by simp [hc'], .inr ?_⟩
  rw [hc']
  simp only [List.cons_append, List.head?_cons, ne_eq, Option.some.injEq]
  rintro rfl
  exact hs.2.1 (by decide)

/-- An item with another entry. -/
theorem Cst.Item.Ok.entry {b} {f : Str} {i : Item} (hi : i.Ok b f) {e : Entry} (he : e.Ok) (hd : i.dash = none) (f' : Str) :
    Item.Ok b f' { i with entry := e } := by
  refine ⟨hi.1, ?_, by simp [hd, DashOk], he⟩
  have := hi.2.1
  rw [hd] at this
  simp only [hd, dashText, List.nil_append] at this ⊢
  exact this.instead (entry_instead he _ _)

theorem itemsText_append (l l' : List Item) : itemsText (l ++ l') = itemsText l ++ itemsText l' := by simp [itemsText]

theorem itemsOk_join {b} {l l' : List Item} {f : Str} (h1 : ItemsOk b (itemsText l' ++ f) l) (h2 : ItemsOk b f l') :
    ItemsOk b f (l ++ l') := by
  induction l with
  | nil => exact h2
  | cons x l ih =>
    refine ⟨?_, ih h1.2⟩
    show Item.Ok b (itemsText (l ++ l') ++ f) x
    rw [itemsText_append, List.append_assoc]
    exact h1.1

theorem itemsOk_split {b} {l l' : List Item} {f : Str} (h : ItemsOk b f (l ++ l')) :
    ItemsOk b (itemsText l' ++ f) l ∧ ItemsOk b f l' := by
  induction l with
  | nil => exact ⟨trivial, h⟩
  | cons x l ih =>
    obtain ⟨h1, h2⟩ := ih h.2
    refine ⟨⟨?_, h1⟩, h2⟩
    have : Item.Ok b (itemsText (l ++ l') ++ f) x := h.1
    rw [itemsText_append, List.append_assoc] at this
    exact this

theorem itemsArgs_append {S : Type} (f : Nat → Nat → S) (l l' : List Item) : ∀ p,
    itemsArgs f p (l ++ l') = itemsArgs f p l ++ itemsArgs f (p + (itemsText l).length) l' := by
  induction l with
  | nil => intro p; simp [itemsArgs, itemsText]
  | cons i l ih =>
    intro p
    have e : p + i.text.length + (itemsText l).length = p + (itemsText (i :: l)).length := by simp [itemsText, Nat.add_assoc]
    rw [List.cons_append]
    cases hd : i.dash with
    | some d => simp only [itemsArgs, hd, ih, e]
    | none => cases he : i.entry <;> simp only [itemsArgs, hd, he, ih, e, List.cons_append]

theorem itemsProps_append {S : Type} (f : Nat → Nat → S) (l l' : List Item) : ∀ p,
    itemsProps f p (l ++ l') = itemsProps f p l ++ itemsProps f (p + (itemsText l).length) l' := by
  induction l with
  | nil => intro p; simp [itemsProps, itemsText]
  | cons i l ih =>
    intro p
    have e : p + i.text.length + (itemsText l).length = p + (itemsText (i :: l)).length := by simp [itemsText, Nat.add_assoc]
    rw [List.cons_append]
    cases hd : i.dash with
    | some d => simp only [itemsProps, hd, ih, e]
    | none => cases he : i.entry <;> simp only [itemsProps, hd, he, ih, e, List.cons_append]

/-- Forget the spans of a value. -/
theorem forget_args {b fol} {l : List Item} (h : ItemsOk b fol l) {S : Type} (f : Nat → Nat → S) (p q : Nat) :
    (itemsArgs f p l).map (Value.mapSpan fun _ => ()) = itemsArgs (fun _ _ => ()) q l :=
  itemsArgs_map (g := fun _ : S => ()) (p' := q) (fun _ _ _ _ _ _ _ _ _ => rfl) (Nat.le_refl _) h

theorem forget_props {b fol} {l : List Item} (h : ItemsOk b fol l) {S : Type} (f : Nat → Nat → S) (p q : Nat) :
    mapProps (fun _ => ()) (itemsProps f p l) = itemsProps (fun _ _ => ()) q l :=
  itemsProps_map (g := fun _ : S => ()) (p' := q) (fun _ _ _ _ _ _ _ _ _ => rfl) (Nat.le_refl _) h

theorem args_unit {b fol} {l : List Item} (h : ItemsOk b fol l) (p q : Nat) :
    itemsArgs (fun _ _ => ()) p l = itemsArgs (fun _ _ => ()) q l :=
  (forget_args h (fun _ _ => ()) 0 p).symm.trans (forget_args h (fun _ _ => ()) 0 q)

theorem props_unit {b fol} {l : List Item} (h : ItemsOk b fol l) (p q : Nat) :
    itemsProps (fun _ _ => ()) p l = itemsProps (fun _ _ => ()) q l :=
  (forget_props h (fun _ _ => ()) 0 p).symm.trans (forget_props h (fun _ _ => ()) 0 q)

theorem children_unit {b fol} {c : ChildrenC} (h : c.Ok b fol) (p q : Nat) :
    c.value (fun _ _ => ()) p = c.value (fun _ _ => ()) q :=
  (children_map (g := fun _ : Unit => ()) (f := fun _ _ => ()) (p := 0) (p' := p) c (fun _ _ _ _ _ _ _ _ _ => rfl) (Nat.le_refl _) h).symm.trans
    (children_map (g := fun _ : Unit => ()) (f := fun _ _ => ()) (p := 0) (p' := q) c (fun _ _ _ _ _ _ _ _ _ => rfl) (Nat.le_refl _) h)

theorem forget_val {S : Type} (f : Nat → Nat → S) (c : Val) (p q : Nat) :
    (c.value f p).mapSpan (fun _ => ()) = c.value (fun _ _ => ()) q :=
  val_map (g := fun _ : S => ()) (p' := q) (fun _ _ _ _ _ _ _ _ _ => rfl) (Nat.le_refl _)

/-- Where an argument comes from. -/
theorem args_split {S : Type} (f : Nat → Nat → S) {l : List Item} : ∀ {p a x b}, itemsArgs f p l = a ++ x :: b →
    ∃ l1 i l2 c, l = l1 ++ i :: l2 ∧ i.dash = none ∧ i.entry = .arg c ∧
      x = c.value f (p + (itemsText l1 ++ spacesText i.before).length) ∧ itemsArgs f p l1 = a ∧
      itemsArgs f (p + (itemsText l1 ++ i.text).length) l2 = b := by
  induction l with
  | nil => intro p a x b h; simp [itemsArgs] at h
  | cons i l ih =>
    intro p a x b h
    have skip : itemsArgs f p (i :: l) = itemsArgs f (p + i.text.length) l → itemsArgs f p [i] = [] → 
        ∃ l1 j l2 c, i :: l = l1 ++ j :: l2 ∧ j.dash = none ∧ j.entry = .arg c ∧
      x = c.value f (p + (itemsText l1 ++ spacesText j.before).length) ∧ itemsArgs f p l1 = a ∧
      itemsArgs f (p + (itemsText l1 ++ j.text).length) l2 = b := by
      intro h1 h2
      rw [h1] at h
      obtain ⟨l1, j, l2, c, rfl, e1, e2, e3, e4, e5⟩ := ih h
      refine ⟨i :: l1, j, l2, c, rfl, e1, e2, ?_, ?_, ?_⟩
      · rw [e3]; congr 1; simp [itemsText]; omega
      · have := itemsArgs_append f [i] l1 p
        rw [List.singleton_append] at this
        rw [this, h2, List.nil_append, ← e4]
        simp [itemsText]
      · rw [← e5]; congr 1; simp [itemsText]; omega
    cases hd : i.dash with
    | some d => exact skip (by simp [itemsArgs, hd]) (by simp [itemsArgs, hd])
    | none =>
      cases he : i.entry with
      | prop k c => exact skip (by simp [itemsArgs, hd, he]) (by simp [itemsArgs, hd, he])
      | arg c =>
        have hcons : itemsArgs f p (i :: l) = c.value f (p + (spacesText i.before).length) :: itemsArgs f (p + i.text.length) l := by
          simp [itemsArgs, hd, he, dashText]
        cases a with
        | nil =>
          rw [hcons] at h
          simp only [List.nil_append, List.cons.injEq] at h
          exact ⟨[], i, l, c, rfl, hd, he, by simp [itemsText, h.1], rfl, by simpa [itemsText] using h.2⟩
        | cons y a =>
          rw [hcons] at h
          simp only [List.cons_append, List.cons.injEq] at h
          obtain ⟨l1, j, l2, c', rfl, e1, e2, e3, e4, e5⟩ := ih h.2
          refine ⟨i :: l1, j, l2, c', rfl, e1, e2, ?_, ?_, ?_⟩
          · rw [e3]; congr 1; simp [itemsText]; omega
          · simp [itemsArgs, hd, he, dashText, h.1, e4]
          · rw [← e5]; congr 1; simp [itemsText]; omega

/-- Where a property comes from. -/
theorem props_split {S : Type} (f : Nat → Nat → S) {l : List Item} : ∀ {p a k x b}, itemsProps f p l = a ++ (k, x) :: b →
    ∃ l1 i l2 n c, l = l1 ++ i :: l2 ∧ i.dash = none ∧ i.entry = .prop n c ∧ k.value = n.value ∧
      x = c.value f (p + (itemsText l1 ++ spacesText i.before ++ n.text).length + 1) ∧ itemsProps f p l1 = a ∧
      itemsProps f (p + (itemsText l1 ++ i.text).length) l2 = b := by
  induction l with
  | nil => intro p a k x b h; simp [itemsProps] at h
  | cons i l ih =>
    intro p a k x b h
    have skip : itemsProps f p (i :: l) = itemsProps f (p + i.text.length) l → itemsProps f p [i] = [] → 
        ∃ l1 j l2 n c, i :: l = l1 ++ j :: l2 ∧ j.dash = none ∧ j.entry = .prop n c ∧ k.value = n.value ∧
      x = c.value f (p + (itemsText l1 ++ spacesText j.before ++ n.text).length + 1) ∧ itemsProps f p l1 = a ∧
      itemsProps f (p + (itemsText l1 ++ j.text).length) l2 = b := by
      intro h1 h2
      rw [h1] at h
      obtain ⟨l1, j, l2, n, c, rfl, e1, e2, e0, e3, e4, e5⟩ := ih h
      refine ⟨i :: l1, j, l2, n, c, rfl, e1, e2, e0, ?_, ?_, ?_⟩
      · rw [e3]; congr 1; simp [itemsText]; omega
      · have := itemsProps_append f [i] l1 p
        rw [List.singleton_append] at this
        rw [this, h2, List.nil_append, ← e4]
        simp [itemsText]
      · rw [← e5]; congr 1; simp [itemsText]; omega
    cases hd : i.dash with
    | some d => exact skip (by simp [itemsProps, hd]) (by simp [itemsProps, hd])
    | none =>
      cases he : i.entry with
      | arg c => exact skip (by simp [itemsProps, hd, he]) (by simp [itemsProps, hd, he])
      | prop n c =>
        have hcons : itemsProps f p (i :: l) = (⟨f (p + (spacesText i.before).length) (p + (spacesText i.before).length + n.text.length), n.value⟩,
            c.value f (p + (spacesText i.before ++ n.text).length + 1)) :: itemsProps f (p + i.text.length) l := by
          simp [itemsProps, hd, he, dashText, Nat.add_assoc]
        cases a with
        | nil =>
          rw [hcons] at h
          simp only [List.nil_append, List.cons.injEq, Prod.mk.injEq] at h
          exact ⟨[], i, l, n, c, rfl, hd, he, by rw [← h.1.1], by simp [itemsText, ← h.1.2], rfl, by simpa [itemsText] using h.2⟩
        | cons y a =>
          rw [hcons] at h
          simp only [List.cons_append, List.cons.injEq] at h
          obtain ⟨l1, j, l2, n', c', rfl, e1, e2, e0, e3, e4, e5⟩ := ih h.2
          refine ⟨i :: l1, j, l2, n', c', rfl, e1, e2, e0, ?_, ?_, ?_⟩
          · rw [e3]; congr 1; simp [itemsText]; omega
          · have := itemsProps_append f [i] l1 p
            rw [List.singleton_append] at this
            rw [this, ← h.1]
            simp only [itemsText, List.flatMap_cons, List.flatMap_nil, List.append_nil]
            rw [e4]
            simp [itemsProps, hd, he, dashText, Nat.add_assoc]
          · rw [← e5]; congr 1; simp [itemsText]; omega

theorem setProp_other {S : Type} {k : Str} {x : Value S} {l : List (Spanned Str S × Value S)}
    (h : ∀ kv ∈ l, kv.1.value ≠ k) : setProp k x l = l := by
  unfold setProp
  rw [List.map_congr_left (g := id), List.map_id]
  intro kv hkv
  simp [h kv hkv]

theorem setProp_insert {S : Type} {k : Str} {k' : Spanned Str S} {x x' : Value S} (hk : k'.value = k) {l : List (Spanned Str S × Value S)}
    (hs : (l.map (·.1.value)).Pairwise (· < ·)) :
    setProp k x' (propInsert k' x l) = propInsert k' x' l := by
  induction l with
  | nil => simp [propInsert, setProp, hk]
  | cons kv l ih =>
    obtain ⟨a, v⟩ := kv
    simp only [List.map_cons, List.pairwise_cons] at hs
    have hno : ∀ kv ∈ l, strLt a.value kv.1.value = true := fun kv h => (strLt_iff _ _).2 (hs.1 _ (List.mem_map.2 ⟨kv, h, rfl⟩))
    unfold propInsert
    split
    · rename_i e
      have : setProp k x' l = l := setProp_other fun kv h he => by
        have := hno kv h
        rw [he, ← hk, e, strLt_irrefl] at this
        exact absurd this (by simp)
      have h1 : a.value = k := e.symm.trans hk
      show setProp k x' ([(a, x)] ++ l) = _
      rw [setProp, List.map_append, ← setProp, ← setProp, this]
      simp [setProp, h1]
    · rename_i hne
      split
      · rename_i hlt
        have : setProp k x' ((a, v) :: l) = (a, v) :: l := setProp_other fun kv h he => by
          rcases List.mem_cons.1 h with rfl | h
          · exact hne (hk.trans he.symm)
          · have := strLt_trans hlt (hno kv h)
            rw [he, hk, strLt_irrefl] at this
            exact absurd this (by simp)
        show setProp k x' ([(k', x)] ++ (a, v) :: l) = _
        rw [setProp, List.map_append, ← setProp, ← setProp, this]
        simp [setProp, hk]
      · have h1 : a.value ≠ k := fun e => hne (hk.trans e.symm)
        show setProp k x' ([(a, v)] ++ propInsert k' x l) = _
        rw [setProp, List.map_append, ← setProp, ← setProp, ih hs.2]
        simp [setProp, h1]

theorem setProp_insert_other {S : Type} {k : Str} {j : Spanned Str S} {x y : Value S} (hk : j.value ≠ k) (l : List (Spanned Str S × Value S)) :
    setProp k x (propInsert j y l) = propInsert j y (setProp k x l) := by
  induction l with
  | nil => simp [propInsert, setProp, hk]
  | cons kv l ih =>
    obtain ⟨a, v⟩ := kv
    have hc : setProp k x ((a, v) :: l) = (a, if a.value = k then x else v) :: setProp k x l := by
      simp only [setProp, List.map_cons]
      split <;> rfl
    have hc' : ∀ b w l, setProp k x ((b, w) :: l) = (b, if b.value = k then x else w) :: setProp k x l := by
      intro b w l
      simp only [setProp, List.map_cons]
      split <;> rfl
    rw [hc]
    unfold propInsert
    split
    · rename_i e
      have : a.value ≠ k := e ▸ hk
      rw [hc', if_neg this]
    · split
      · rw [hc', hc', if_neg hk]
      · rw [hc', ih]

theorem setProp_map {S : Type} {k : Str} {k' : Spanned Str S} {x x' : Value S} (hk : k'.value = k) {l1 l2 : List (Spanned Str S × Value S)}
    (h2 : ∀ kv ∈ l2, kv.1.value ≠ k) :
    setProp k x' (propMap (l1 ++ (k', x) :: l2)) = propMap (l1 ++ (k', x') :: l2) := by
  have key : ∀ (l2 : List (Spanned Str S × Value S)), (∀ kv ∈ l2, kv.1.value ≠ k) → ∀ m m', setProp k x' m = m' →
      setProp k x' (l2.foldl (fun m kv => propInsert kv.1 kv.2 m) m) = l2.foldl (fun m kv => propInsert kv.1 kv.2 m) m' := by
    intro l2
    induction l2 with
    | nil => intro _ m m' h; exact h
    | cons c l ih =>
      intro h m m' hm
      refine ih (fun kv hkv => h kv (List.mem_cons_of_mem _ hkv)) _ _ ?_
      rw [setProp_insert_other (h c (by simp)), hm]
  unfold propMap
  rw [List.foldl_append, List.foldl_append, List.foldl_cons, List.foldl_cons]
  exact key l2 h2 _ _ (setProp_insert hk (propMap_sorted l1))

theorem propInsert_of {S : Type} {k c : Spanned Str S} {x v : Value S} {m : List (Spanned Str S × Value S)}
    (hs : (m.map (·.1.value)).Pairwise (· < ·)) (h : (k, x) ∈ propInsert c v m) :
    k.value = c.value ∧ x = v ∨ k.value ≠ c.value ∧ (k, x) ∈ m := by
  induction m with
  | nil =>
    simp only [propInsert, List.mem_singleton, Prod.mk.injEq] at h
    exact .inl ⟨by rw [h.1], h.2⟩
  | cons kv l ih =>
    obtain ⟨a, w⟩ := kv
    simp only [List.map_cons, List.pairwise_cons] at hs
    have hno : ∀ kv ∈ l, strLt a.value kv.1.value = true := fun kv h => (strLt_iff _ _).2 (hs.1 _ (List.mem_map.2 ⟨kv, h, rfl⟩))
    unfold propInsert at h
    split at h
    · rename_i e
      rcases List.mem_cons.1 h with h | h
      · simp only [Prod.mk.injEq] at h
        exact .inl ⟨by rw [h.1, e], h.2⟩
      · refine .inr ⟨fun he => ?_, List.mem_cons_of_mem _ h⟩
        have := hno _ h
        rw [he, e, strLt_irrefl] at this
        exact absurd this (by simp)
    · rename_i hne
      split at h
      · rename_i hlt
        rcases List.mem_cons.1 h with h | h
        · simp only [Prod.mk.injEq] at h
          exact .inl ⟨by rw [h.1], h.2⟩
        · refine .inr ⟨fun he => ?_, h⟩
          rcases List.mem_cons.1 h with h | h
          · simp only [Prod.mk.injEq] at h
            exact hne (by rw [← he, h.1])
          · have := strLt_trans hlt (hno _ h)
            rw [he, strLt_irrefl] at this
            exact absurd this (by simp)
      · rcases List.mem_cons.1 h with h | h
        · simp only [Prod.mk.injEq] at h
          exact .inr ⟨fun he => hne (by rw [← he, h.1]), by rw [h.1, h.2]; exact List.mem_cons_self ..⟩
        · rcases ih hs.2 h with h | h
          · exact .inl h
          · exact .inr ⟨h.1, List.mem_cons_of_mem _ h.2⟩

/-- A property in the map is the last one of its name. -/
theorem propMap_last {S : Type} {k : Spanned Str S} {x : Value S} : ∀ {l : List (Spanned Str S × Value S)}, (k, x) ∈ propMap l →
    ∃ l1 k' l2, l = l1 ++ (k', x) :: l2 ∧ k'.value = k.value ∧ ∀ kv ∈ l2, kv.1.value ≠ k.value := by
  suffices ∀ n, ∀ l : List (Spanned Str S × Value S), l.length = n → (k, x) ∈ propMap l →
    ∃ l1 k' l2, l = l1 ++ (k', x) :: l2 ∧ k'.value = k.value ∧ ∀ kv ∈ l2, kv.1.value ≠ k.value from fun {l} => this _ l rfl
  intro n
  induction n with
  | zero => intro l hl h; rw [List.length_eq_zero_iff.1 hl] at h; simp [propMap] at h
  | succ n ih =>
    intro l hl h
    rcases List.eq_nil_or_concat l with rfl | ⟨a, c, rfl⟩
    · simp at hl
    · rw [List.concat_eq_append] at hl h ⊢
      rw [propMap_snoc] at h
      rcases propInsert_of (propMap_sorted a) h with ⟨h1, h2⟩ | ⟨h1, h2⟩
      · exact ⟨a, c.1, [], by rw [h2], h1.symm, by simp⟩
      · obtain ⟨l1, k', l2, rfl, e1, e2⟩ := ih a (by simpa using hl) h2
        refine ⟨l1, k', l2 ++ [c], by simp, e1, ?_⟩
        intro kv hkv
        rcases List.mem_append.1 hkv with hkv | hkv
        · exact e2 kv hkv
        · rw [List.mem_singleton.1 hkv]
          exact fun e => h1 e.symm

end Knuffel
