import Verif.Theory.UniqueTok
/-! Lemmas for C86: a text is that of at most one sequence of nodes. -/

set_option linter.unusedSimpArgs false

namespace Knuffel
open Cst

theorem solid_slash {c : Char} {w x : Str} (hc : Solid c) : c :: w ≠ '/' :: x := by
  intro h; simp at h; exact hc.2.2.1 h.1

theorem uniq_dash {d e : Option (List Cst.Space)} {f g : Str} (hd : DashOk true f d) (he : DashOk true g e)
    (hf : NoSpace f) (hg : NoSpace g) (hf' : f.head? ≠ some '/') (hg' : g.head? ≠ some '/')
    (h : dashText d ++ f = dashText e ++ g) : d = e ∧ f = g := by
  cases d with
  | none =>
    cases e with
    | none => exact ⟨rfl, h⟩
    | some l => exact absurd (by rw [show f = dashText (some l) ++ g from h]; rfl) hf'
  | some l =>
    cases e with
    | none => exact absurd (by rw [show g = dashText (some l) ++ f from h.symm]; rfl) hg'
    | some m =>
      simp only [dashText, List.cons_append, List.append_assoc, List.cons.injEq, true_and, List.nil_append] at h
      replace h := uniq_spaces hd he hf hg h
      obtain ⟨rfl, h⟩ := h
      exact ⟨rfl, h⟩

theorem noSpace_dashed {d : Option (List Cst.Space)} {f : Str} (hf : NoSpace f) : NoSpace (dashText d ++ f) := by
  cases d with
  | none => exact hf
  | some l => exact noSpace_dash

theorem entry_front {e : Entry} {f : Str} (he : e.Ok) : NoSpace (e.text ++ f) ∧ (e.text ++ f).head? ≠ some '/' := by
  obtain ⟨c, w, h1, h2⟩ := entry_solid he
  rw [h1]
  exact ⟨h2.noSpace, by simpa using h2.2.2.1⟩

theorem uniq_item {i j : Item} {f g : Str} (hi : i.Ok true f) (hj : j.Ok true g) (hf : EndTok f) (hg : EndTok g)
    (h : i.text ++ f = j.text ++ g) : i = j ∧ f = g := by
  obtain ⟨l, d, e⟩ := i
  obtain ⟨m, d', e'⟩ := j
  obtain ⟨_, h1, h2, h3⟩ := hi
  obtain ⟨_, g1, g2, g3⟩ := hj
  simp only [Item.text, List.append_assoc] at h h1 g1 h2 g2 h3 g3
  replace h := uniq_spaces h1 g1 (noSpace_dashed (entry_front h3).1) (noSpace_dashed (entry_front g3).1) h
  obtain ⟨rfl, h⟩ := h
  replace h := uniq_dash h2 g2 (entry_front h3).1 (entry_front g3).1 (entry_front h3).2 (entry_front g3).2 h
  obtain ⟨rfl, h⟩ := h
  replace h := uniq_entry h3 g3 hf hg h
  obtain ⟨rfl, h⟩ := h
  exact ⟨rfl, h⟩

/-- What comes behind the entries of a node. -/
def Behind (f : Str) : Prop :=
  EndTok f ∧ ∃ sp d x, f = spacesText sp ++ (dashText d ++ x) ∧ SpacesOk true (dashText d ++ x) sp ∧ DashOk true x d ∧
    ((d = none ∧ Stopper x) ∨ x.head? = some '{')

theorem Behind.front {d : Option (List Cst.Space)} {x : Str} (h : (d = none ∧ Stopper x) ∨ x.head? = some '{') :
    NoSpace (dashText d ++ x) := by
  rcases h with ⟨rfl, h⟩ | h
  · exact h.1
  · obtain ⟨w, rfl⟩ := head_eq_some.1 h
    exact noSpace_dashed noSpace_brace

/-- No entry begins behind the entries. -/
theorem behind_item {i : Item} {f g : Str} (hf : Behind f) (hi : i.Ok true g) : f ≠ i.text ++ g := by
  intro h
  obtain ⟨_, sp, d, x, rfl, h1, h2, h3⟩ := hf
  obtain ⟨l, d', e⟩ := i
  obtain ⟨_, g1, g2, g3⟩ := hi
  simp only [Item.text, List.append_assoc] at h g1 g2 g3
  obtain ⟨_, h⟩ := uniq_spaces h1 g1 (Behind.front h3) (noSpace_dashed (entry_front g3).1) h
  obtain ⟨c, w, hc, hcs, _⟩ := entry_head g3
  obtain ⟨c', w', hc', hsol⟩ := entry_solid g3
  have hcc : c = c' := by rw [hc] at hc'; simpa using congrArg List.head? hc'
  subst hcc
  rcases h3 with ⟨rfl, h3⟩ | h3
  · cases d' with
    | none =>
      simp only [dashText, List.nil_append, hc, List.cons_append] at h
      have := h3.2.2.2 c (by rw [h]; rfl)
      rcases hcs with hcs | hcs | hcs | hcs
      · exact this.2.2.2 hcs
      · exact this.2.2.1 hcs
      · exact this.1 hcs
      · exact this.2.1 hcs
    | some l' => exact h3.2.1 ⟨spacesText l' ++ (e.text ++ g), by simp [← h, dashText] at *; simpa [dashText] using h.symm⟩
  · obtain ⟨w'', rfl⟩ := head_eq_some.1 h3
    have := (uniq_dash h2 g2 noSpace_brace (entry_front g3).1 (by simp) (entry_front g3).2 h).2
    rw [hc] at this
    simp at this
    exact hsol.2.2.2.2.1 this.1.symm

theorem uniq_items : ∀ {l m : List Item} {f g : Str}, ItemsOk true f l → ItemsOk true g m → Behind f → Behind g →
    itemsText l ++ f = itemsText m ++ g → l = m ∧ f = g
  | [], [], _, _, _, _, _, _, h => ⟨rfl, h⟩
  | [], i :: m, f, g, _, hm, hf, _, h => by
    simp only [itemsText, List.flatMap_nil, List.nil_append, List.flatMap_cons, List.append_assoc] at h
    exact (behind_item hf hm.1 h).elim
  | i :: l, [], f, g, hl, _, _, hg, h => by
    simp only [itemsText, List.flatMap_nil, List.nil_append, List.flatMap_cons, List.append_assoc] at h
    exact (behind_item hg hl.1 h.symm).elim
  | i :: l, j :: m, f, g, hl, hm, hf, hg, h => by
    simp only [itemsText, List.flatMap_cons, List.append_assoc] at h
    replace h := uniq_item hl.1 hm.1 (endTok_items hl.2 hf.1) (endTok_items hm.2 hg.1) h
    obtain ⟨rfl, h⟩ := h
    replace h := uniq_items hl.2 hm.2 hf hg h
    obtain ⟨rfl, h⟩ := h
    exact ⟨rfl, h⟩

/-- Behind the entries: the children, the space and the end of the node. -/
theorem behind_node {ch : ChildrenC} {sp : List Cst.Space} {term : Term} {f : Str}
    (h1 : ch.Ok true (spacesText sp ++ term.text ++ f)) (h2 : SpacesOk true (term.text ++ f) sp) (h3 : term.Ok f) :
    Behind (ch.text ++ (spacesText sp ++ (term.text ++ f))) := by
  have e := endTok_spaces h2 (endTok_term h3)
  cases ch with
  | none => exact ⟨e, sp, none, term.text ++ f, rfl, h2, trivial, Or.inl ⟨rfl, term_stopper h3⟩⟩
  | some sp' d b =>
    have h1' : (ChildrenC.some sp' d b).Ok true (spacesText sp ++ (term.text ++ f)) := by simpa using h1
    refine ⟨endTok_children h1' e, sp', d, '{' :: b.text ++ '}' :: (spacesText sp ++ (term.text ++ f)), ?_, ?_, h1'.2.1, Or.inr rfl⟩
    · simp [ChildrenC.text]
    · simpa using h1'.1

theorem nameEnd {nm : Name} {x : Str} (hx : EndTok x) (h : NameEndOk x nm) :
    IdentEnd x ∨ ∃ l, nm = .quoted l := by
  cases nm with
  | quoted l => exact Or.inr ⟨l, rfl⟩
  | bare v => exact Or.inl (identEnd_of_endTok hx h)

theorem name_paren {nm : Name} {x : Str} (h : nm.Ok) : (nm.text ++ x).head? ≠ some '(' := by
  cases nm with
  | quoted l => simp [Name.text, quotedText]
  | bare v =>
    intro hh
    obtain ⟨w, hw⟩ := head_eq_some.1 hh
    exact ident_begins h.1 (c := '(') (by decide) hw

/-- Space and the end of a node are not space and a block. -/
theorem no_children {sp sp' : List Cst.Space} {d : Option (List Cst.Space)} {b : BodyC} {x g : Str} (h1 : SpacesOk true x sp)
    (h2 : Stopper x) (hb : (ChildrenC.some sp' d b).Ok true g)
    (h : spacesText sp ++ x = spacesText sp' ++ (dashText d ++ '{' :: (b.text ++ '}' :: g))) : False := by
  have h := (uniq_spaces h1 (by simpa using hb.1) h2.1 (noSpace_dashed noSpace_brace) h).2
  cases d with
  | none => exact h2.2.2.1 (by rw [h]; rfl)
  | some l => exact h2.2.1 ⟨_, h.symm⟩

/-- How a node, possibly commented out, begins. -/
theorem node_front {d : Option (List Cst.Space)} {c : NodeC} {f : Str} (h : c.Ok true f) :
    NoLine (dashText d ++ (c.text ++ f)) ∧ NoSpace (c.text ++ f) ∧ (c.text ++ f).head? ≠ some '/' := by
  obtain ⟨x, w, hx, hs⟩ := node_solid h
  rw [hx]
  refine ⟨?_, hs.noSpace, by simpa using hs.2.2.1⟩
  cases d with
  | none =>
    refine ⟨noWs_lit hs.1 hs.2.2.1, ?_, ?_⟩
    · intro c hc; simp [dashText] at hc; subst hc; exact hs.2.1
    · exact not_prefix_head (c := '/') rfl rfl (fun h => hs.2.2.1 h.symm)
  | some l =>
    refine ⟨noWs_slash (by decide), ?_, ?_⟩
    · intro c hc; simp [dashText] at hc; subst hc; decide
    · rintro ⟨y, hy⟩; simp [dashText] at hy

/-- Lines and the end of a sequence of nodes are not lines and a node. -/
theorem no_nodes {l m : List Cst.Line} {d : Option (List Cst.Space)} {c : NodeC} {r : BodyC} {f g : Str} (ha : LinesOk true f l)
    (hf : BodyEnd f) (hb : (BodyC.cons m d c r).Ok true g)
    (h : linesText l ++ f = linesText m ++ (dashText d ++ (c.text ++ (r.text ++ g)))) : False := by
  obtain ⟨h1, h2, h3, h4⟩ := hb
  have h := (uniq_lines ha (by simpa using h1) hf.noLine (node_front h3).1 h).2
  have key : (dashText d ++ (c.text ++ (r.text ++ g))).head? ≠ some '}' ∧ dashText d ++ (c.text ++ (r.text ++ g)) ≠ [] := by
    obtain ⟨x, w, hx, hs⟩ := node_solid h3
    cases d with
    | none => rw [hx]; exact ⟨by simpa [dashText] using hs.2.2.2.2.2.1, by simp [dashText]⟩
    | some k => simp [dashText]
  rw [← h] at key
  rcases hf with rfl | hf
  · exact key.2 rfl
  · exact key.1 hf

mutual
theorem uniq_node : ∀ (a b : NodeC) {f g : Str}, a.Ok true f → b.Ok true g → a.text ++ f = b.text ++ g → a = b ∧ f = g
  | .mk ty nm items ch sp term, .mk ty' nm' items' ch' sp' term', f, g, ha, hb, h => by
    obtain ⟨h1, h2, h3, h4, h5, h6, h7, h8⟩ := ha
    obtain ⟨g1, g2, g3, g4, g5, g6, g7, g8⟩ := hb
    have bh := behind_node h6 h7 h8
    have bg := behind_node g6 g7 g8
    simp only [NodeC.text, List.append_assoc] at h h4 g4 h5 g5 h6 g6
    replace h := uniq_ty h1 g1 (name_paren h2) (name_paren g2) h
    obtain ⟨rfl, h⟩ := h
    replace h := uniq_name h2 g2 (nameEnd (endTok_items h5 bh.1) h4) (nameEnd (endTok_items g5 bg.1) g4) h
    obtain ⟨rfl, h⟩ := h
    replace h := uniq_items h5 g5 bh bg h
    obtain ⟨rfl, h⟩ := h
    replace h := uniq_children ch ch' h6 g6 ⟨sp, _, rfl, h7, term_stopper h8⟩ ⟨sp', _, rfl, g7, term_stopper g8⟩ h
    obtain ⟨rfl, h⟩ := h
    replace h := uniq_spaces h7 g7 (term_stopper h8).1 (term_stopper g8).1 h
    obtain ⟨rfl, h⟩ := h
    replace h := uniq_term h8 g8 h
    obtain ⟨rfl, h⟩ := h
    exact ⟨rfl, h⟩
theorem uniq_children : ∀ (a b : ChildrenC) {f g : Str}, a.Ok true f → b.Ok true g →
    (∃ sp x, f = spacesText sp ++ x ∧ SpacesOk true x sp ∧ Stopper x) →
    (∃ sp x, g = spacesText sp ++ x ∧ SpacesOk true x sp ∧ Stopper x) → a.text ++ f = b.text ++ g → a = b ∧ f = g
  | .none, .none, f, g, _, _, _, _, h => ⟨rfl, h⟩
  | .none, .some sp' d b, f, g, _, hb, hf, _, h => by
    obtain ⟨sp, x, rfl, h1, h2⟩ := hf
    exact (no_children h1 h2 hb (by simpa [ChildrenC.text] using h)).elim
  | .some sp' d b, .none, f, g, ha, _, _, hg, h => by
    obtain ⟨sp, x, rfl, h1, h2⟩ := hg
    exact (no_children h1 h2 ha (by simpa [ChildrenC.text] using h.symm)).elim
  | .some sp d a, .some sp' d' b, f, g, ha, hb, _, _, h => by
    obtain ⟨h1, h2, h3⟩ := ha
    obtain ⟨g1, g2, g3⟩ := hb
    simp only [ChildrenC.text, List.append_assoc, List.cons_append, List.nil_append] at h h1 g1 h2 g2
    replace h := uniq_spaces h1 g1 (noSpace_dashed noSpace_brace) (noSpace_dashed noSpace_brace) h
    obtain ⟨rfl, h⟩ := h
    replace h := uniq_dash h2 g2 noSpace_brace noSpace_brace (by simp) (by simp) h
    obtain ⟨rfl, h⟩ := h
    simp only [List.cons.injEq, true_and] at h
    replace h := uniq_body a b h3 g3 (Or.inr rfl) (Or.inr rfl) h
    obtain ⟨rfl, h⟩ := h
    exact ⟨rfl, by simpa using h⟩
theorem uniq_body : ∀ (a b : BodyC) {f g : Str}, a.Ok true f → b.Ok true g → BodyEnd f → BodyEnd g →
    a.text ++ f = b.text ++ g → a = b ∧ f = g
  | .nil l, .nil m, f, g, ha, hb, hf, hg, h => by
    replace h := uniq_lines ha hb hf.noLine hg.noLine h
    obtain ⟨rfl, h⟩ := h
    exact ⟨rfl, h⟩
  | .nil l, .cons m d c r, f, g, ha, hb, hf, _, h => (no_nodes ha hf hb (by simpa [BodyC.text] using h)).elim
  | .cons m d c r, .nil l, f, g, ha, hb, _, hg, h => (no_nodes hb hg ha (by simpa [BodyC.text] using h.symm)).elim
  | .cons l d c r, .cons m d' c' r', f, g, ha, hb, hf, hg, h => by
    obtain ⟨h1, h2, h3, h4⟩ := ha
    obtain ⟨g1, g2, g3, g4⟩ := hb
    simp only [BodyC.text, List.append_assoc] at h h1 g1 h2 g2
    replace h := uniq_lines h1 g1 (node_front h3).1 (node_front g3).1 h
    obtain ⟨rfl, h⟩ := h
    replace h := uniq_dash h2 g2 (node_front (d := none) h3).2.1 (node_front (d := none) g3).2.1 (node_front (d := none) h3).2.2
      (node_front (d := none) g3).2.2 h
    obtain ⟨rfl, h⟩ := h
    replace h := uniq_node c c' h3 g3 h
    obtain ⟨rfl, h⟩ := h
    replace h := uniq_body r r' h4 g4 hf hg h
    obtain ⟨rfl, h⟩ := h
    exact ⟨rfl, h⟩
end

end Knuffel
