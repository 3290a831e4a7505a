import Verif.Spec.Depth
import Verif.Theory.Nested
import Verif.Theory.PositionLex
/-!
# How deep the recursion goes: where the inner parsers are called
-/

set_option linter.unusedSimpArgs false
set_option linter.unusedSectionVars false

namespace Knuffel

open Cst (Name Item NodeC ChildrenC BodyC Term)

variable {O α β γ : Type}

/-- The results are the same; or, if `w` allows it, the first one is a panic. -/
def Ag (w : Prop) (r r' : PRes O α) : Prop := (w ∧ r.panicked = true) ∨ r = r'

theorem Ag.refl {w : Prop} (r : PRes O α) : Ag w r r := Or.inr rfl

theorem ag_false {r r' : PRes O α} : Ag False r r' ↔ r = r' := by simp [Ag]

theorem ag_bind_r {w : Prop} {p : P O α} {f g : α → P O β} {eoi : Sp O} {s}
    (h : ∀ a alt, (p eoi s).out = .ok (a, alt) → Ag w (f a eoi (p eoi s).rest) (g a eoi (p eoi s).rest)) :
    Ag w (bind p f eoi s) (bind p g eoi s) := by
  unfold bind
  cases ho : (p eoi s).out with
  | error e => simp only [ho]; exact .refl _
  | ok x =>
    obtain ⟨a, alt⟩ := x
    simp only [ho]
    rcases h a alt ho with ⟨hw, hp⟩ | he
    · refine Or.inl ⟨hw, ?_⟩
      split <;> simp [hp]
    · simp only [he]; exact .refl _

theorem ag_bind_l {w : Prop} {p q : P O α} {f : α → P O β} {eoi : Sp O} {s} (h : Ag w (p eoi s) (q eoi s)) :
    Ag w (bind p f eoi s) (bind q f eoi s) := by
  rcases h with ⟨hw, hp⟩ | he
  · refine Or.inl ⟨hw, ?_⟩
    unfold bind
    simp only
    split
    · exact hp
    · split <;> simp [hp]
  · unfold bind; simp only [he]; exact .refl _

theorem ag_pmap {w : Prop} {p q : P O α} {f : α → β} {eoi : Sp O} {s} (h : Ag w (p eoi s) (q eoi s)) :
    Ag w (pmap f p eoi s) (pmap f q eoi s) := by
  rcases h with h | he
  · exact Or.inl h
  · unfold pmap; simp only [he]; exact .refl _

theorem ag_mapErrWithSpan {w : Prop} {p q : P O α} {f} {eoi : Sp O} {s} (h : Ag w (p eoi s) (q eoi s)) :
    Ag w (mapErrWithSpan f p eoi s) (mapErrWithSpan f q eoi s) := by
  rcases h with h | he
  · exact Or.inl h
  · unfold mapErrWithSpan; simp only [he]; exact .refl _

theorem ag_spanned {w : Prop} {p q : P O α} {eoi : Sp O} {s} (h : Ag w (p eoi s) (q eoi s)) :
    Ag w (spanned p eoi s) (spanned q eoi s) := by
  rcases h with h | he
  · exact Or.inl h
  · unfold spanned mapWithSpan; simp only [he]; exact .refl _

theorem ag_orNot {w : Prop} {p q : P O α} {eoi : Sp O} {s} (h : Ag w (p eoi s) (q eoi s)) :
    Ag w (orNot p eoi s) (orNot q eoi s) := by
  rcases h with ⟨hw, hp⟩ | he
  · refine Or.inl ⟨hw, ?_⟩
    unfold orNot
    simp only
    split <;> exact hp
  · unfold orNot; simp only [he]; exact .refl _

theorem ag_choice_head {w : Prop} {p q : P O α} {ps : List (P O α)} {eoi : Sp O} {s}
    (h : Ag w (p eoi s) (q eoi s)) : Ag w (choice (p :: ps) eoi s) (choice (q :: ps) eoi s) := by
  have mono : ∀ (ps : List (P O α)) alt, (choiceGo alt true ps eoi s).panicked = true := by
    intro ps
    induction ps with
    | nil => intro alt; unfold choiceGo; split <;> rfl
    | cons p ps ih =>
      intro alt
      unfold choiceGo
      simp only
      split
      · rfl
      · simpa using ih _
  unfold choice choiceGo
  rcases h with ⟨hw, hp⟩ | he
  · refine Or.inl ⟨hw, ?_⟩
    simp only
    split
    · simp [hp]
    · simp only [hp, Bool.or_true, Bool.true_or]; exact mono _ _
  · simp only [he]; exact .refl _

theorem repGo_pan {p : P O α} {eoi : Sp O} : ∀ fuel outs errs alt s,
    (repGo p 0 none eoi fuel outs errs alt true s).panicked = true := by
  intro fuel
  induction fuel with
  | zero => intros; rfl
  | succ fuel ih =>
    intro outs errs alt s
    unfold repGo
    simp only [reduceCtorEq, if_false]
    split
    · split
      · simpa using ih _ _ _ _
      · rfl
    · simp

/-- Repetition, where the parsers agree on a set of places, which is closed under going on. -/
theorem ag_repeated {w : Prop} {p q : P O α} {eoi : Sp O} {s} {X : List (Tok O) → Prop}
    (hX : ∀ x, X x → Ag w (p eoi x) (q eoi x)) (h0 : X s)
    (hn : ∀ x, X x → ∀ a alt, (q eoi x).out = .ok (a, alt) → X (q eoi x).rest) :
    Ag w (repeated p eoi s) (repeated q eoi s) := by
  have go : ∀ fuel outs errs alt pan x, X x →
      Ag w (repGo p 0 none eoi fuel outs errs alt pan x) (repGo q 0 none eoi fuel outs errs alt pan x) := by
    intro fuel
    induction fuel with
    | zero => intros; exact .refl _
    | succ fuel ih =>
      intro outs errs alt pan x hx
      rcases hX x hx with ⟨hw, hp⟩ | he
      · refine Or.inl ⟨hw, ?_⟩
        unfold repGo
        simp only [reduceCtorEq, if_false]
        split
        · split
          · simp only [hp, Bool.or_true, Bool.true_or]; exact repGo_pan _ _ _ _ _
          · rfl
        · simp [hp]
      · unfold repGo
        simp only [reduceCtorEq, if_false, he]
        cases ho : (q eoi x).out with
        | error e => exact .refl _
        | ok a =>
          obtain ⟨a, aalt⟩ := a
          simp only
          split
          · exact ih _ _ _ _ _ (hn x hx _ _ ho)
          · exact .refl _
  exact go _ _ _ _ _ _ h0

/-! ### Separated sequences -/

theorem sepGo_pan {item : P O α} {delim : P O β} {eoi : Sp O} : ∀ fuel outs errs alt s,
    (sepGo item delim eoi fuel outs errs alt true s).2.2.2.1 = true := by
  intro fuel
  induction fuel with
  | zero => intros; rfl
  | succ fuel ih =>
    intro outs errs alt s
    unfold sepGo
    simp only
    split
    · rfl
    · split
      · rfl
      · split
        · simpa using ih _ _ _ _
        · rfl

/-- Where the parsers of the items agree on a set of places, which is closed under going from one item to the next. -/
theorem ag_separatedBy {w : Prop} {item item' : P O α} {delim : P O β} {eoi : Sp O} {s} {X : List (Tok O) → Prop}
    (hX : ∀ x, X x → Ag w (item eoi x) (item' eoi x))
    (h0 : X (sepDelim delim eoi none s).2.2)
    (hn : ∀ x, X x → ∀ a alt b alt', (item' eoi x).out = .ok (a, alt) →
      (delim eoi (item' eoi x).rest).out = .ok (b, alt') → X (delim eoi (item' eoi x).rest).rest) :
    Ag w (separatedBy item delim eoi s) (separatedBy item' delim eoi s) := by
  have go : ∀ fuel outs errs alt pan s,
      (∀ b alt', (delim eoi s).out = .ok (b, alt') → X (delim eoi s).rest) →
      (w ∧ (sepGo item delim eoi fuel outs errs alt pan s).2.2.2.1 = true) ∨
      sepGo item delim eoi fuel outs errs alt pan s = sepGo item' delim eoi fuel outs errs alt pan s := by
    intro fuel
    induction fuel with
    | zero => intros; exact Or.inr rfl
    | succ fuel ih =>
      intro outs errs alt pan s hd
      cases ho : (delim eoi s).out with
      | error e => right; unfold sepGo; simp only [ho]
      | ok b =>
        obtain ⟨b, dalt⟩ := b
        have hx := hd b dalt ho
        rcases hX _ hx with ⟨hw, hp⟩ | he
        · refine Or.inl ⟨hw, ?_⟩
          unfold sepGo
          simp only [ho]
          split
          · simp [hp]
          · split
            · simp only [hp, Bool.or_true, Bool.true_or]; exact sepGo_pan _ _ _ _ _
            · rfl
        · unfold sepGo
          simp only [ho, he]
          cases hi : (item' eoi (delim eoi s).rest).out with
          | error e => exact Or.inr rfl
          | ok a =>
            obtain ⟨a, ialt⟩ := a
            simp only
            split
            · exact ih _ _ _ _ _ (fun b alt' hb => hn _ hx _ _ _ _ hi hb)
            · exact Or.inr rfl
  unfold separatedBy
  generalize hsd : sepDelim delim eoi none s = sd at h0 ⊢
  obtain ⟨alt0, pan0, s0⟩ := sd
  simp only at h0 ⊢
  rcases hX _ h0 with ⟨hw, hp⟩ | he
  · refine Or.inl ⟨hw, ?_⟩
    split
    · simp [hp]
    · simp only [hp, Bool.or_true, Bool.true_or, sepGo_pan]
  · simp only [he]
    cases hi : (item' eoi s0).out with
    | error e => exact .refl _
    | ok a =>
      obtain ⟨a, ialt⟩ := a
      simp only
      rcases go ((item' eoi s0).rest.length + 1) [a] (item' eoi s0).errs (mergeAlts alt0 ialt)
        (pan0 || (item' eoi s0).panicked || clashAlts alt0 ialt) (item' eoi s0).rest
        (fun b alt' hb => hn _ h0 _ _ _ _ hi hb) with ⟨hw, hp⟩ | h
      · exact Or.inl ⟨hw, by simp [hp]⟩
      · rw [h]; exact .refl _

/-! ### The parser of nodes -/

section
variable [Offset O]

/-- What stands before the braces. -/
abbrev preBrace : P O (Option Unit) :=
  ignoreThen (repeated nodeSpace) (orNot (thenIgnore (beginComment '-') (repeated nodeSpace)))

/-- What stands before the braces and the space in front of them. -/
abbrev nodeHead : P O ((Option (Spanned TypeName (Sp O)) × Spanned Str (Sp O)) × List (PropOrArg (Sp O))) :=
  seq (seq (orNot (spanned typeName)) (spanned ident)) (repeated spaceEntry)

abbrev dashP : P O (Option Unit) := orNot (thenIgnore (beginComment '-') (repeated nodeSpace))

variable {w : Prop} {p q : P O (List (SpannedNode (Sp O)))} {eoi : Sp O}

theorem ag_bracedNodes {s} (h : ∀ t, Takes s ['{'] t → Ag w (p eoi t) (q eoi t)) :
    Ag w (bracedNodes p eoi s) (bracedNodes q eoi s) := by
  unfold bracedNodes ignoreThen thenIgnore
  refine ag_bind_r fun a alt ho => ag_mapErrWithSpan (ag_bind_l (h _ ?_))
  cases s with
  | nil => simp [just, pfail] at ho
  | cons x s =>
    obtain ⟨c, sp⟩ := x
    unfold just at ho ⊢
    by_cases hc : c = '{'
    · subst hc
      exact ⟨[('{', sp)], by simp [pok], rfl⟩
    · simp [hc, pfail] at ho

theorem ag_optChildren {s} (h : ∀ t, Takes (preBrace eoi s).rest ['{'] t → Ag w (p eoi t) (q eoi t)) :
    Ag w (optChildren p eoi s) (optChildren q eoi s) := by
  unfold optChildren seq
  exact ag_orNot (ag_bind_r fun a alt ho => ag_pmap (ag_spanned (ag_bracedNodes h)))

theorem ag_node {s} (h : ∀ a alt, (nodeHead eoi s).out = .ok (a, alt) →
      Ag w (optChildren p eoi (nodeHead eoi s).rest) (optChildren q eoi (nodeHead eoi s).rest)) :
    Ag w (node p eoi s) (node q eoi s) := by
  unfold node thenIgnore
  refine ag_pmap (ag_bind_l ?_)
  conv => arg 2; unfold seq
  conv => arg 3; unfold seq
  exact ag_bind_r fun a alt ho => ag_pmap (h a alt ho)

theorem ag_nodeItem {s} (h : Ag w (node p eoi (dashP eoi s).rest) (node q eoi (dashP eoi s).rest)) :
    Ag w (nodeItem p eoi s) (nodeItem q eoi s) := by
  unfold nodeItem seq
  exact ag_bind_r fun a alt ho => ag_pmap (ag_spanned h)

theorem suf_preBrace : Suf (preBrace : P O (Option Unit)) :=
  suf_ignoreThen (suf_repeated suf_nodeSpace) (suf_orNot (suf_thenIgnore suf_beginComment (suf_repeated suf_nodeSpace)))
theorem suf_nodeHead : Suf (nodeHead : P O _) :=
  suf_seq (suf_seq (suf_orNot (suf_spanned suf_typeName)) (suf_spanned suf_ident)) (suf_repeated suf_spaceEntry)
theorem suf_dashP : Suf (dashP : P O (Option Unit)) :=
  suf_orNot (suf_thenIgnore suf_beginComment (suf_repeated suf_nodeSpace))

/-- The inner parser is called only behind a brace. -/
theorem ag_nodeItem_suf {s} (h : ∀ y t, y <:+ s → Takes y ['{'] t → Ag w (p eoi t) (q eoi t)) :
    Ag w (nodeItem p eoi s) (nodeItem q eoi s) :=
  ag_nodeItem (ag_node fun _ _ _ => ag_optChildren fun t ht =>
    h _ t ((suf_preBrace eoi _).trans ((suf_nodeHead eoi _).trans (suf_dashP eoi _))) ht)

theorem ag_nodes_suf {s} {n m : Nat}
    (h : ∀ y t, y <:+ s → Takes y ['{'] t → Ag w (nodesRec n eoi t) (nodesRec m eoi t)) :
    Ag w (nodesRec (n + 1) eoi s) (nodesRec (m + 1) eoi s) := by
  rw [nodesRec, nodesRec]
  refine ag_pmap (ag_separatedBy (X := (· <:+ s)) (fun x hx => ag_nodeItem_suf fun y t hy => h y t (hy.trans hx))
    (suf_sepDelim (suf_repeated suf_lineSpace)) ?_)
  intro x hx _ _ _ _ _ _
  exact (suf_repeated suf_lineSpace _ _).trans ((suf_nodeItem (suf_nodesRec m) _ _).trans hx)

/-- A larger bound gives the same, unless the smaller one is exceeded. -/
theorem ag_nodesRec : ∀ {n m : Nat}, n ≤ m → ∀ s, Ag True (nodesRec n eoi s) (nodesRec m eoi s)
  | 0, _, _, _ => Or.inl ⟨trivial, rfl⟩
  | n + 1, m + 1, h, s => ag_nodes_suf fun _ t _ _ => ag_nodesRec (by omega) t

theorem braces_suffix {a b : Str} (h : a <:+ b) : braces a ≤ braces b := h.sublist.count_le _

theorem chars_suffix {a b : List (Tok O)} (h : a <:+ b) : chars a <:+ chars b := by
  obtain ⟨l, rfl⟩ := h
  exact ⟨chars l, by simp [chars]⟩

/-- More calls than there are braces do not occur. -/
theorem nodesRec_braces : ∀ {n m : Nat} {s}, braces (chars s) < n → braces (chars s) < m →
    nodesRec n eoi s = nodesRec m eoi s
  | n + 1, m + 1, s, hn, hm => by
    rw [← ag_false]
    refine ag_nodes_suf fun y t hy ht => ag_false.2 ?_
    have h1 := braces_suffix (chars_suffix hy)
    have h2 : braces (chars y) = braces (chars t) + 1 := by rw [ht.chars]; simp [braces]
    exact nodesRec_braces (by omega) (by omega)

theorem braces_le_length (a : List (Tok O)) : braces (chars a) ≤ a.length := by
  rw [← chars_length]; exact List.count_le_length

/-! ### Along a legal tree -/

/-- Where the parts of a node are. -/
theorem node_places (c : NodeC) {s t : List (Tok O)} (hok : c.Ok true (chars t)) (hT : Takes s c.text t) :
    ∃ ty nm items ch sp term v t3 t4 t5, c = .mk ty nm items ch sp term ∧ Ok nodeHead eoi s v t3 ∧
      Takes t3 ch.text t4 ∧ ch.Ok true (chars t4) ∧ Takes t4 (Cst.spacesText sp) t5 ∧
      Cst.SpacesOk true (chars t5) sp ∧ Stopper (chars t5) := by
  obtain ⟨ty, nm, items, ch, sp, term⟩ := c
  refine ⟨ty, nm, items, ch, sp, term, ?_⟩
  obtain ⟨h1, h2, h3, h4, h5, h6, h7, h8⟩ := hok
  have hs : s = s.drop 0 := rfl
  have hT' : Takes s (Cst.tyText ty ++ (nm.text ++ (Cst.itemsText items ++ (ch.text ++
      (Cst.spacesText sp ++ term.text))))) t := by simpa [NodeC.text] using hT
  obtain ⟨t1, g1, hT'⟩ := takes_append.1 hT'
  obtain ⟨t2, g2, hT'⟩ := takes_append.1 hT'
  obtain ⟨t3, g3, hT'⟩ := takes_append.1 hT'
  obtain ⟨t4, g4, hT'⟩ := takes_append.1 hT'
  obtain ⟨t5, g5, g6⟩ := takes_append.1 hT'
  have e1 := g1.drop hs
  have e2 := g2.drop e1
  have hstop : Stopper (chars t5) := by rw [g6.chars]; exact term_stopper h8
  have hend5 : EndTok (chars t5) := by rw [g6.chars]; exact endTok_term h8
  have hsp : Cst.SpacesOk true (chars t5) sp := by rw [g6.chars]; exact h7
  have hend4 : EndTok (chars t4) := by rw [g5.chars]; exact endTok_spaces hsp hend5
  have hc4 : chars t4 = Cst.spacesText sp ++ term.text ++ chars t := by
    rw [g5.chars, g6.chars]; simp
  have hch : ch.Ok true (chars t4) := by rw [hc4]; exact h6
  have hend3 : EndTok (chars t3) := by rw [g4.chars]; exact endTok_children hch hend4
  have hc3 : chars t3 = ch.text ++ Cst.spacesText sp ++ term.text ++ chars t := by
    rw [g4.chars, hc4]; simp
  have hitems : Cst.ItemsOk true (chars t3) items := by rw [hc3]; exact h5
  have hend2 : EndTok (chars t2) := by rw [g3.chars]; exact endTok_items hitems hend3
  have hname : IdentEnd (chars t2) ∨ ∃ l, nm = .quoted l := by
    cases nm with
    | quoted l => exact Or.inr ⟨l, rfl⟩
    | bare v =>
      left
      refine identEnd_of_endTok hend2 ?_
      rw [g3.chars, hc3]
      simpa [Cst.NameEndOk] using h4
  have p1 : ∃ v, Ok (orNot (spanned typeName)) eoi s v t1 := by
    cases ty with
    | none =>
      have := takes_nil.1 g1; subst this
      refine ⟨_, ok_orNot.2 (Or.inr ⟨rfl, rfl, fails_spanned.2 (failsC_typeName ?_).fails⟩)⟩
      intro hh
      rw [g2.chars] at hh
      cases nm with
      | quoted l => simp [Name.text, Cst.quotedText] at hh
      | bare v =>
        rcases head_append hh with hh | ⟨hh, _⟩
        · obtain ⟨w, hw⟩ := head_eq_some.1 hh
          simp only [Name.text] at hw
          subst hw
          exact identShape_not_mem h2.1 (c := '(') (by decide) (by simp)
        · exact identShape_ne_nil h2.1 hh
    | some m =>
      exact ⟨_, ok_orNot.2 (Or.inl ⟨_, rfl, ok_spanned.2 ⟨_, typeName_complete h1 g1, rfl⟩⟩)⟩
  obtain ⟨v1, p1⟩ := p1
  have p2 : Ok (spanned ident) eoi t1 ⟨spanSince eoi t1 t2, nm.value⟩ t2 :=
    ok_spanned.2 ⟨_, ident_complete h2 g2 hname, rfl⟩
  have p3f : Fails spaceEntry eoi t3 := by
    cases ch with
    | none =>
      have := takes_nil.1 g4; subst this
      exact fails_spaceEntry hsp g5 hstop.1 (fails_propOrArg_stopper hstop)
    | some sp' d b =>
      have g4' : Takes t3 (Cst.spacesText sp' ++ (Cst.dashText d ++ ('{' :: b.text ++ ['}']))) t4 := by
        simpa [ChildrenC.text] using g4
      obtain ⟨t6, g7, g8⟩ := takes_append.1 g4'
      obtain ⟨t7, g9, g10⟩ := takes_append.1 g8
      obtain ⟨q1, q2, _⟩ := hch
      have hc7 : chars t7 = '{' :: (b.text ++ '}' :: chars t4) := by rw [g10.chars]; simp
      refine fails_spaceEntry (t := t6) (l := sp') ?_ g7 ?_ ?_
      · rw [g9.chars, hc7]; simpa using q1
      · cases d with
        | none => rw [g9.chars, hc7]; exact noSpace_brace
        | some l => rw [g9.chars]; exact noSpace_dash
      · cases d with
        | none =>
          have := takes_nil.1 g9; subst this
          exact fails_propOrArg_brace hc7
        | some l =>
          refine fails_propOrArg_dash g9 ?_ hc7
          rw [hc7]; simpa [Cst.DashOk] using q2
  have p3 : Ok (repeated spaceEntry) eoi t2 (itemsValue (spf eoi s) _ items) t3 :=
    (ok_repeated eats_spaceEntry.consumes).2 ⟨reps_spaceEntry_complete e2 hitems g3 hend3, p3f⟩
  exact ⟨((_, _), _), t3, t4, t5, rfl, ok_seq.2 ⟨t2, ok_seq.2 ⟨t1, p1, p2⟩, p3⟩, g4, hch, g5, hsp, hstop⟩

/-- Where the parts of a block are. -/
theorem children_places {sp : List Cst.Space} {d : Option (List Cst.Space)} {b : BodyC} {s t : List (Tok O)}
    (hok : (ChildrenC.some sp d b).Ok true (chars t)) (hT : Takes s (ChildrenC.some sp d b).text t) :
    ∃ x t2 t3 t4, Ok preBrace eoi s x t2 ∧ Takes t2 ['{'] t3 ∧ Takes t3 b.text t4 ∧ b.Ok true (chars t4) ∧
      BodyEnd (chars t4) := by
  obtain ⟨h1, h2, h3⟩ := hok
  have hT' : Takes s (Cst.spacesText sp ++ (Cst.dashText d ++ (['{'] ++ (b.text ++ ['}'])))) t := by
    simpa [ChildrenC.text] using hT
  obtain ⟨t1, g1, hT'⟩ := takes_append.1 hT'
  obtain ⟨t2, g2, hT'⟩ := takes_append.1 hT'
  obtain ⟨t3, g3, hT'⟩ := takes_append.1 hT'
  obtain ⟨t4, g4, g5⟩ := takes_append.1 hT'
  have hc4 : chars t4 = '}' :: chars t := by rw [g5.chars]; rfl
  have hc2 : chars t2 = '{' :: (b.text ++ '}' :: chars t) := by rw [g3.chars, g4.chars, hc4]; rfl
  have hc1 : chars t1 = Cst.dashText d ++ '{' :: b.text ++ '}' :: chars t := by
    rw [g2.chars, hc2]; simp
  obtain ⟨x, p2, hx⟩ := ok_dash (eoi := eoi) (d := d) (s := t1) (t := t2)
    (by rw [hc2]; simpa using h2) g2 (by rw [hc2]; exact noSpace_brace)
    (by rintro rfl; rw [hc1]; exact not_prefix_head (c := '/') (d := '{') rfl rfl (by decide))
  obtain ⟨as, p1⟩ := ok_nodeSpaces (eoi := eoi) (l := sp) (s := s) (t := t1)
    (by rw [hc1]; exact h1) g1 (failsC_nodeSpace (by
      rw [hc1]
      cases d with
      | none => exact noSpace_brace
      | some l => exact noSpace_dash)).fails
  exact ⟨x, t2, t3, t4, ok_ignoreThen.2 ⟨as, t1, p1, p2⟩, g3, g4, by rw [hc4]; exact h3, Or.inr (by rw [hc4]; rfl)⟩

/-- Where the end of the space behind a node without children is. -/
theorem noChildren_places {sp : List Cst.Space} {s t : List (Tok O)} (hl : Cst.SpacesOk true (chars t) sp)
    (hT : Takes s (Cst.spacesText sp) t) (hf : Stopper (chars t)) : Ok preBrace eoi s none t := by
  obtain ⟨as, h1⟩ := ok_nodeSpaces (eoi := eoi) hl hT (failsC_nodeSpace hf.1).fails
  exact ok_ignoreThen.2 ⟨as, t, h1, ok_orNot.2 (Or.inr ⟨rfl, rfl,
    fails_thenIgnore_left (failsC_beginComment hf.2.1).fails⟩)⟩

/-- Where the parts of a sequence of nodes are. -/
theorem body_places {lines : List Cst.Line} {d : Option (List Cst.Space)} {c : NodeC} {rest : BodyC}
    {s t : List (Tok O)} (hok : (BodyC.cons lines d c rest).Ok true (chars t))
    (hT : Takes s (BodyC.cons lines d c rest).text t) :
    ∃ as t1 y t2 t3, Ok (repeated lineSpace) eoi s as t1 ∧ Ok dashP eoi t1 y t2 ∧ Takes t2 c.text t3 ∧
      c.Ok true (chars t3) ∧ Takes t3 rest.text t ∧ rest.Ok true (chars t) ∧ t3.length < s.length := by
  obtain ⟨h1, h2, h3, h4⟩ := hok
  have hT' : Takes s (Cst.linesText lines ++ (Cst.dashText d ++ (c.text ++ rest.text))) t := by
    simpa [BodyC.text] using hT
  obtain ⟨t1, g1, hT'⟩ := takes_append.1 hT'
  obtain ⟨t2, g2, hT'⟩ := takes_append.1 hT'
  obtain ⟨t3, g3, g4⟩ := takes_append.1 hT'
  have hc3 : chars t3 = rest.text ++ chars t := g4.chars
  have hc2 : chars t2 = c.text ++ rest.text ++ chars t := by rw [g3.chars, hc3]; simp
  have hc1 : chars t1 = Cst.dashText d ++ c.text ++ rest.text ++ chars t := by
    rw [g2.chars, hc2]; simp
  have h3' : c.Ok true (chars t3) := by rw [hc3]; exact h3
  obtain ⟨x, w, hx, hsol⟩ := node_solid h3'
  have hc2' : chars t2 = x :: (w ++ rest.text ++ chars t) := by rw [hc2, hx]; simp
  have hdash : d = none → ¬ ['/', '-'] <+: chars t1 := by
    rintro rfl
    have := takes_nil.1 g2; subst this
    rw [hc2']
    exact not_prefix_head (c := '/') rfl rfl (fun h => hsol.2.2.1 h.symm)
  have hnl : NoLine (chars t1) := by
    cases d with
    | none =>
      have := takes_nil.1 g2; subst this
      rw [hc2']
      refine ⟨noWs_lit hsol.1 hsol.2.2.1, ?_, ?_⟩
      · intro c' hc'; simp at hc'; subst hc'; exact hsol.2.1
      · exact not_prefix_head (c := '/') rfl rfl (fun h => hsol.2.2.1 h.symm)
    | some l =>
      rw [hc1]
      refine ⟨noWs_slash (by decide), ?_, ?_⟩
      · intro c' hc'; simp [Cst.dashText] at hc'; subst hc'; decide
      · rintro ⟨y, hy⟩; simp [Cst.dashText] at hy
  obtain ⟨as, p1⟩ := ok_lines (eoi := eoi) (l := lines) (s := s) (t := t1) (by rw [hc1]; exact h1) g1
    (failsC_lineSpace hnl).fails
  obtain ⟨y, p2, hy⟩ := ok_dash (eoi := eoi) (d := d) (s := t1) (t := t2)
    (by rw [hc2]; exact h2) g2 (by rw [hc2']; exact hsol.noSpace) hdash
  have hlen3 : t3.length < s.length := by
    have := g1.length; have := g2.length; have := g3.length
    rw [hx] at this
    simp at this
    omega
  exact ⟨as, t1, y, t2, t3, p1, p2, g3, h3', g4, h4, hlen3⟩

/-- With room for all the rest of the text the node is read. -/
theorem ok_nodeItem_big {c : NodeC} {y} {t1 t2 t3 : List (Tok O)} (p2 : Ok dashP eoi t1 y t2) (g : Takes t2 c.text t3)
    (hok : c.Ok true (chars t3)) {m : Nat} (hm : t2.length ≤ m) : ∃ v, Ok (nodeItem (nodesRec m)) eoi t1 v t3 :=
  ⟨(_, _), ok_seq.2 ⟨t2, p2, node_complete (all := t2) (k := 0) c hm rfl hok g⟩⟩

theorem sepDelim_rest {delim : P O β} {s as t} (h : Ok delim eoi s as t) :
    (sepDelim delim eoi none s).2.2 = t := by
  obtain ⟨_, ⟨alt, h2⟩, h3⟩ := h
  unfold sepDelim
  simp only [h2]
  exact h3

theorem takes_unique {s t t' : List (Tok O)} {a : Str} (h : Takes s a t) (h' : Takes s a t') : t = t' := by
  obtain ⟨l, rfl, hl⟩ := h
  obtain ⟨l', hl', hl''⟩ := h'
  have h1 : l.length = a.length := by simpa [chars] using congrArg List.length hl
  have h2 : l'.length = a.length := by simpa [chars] using congrArg List.length hl''
  exact (List.append_inj hl' (by omega)).2

/-- The space before the first node of a sequence. -/
theorem lines_places (b : BodyC) {s t : List (Tok O)} (hok : b.Ok true (chars t)) (hT : Takes s b.text t)
    (hend : BodyEnd (chars t)) : ∃ as x, Ok (repeated lineSpace) eoi s as x := by
  cases b with
  | nil lines =>
    obtain ⟨as, h1⟩ := ok_lines (eoi := eoi) hok hT (failsC_lineSpace hend.noLine).fails
    exact ⟨as, t, h1⟩
  | cons lines d c rest =>
    obtain ⟨as, t1, _, _, _, p1, _⟩ := body_places (eoi := eoi) hok hT
    exact ⟨as, t1, p1⟩

/-- At the end of a sequence of nodes the inner parser is not called. -/
theorem nodeItem_end {s} (h : BodyEnd (chars s)) : nodeItem p eoi s = nodeItem q eoi s := by
  have hd : ¬ ['/', '-'] <+: chars s := by
    rcases h with h | h
    · rw [h]; simp
    · exact not_prefix_head (c := '/') rfl h (by decide)
  have hty : (chars s).head? ≠ some '(' := by
    intro hc
    rcases h with h | h
    · rw [h] at hc; simp at hc
    · rw [h] at hc; revert hc; decide
  have h1 : Ok dashP eoi s none s := ok_orNot.2 (Or.inr ⟨rfl, rfl, fails_thenIgnore_left (failsC_beginComment hd).fails⟩)
  have h2 : Fails nodeHead eoi s := (failsC_seq_left (failsC_seq_right
    (ok_orNot.2 (Or.inr ⟨rfl, rfl, fails_spanned.2 (failsC_typeName hty).fails⟩))
    (failsC_spanned.2 (failsC_ident h.noName)))).fails
  rw [← ag_false]
  refine ag_nodeItem (ag_node fun a alt ho => ?_)
  rw [h1.2.2] at ho
  obtain ⟨e, he⟩ := h2
  rw [he] at ho; cases ho

/-- Enough room for the blocks in a node is enough room. -/
theorem node_enough {n M : Nat} (c : NodeC) {s t : List (Tok O)}
    (ih : ∀ (b : BodyC) {s t : List (Tok O)}, b.depth < n → s.length < M → b.Ok true (chars t) → Takes s b.text t →
      BodyEnd (chars t) → nodesRec n eoi s = nodesRec M eoi s)
    (hn : c.depth ≤ n) (hM : s.length ≤ M) (hok : c.Ok true (chars t)) (hT : Takes s c.text t) :
    node (nodesRec n) eoi s = node (nodesRec M) eoi s := by
  obtain ⟨ty, nm, items, ch, sp, term, v, t3, t4, t5, rfl, p1, g1, hch, g2, hsp, hstop⟩ :=
    node_places (eoi := eoi) c hok hT
  rw [← ag_false]
  refine ag_node fun _ _ _ => ?_
  have hl1 := (suf_nodeHead eoi s).length_le
  rw [p1.2.2] at hl1 ⊢
  match ch with
  | .none =>
    have := takes_nil.1 g1; subst this
    refine ag_optChildren fun t6 h6 => ?_
    rw [(noChildren_places (eoi := eoi) hsp g2 hstop).2.2] at h6
    exact absurd (by rw [h6.chars]; rfl) hstop.2.2.1
  | .some sp' d b =>
    obtain ⟨x, u2, u3, u4, q1, q2, q3, q4, q5⟩ := children_places (eoi := eoi) hch g1
    refine ag_optChildren fun t6 h6 => ?_
    have hl2 := (suf_preBrace eoi t3).length_le
    rw [q1.2.2] at h6 hl2
    have := takes_unique h6 q2
    subst this
    have hl3 := q2.length
    simp only [List.length_singleton] at hl3
    simp only [NodeC.depth, ChildrenC.depth] at hn
    exact ag_false.2 (ih b (by omega) (by omega) q4 q3 q5)

/-- Enough room for the blocks in a sequence of nodes is enough room. -/
theorem nodes_enough : ∀ {n M : Nat} (b : BodyC) {s t : List (Tok O)}, b.depth < n → s.length < M →
    b.Ok true (chars t) → Takes s b.text t → BodyEnd (chars t) → nodesRec n eoi s = nodesRec M eoi s
  | n + 1, M + 1, b, s, t, hn, hM, hok, hT, hend => by
    rw [← ag_false, nodesRec, nodesRec]
    refine ag_pmap (ag_separatedBy (X := fun x => ∃ (s' : List (Tok O)) (b' : BodyC) (as : List Unit), s'.length ≤ s.length ∧
      Ok (repeated lineSpace) eoi s' as x ∧ Takes s' b'.text t ∧ b'.Ok true (chars t) ∧ b'.depth ≤ n) ?_ ?_ ?_)
    · rintro x ⟨s', b', as, hl, h1, h2, h3, h4⟩
      cases b' with
      | nil lines =>
        obtain ⟨as', h5⟩ := ok_lines (eoi := eoi) h3 h2 (failsC_lineSpace hend.noLine).fails
        rw [(h1.unique h5).2]
        exact ag_false.2 (nodeItem_end hend)
      | cons lines d c rest =>
        obtain ⟨as', t1, y, t2, t3, p1, p2, p3, p4, _⟩ := body_places (eoi := eoi) h3 h2
        have hl1 := (suf_repeated suf_lineSpace eoi s').length_le
        rw [p1.2.2] at hl1
        have := (h1.unique p1).2
        subst this
        refine ag_nodeItem ?_
        have hl2 := (suf_dashP eoi x).length_le
        rw [p2.2.2] at hl2 ⊢
        simp only [BodyC.depth] at h4
        exact ag_false.2 (node_enough c (fun b => nodes_enough b) (by omega) (by omega) p4 p3)
    · obtain ⟨as, x, h1⟩ := lines_places (eoi := eoi) b hok hT hend
      rw [sepDelim_rest h1]
      exact ⟨s, b, as, Nat.le_refl _, h1, hT, hok, by omega⟩
    · rintro x ⟨s', b', as, hl, h1, h2, h3, h4⟩ a alt b'' alt' ho hd
      cases b' with
      | nil lines =>
        obtain ⟨as', h5⟩ := ok_lines (eoi := eoi) h3 h2 (failsC_lineSpace hend.noLine).fails
        rw [(h1.unique h5).2] at ho
        obtain ⟨e, he⟩ := (failsC_nodeItem_end (eoi := eoi) (inner := nodesRec M) hend).fails
        rw [he] at ho; cases ho
      | cons lines d c rest =>
        obtain ⟨as', t1, y, t2, t3, p1, p2, p3, p4, p5, p6, p7⟩ := body_places (eoi := eoi) h3 h2
        have hl1 := (suf_repeated suf_lineSpace eoi s').length_le
        rw [p1.2.2] at hl1
        have := (h1.unique p1).2
        subst this
        have hl2 := (suf_dashP eoi x).length_le
        rw [p2.2.2] at hl2
        obtain ⟨v, hv⟩ := ok_nodeItem_big p2 p3 p4 (m := M) (by omega)
        rw [hv.2.2] at hd ⊢
        obtain ⟨as2, x2, h5⟩ := lines_places (eoi := eoi) rest p6 p5 hend
        rw [h5.2.2]
        simp only [BodyC.depth] at h4
        exact ⟨t3, rest, as2, by omega, h5, p5, p6, by omega⟩

/-! ### Too little room -/

theorem np_bind {p : P O α} {f : α → P O β} {s a t} (h : (bind p f eoi s).panicked = false) (hp : Ok p eoi s a t) :
    (f a eoi t).panicked = false := by
  obtain ⟨_, ⟨alt, h2⟩, h3⟩ := hp
  unfold bind at h
  simp only [h2, h3] at h
  split at h <;> simp only [Bool.or_eq_false_iff] at h <;> exact h.1.2

theorem np_bind_l {p : P O α} {f : α → P O β} {s} (h : (bind p f eoi s).panicked = false) :
    (p eoi s).panicked = false := by
  unfold bind at h
  simp only at h
  split at h
  · exact h
  · split at h <;> simp only [Bool.or_eq_false_iff] at h <;> exact h.1.1

theorem np_pmap {p : P O α} {f : α → β} {s} (h : (pmap f p eoi s).panicked = false) : (p eoi s).panicked = false := h

theorem np_orNot {p : P O α} {s} (h : (orNot p eoi s).panicked = false) : (p eoi s).panicked = false := by
  unfold orNot at h
  simp only at h
  split at h <;> exact h

/-- If the run on a node is not a panic, then there was room for its blocks. -/
theorem node_needs {n : Nat} (c : NodeC) {s t : List (Tok O)}
    (ih : ∀ (b : BodyC) {s t : List (Tok O)}, (nodesRec n eoi s).panicked = false → b.Ok true (chars t) →
      Takes s b.text t → BodyEnd (chars t) → b.depth < n)
    (hp : (node (nodesRec n) eoi s).panicked = false) (hok : c.Ok true (chars t)) (hT : Takes s c.text t) :
    c.depth ≤ n := by
  obtain ⟨ty, nm, items, ch, sp, term, v, t3, t4, t5, rfl, p1, g1, hch, g2, hsp, hstop⟩ :=
    node_places (eoi := eoi) c hok hT
  unfold node thenIgnore at hp
  have h1 := np_bind_l (np_pmap hp)
  have h2 := np_bind (p := nodeHead) h1 p1
  match ch with
  | .none => simp [NodeC.depth, ChildrenC.depth]
  | .some sp' d b =>
    obtain ⟨x, u2, u3, u4, q1, q2, q3, q4, q5⟩ := children_places (eoi := eoi) hch g1
    have h3 := np_bind (p := preBrace) (np_orNot (p := seq preBrace (spanned (bracedNodes (nodesRec n)))) h2) q1
    have h4 := np_bind (p := just '{') (a := '{') (show (bracedNodes (nodesRec n) eoi u2).panicked = false from h3) (ok_just_takes.2 ⟨q2, rfl⟩)
    have h5 := np_bind_l (p := nodesRec n) h4
    have := ih b h5 q4 q3 q5
    simp only [NodeC.depth, ChildrenC.depth]
    omega

/-- If the run on a sequence of nodes is not a panic, then there was room for its blocks. -/
theorem nodes_needs : ∀ {n : Nat} (b : BodyC) {s t : List (Tok O)}, (nodesRec n eoi s).panicked = false →
    b.Ok true (chars t) → Takes s b.text t → BodyEnd (chars t) → b.depth < n
  | 0, _, _, _, hp, _, _, _ => by simp [nodesRec, tooDeep] at hp
  | n + 1, b, s, t, hp, hok, hT, hend => by
    -- one node, and where it ends
    have item : ∀ (c : NodeC) {y t1 t2 t3}, Ok dashP eoi t1 y t2 → Takes t2 c.text t3 → c.Ok true (chars t3) →
        (nodeItem (nodesRec n) eoi t1).panicked = false →
        c.depth ≤ n ∧ ∃ v alt, (nodeItem (nodesRec n) eoi t1).out = .ok (v, alt) ∧
          (nodeItem (nodesRec n) eoi t1).rest = t3 := by
      intro c y t1 t2 t3 p2 p3 p4 hp
      constructor
      · exact node_needs c (fun b => nodes_needs b) (np_bind (p := dashP) hp p2) p4 p3
      · obtain ⟨v, _, ⟨alt, hv⟩, hr⟩ := ok_nodeItem_big p2 p3 p4 (m := max n t2.length) (by omega)
        have hag : Ag True (nodeItem (nodesRec n) eoi t1) (nodeItem (nodesRec (max n t2.length)) eoi t1) :=
          ag_nodeItem_suf fun _ t _ _ => ag_nodesRec (by omega) t
        rcases hag with ⟨_, hb⟩ | he
        · rw [hp] at hb; cases hb
        · rw [he]; exact ⟨v, alt, hv, hr⟩
    have go : ∀ (b : BodyC) {fuel outs errs alt pan} {s : List (Tok O)}, b.Ok true (chars t) → Takes s b.text t →
        (sepGo (nodeItem (nodesRec n)) (repeated lineSpace) eoi fuel outs errs alt pan s).2.2.2.1 = false →
        b.depth ≤ n := by
      intro b fuel
      induction fuel generalizing b with
      | zero => intro outs errs alt pan s _ _ h; simp [sepGo] at h
      | succ fuel ih =>
        intro outs errs alt pan s hok hT h
        cases b with
        | nil lines => simp [BodyC.depth]
        | cons lines d c rest =>
          obtain ⟨as', t1, y, t2, t3, p1, p2, p3, p4, p5, p6, p7⟩ := body_places (eoi := eoi) hok hT
          obtain ⟨_, ⟨dalt, h2⟩, h3⟩ := p1
          unfold sepGo at h
          simp only [h2, h3] at h
          by_cases hi : (nodeItem (nodesRec n) eoi t1).panicked = false
          · obtain ⟨hc, v, ialt, h4, h5⟩ := item c p2 p3 p4 hi
            simp only [h4, h5, if_pos p7] at h
            have := ih rest p6 p5 h
            simp only [BodyC.depth]; omega
          · simp only [Bool.not_eq_false] at hi
            simp only [hi, Bool.or_true, Bool.true_or, sepGo_pan] at h
            split at h
            · cases h
            · split at h
              · simp [sepGo_pan] at h
              · cases h
    rw [nodesRec] at hp
    have hp' : (separatedBy (nodeItem (nodesRec n)) (repeated lineSpace) eoi s).panicked = false := hp
    cases b with
    | nil lines => simp [BodyC.depth]
    | cons lines d c rest =>
      obtain ⟨as', t1, y, t2, t3, p1, p2, p3, p4, p5, p6, p7⟩ := body_places (eoi := eoi) hok hT
      unfold separatedBy at hp'
      have hd := sepDelim_rest p1
      generalize hsd : sepDelim (repeated lineSpace) eoi none s = sd at hd hp'
      obtain ⟨alt0, pan0, s0⟩ := sd
      simp only at hd hp'
      subst hd
      by_cases hi : (nodeItem (nodesRec n) eoi s0).panicked = false
      · obtain ⟨hc, v, ialt, h4, h5⟩ := item c p2 p3 p4 hi
        simp only [h4, h5, Bool.or_eq_false_iff] at hp'
        have := go rest p6 p5 hp'.1.1
        simp only [BodyC.depth]; omega
      · simp only [Bool.not_eq_false] at hi
        simp only [hi, Bool.or_true, Bool.true_or, sepGo_pan] at hp'
        split at hp' <;> cases hp'

/-! ### Documents -/

theorem documentTo_big {s : List (Tok O)} : documentTo (s.length + 1) eoi s = document eoi s := by
  unfold documentTo document pmap thenIgnore bind nodes
  rfl

theorem ag_documentTo {n m : Nat} {s : List (Tok O)} (h : Ag w (nodesRec n eoi s) (nodesRec m eoi s)) :
    Ag w (documentTo n eoi s) (documentTo m eoi s) := by
  unfold documentTo thenIgnore
  exact ag_pmap (ag_bind_l h)

/-- A bound is exceeded, or it makes no difference. -/
theorem documentTo_or (k : Nat) (s : List (Tok O)) :
    (documentTo k eoi s).panicked = true ∨ documentTo k eoi s = document eoi s := by
  rw [← documentTo_big]
  rcases Nat.le_total k (s.length + 1) with h | h
  · rcases ag_documentTo (w := True) (ag_nodesRec (eoi := eoi) h s) with ⟨_, h⟩ | h
    · exact Or.inl h
    · exact Or.inr h
  · refine Or.inr (ag_false.1 (ag_documentTo (ag_false.2 (nodesRec_braces ?_ ?_))))
    · have := braces_le_length s; omega
    · have := braces_le_length s; omega

theorem documentTo_braces {k : Nat} {s : List (Tok O)} (h : braces (chars s) < k) :
    documentTo k eoi s = document eoi s := by
  rw [← documentTo_big, ← ag_false]
  refine ag_documentTo (ag_false.2 (nodesRec_braces h ?_))
  have := braces_le_length s; omega

theorem documentTo_tree {k : Nat} {s : List (Tok O)} (b : BodyC) (hok : b.Ok true []) (ht : b.text = chars s) :
    (b.depth < k → documentTo k eoi s = document eoi s) ∧ (k ≤ b.depth → (documentTo k eoi s).panicked = true) := by
  have hT : Takes s b.text [] := ⟨s, by simp, ht.symm⟩
  constructor
  · intro h
    rw [← documentTo_big, ← ag_false]
    exact ag_documentTo (ag_false.2 (nodes_enough (t := []) b h (by omega) hok hT (Or.inl rfl)))
  · intro h
    cases hp : (documentTo k eoi s).panicked with
    | true => rfl
    | false =>
      unfold documentTo thenIgnore at hp
      have := nodes_needs (t := []) b (np_bind_l (np_pmap hp)) hok hT (Or.inl rfl)
      omega

/-! ### Comments -/

theorem slashStars_cons (c : Char) (s : Str) : slashStars s ≤ slashStars (c :: s) := by
  by_cases h : ∃ r, c = '/' ∧ s = '*' :: r
  · obtain ⟨r, rfl, rfl⟩ := h
    rw [slashStars]; omega
  · rw [slashStars]
    · exact Nat.le_refl _
    · rintro r rfl rfl; exact h ⟨r, rfl, rfl⟩

theorem slashStars_suffix {a b : Str} (h : a <:+ b) : slashStars a ≤ slashStars b := by
  obtain ⟨l, rfl⟩ := h
  induction l with
  | nil => exact Nat.le_refl _
  | cons c l ih => exact Nat.le_trans ih (slashStars_cons c _)

theorem slashStars_le_length : ∀ s : Str, slashStars s ≤ s.length
  | [] => Nat.le_refl _
  | c :: s => by
    have ih := slashStars_le_length s
    by_cases h : ∃ r, c = '/' ∧ s = '*' :: r
    · obtain ⟨r, rfl, rfl⟩ := h
      rw [slashStars]; simpa using ih
    · rw [slashStars]
      · simp only [List.length_cons]; omega
      · rintro r rfl rfl; exact h ⟨r, rfl, rfl⟩

theorem suf_mlChoice' (n : Nat) : Suf (mlChoice n : P O Unit) := by
  refine suf_choice ?_
  intro p hp
  simp only [List.mem_cons, List.not_mem_nil, or_false] at hp
  rcases hp with rfl | rfl | rfl
  · exact suf_mlCommentRec n
  · exact suf_ignored suf_filter
  · exact suf_ignored (suf_thenIgnore suf_just (suf_rewind suf_filter))

theorem ag_mlCommentRec_succ {n m : Nat} {s : List (Tok O)}
    (h : ∀ t, Takes s ['/', '*'] t → Ag w (repeated (mlChoice n) eoi t) (repeated (mlChoice m) eoi t)) :
    Ag w (mlCommentRec (n + 1) eoi s) (mlCommentRec (m + 1) eoi s) := by
  rw [mlCommentRec_succ, mlCommentRec_succ]
  unfold delimitedBy thenIgnore ignoreThen
  refine ag_bind_l (ag_bind_r fun a alt ho => ag_pmap (h _ ?_))
  have := beginComment_ok_prefix ho
  obtain ⟨r, hr⟩ := this
  obtain ⟨t, ht, _⟩ := takes_of_chars (s := s) (a := ['/', '*']) (b := r) hr.symm
  rwa [(ok_beginComment (eoi := eoi) (u := ()) |>.2 ht).2.2]

/-- More calls than there are `/*` do not occur. -/
theorem mlCommentRec_slashStars : ∀ {n m : Nat} {s : List (Tok O)}, slashStars (chars s) < n → slashStars (chars s) < m →
    mlCommentRec n eoi s = mlCommentRec m eoi s
  | n + 1, m + 1, s, hn, hm => by
    rw [← ag_false]
    refine ag_mlCommentRec_succ fun t ht => ag_repeated (X := (· <:+ t)) (fun x hx => ag_choice_head (ag_false.2 ?_))
      (List.suffix_refl t) (fun x hx _ _ _ => (suf_mlChoice' m eoi x).trans hx)
    have h2 := slashStars_suffix (chars_suffix hx)
    have h3 := slashStars_cons '*' (chars t)
    have h4 : slashStars (chars s) = slashStars ('*' :: chars t) + 1 := by
      rw [ht.chars]
      rfl
    exact mlCommentRec_slashStars (by omega) (by omega)

theorem ag_mlCommentRec : ∀ {n m : Nat}, n ≤ m → ∀ s : List (Tok O), Ag True (mlCommentRec n eoi s) (mlCommentRec m eoi s)
  | 0, _, _, _ => Or.inl ⟨trivial, rfl⟩
  | n + 1, m + 1, h, s => ag_mlCommentRec_succ fun t _ => ag_repeated (X := fun _ => True)
      (fun x _ => ag_choice_head (ag_mlCommentRec (by omega) x)) trivial (fun _ _ _ _ _ => trivial)

/-- One character of a comment. -/
theorem mlChoice_char {n : Nat} {c : Char} {r : Cst.Block} {s t : List (Tok O)} {cs : Str} (hok : (Cst.Block.char c r).Ok true)
    (hT : Takes s (Cst.Block.char c r).text t) (ht : chars t = '*' :: '/' :: cs) :
    ¬ ['/', '*'] <+: chars s ∧ ∃ s1, Takes s1 r.text t ∧ s1.length < s.length ∧ Ok (mlChoice n) eoi s () s1 := by
  obtain ⟨hstar, hslash, hr⟩ := hok
  obtain ⟨sp, s1, rfl, hT1⟩ := takes_cons.1 hT
  have hc1 : chars s1 = (r.text ++ ['*', '/']) ++ cs := by
    rw [hT1.chars, ht]; simp
  obtain ⟨d, w, hw⟩ : ∃ d w, r.text ++ ['*', '/'] = d :: w := by
    cases h : r.text ++ ['*', '/'] with
    | nil => simp at h
    | cons d w => exact ⟨d, w, rfl⟩
  rw [hw] at hstar hslash
  rw [hw] at hc1
  obtain ⟨sp1, s2, rfl, h2⟩ := chars_eq_cons.1 hc1
  have hnp : ¬ ['/', '*'] <+: chars ((c, sp) :: (d, sp1) :: s2) := by
    rintro ⟨x, hx⟩
    simp at hx
    simpa using hslash hx.1.symm (by simp [← hx.2.1])
  refine ⟨hnp, _, hT1, by simp, ?_⟩
  unfold mlChoice
  refine ok_choice_cons.2 (Or.inr ⟨(failsC_mlCommentRec hnp).fails, ?_⟩)
  by_cases hc : c = '*'
  · subst hc
    refine ok_choice_cons.2 (Or.inr ⟨?_, ok_choice_cons.2 (Or.inl ?_)⟩)
    · rw [fails_ignored]; unfold noneOf; rw [fails_filter]; simp
    · rw [ok_ignored]
      refine ⟨'*', ok_thenIgnore.2 ⟨(d, sp1) :: s2, d, ok_just.2 ⟨sp, rfl, rfl⟩,
        ok_rewind.2 ⟨rfl, s2, ?_⟩⟩⟩
      unfold noneOf
      refine ok_filter.2 ⟨sp1, rfl, ?_⟩
      have := hstar rfl
      simpa using this
  · refine ok_choice_cons.2 (Or.inl ?_)
    rw [ok_ignored]
    unfold noneOf
    exact ⟨c, ok_filter.2 ⟨sp, rfl, by simpa using hc⟩⟩

/-- A whole comment, given room for all the rest of the text. -/
theorem mlCommentRec_big {n : Nat} {b : Cst.Block} {s t : List (Tok O)} (hb : b.Ok true) (hn : s.length ≤ n)
    (hT : Takes s (Cst.Ws.block b).text t) : Ok (mlCommentRec (n + 1)) eoi s () t := by
  rw [mlCommentRec_succ, ok_delimitedBy]
  have hT' : Takes s (['/', '*'] ++ (b.text ++ ['*', '/'])) t := by simpa [Cst.Ws.text] using hT
  obtain ⟨s1, h1, h2⟩ := takes_append.1 hT'
  obtain ⟨s2, h3, h4⟩ := takes_append.1 h2
  have l1 := h1.length
  obtain ⟨bs, hbs⟩ := mlBody_complete (eoi := eoi) b (n := n) (cs := chars t) hb (by omega) h3
    (by rw [h4.chars]; rfl)
  refine ⟨(), s1, (), s2, ok_beginComment.2 h1, ok_ignored.2 ⟨bs, ?_⟩, ok_justStr_takes.2 h4⟩
  rw [ok_repeated eats_mlChoice.consumes]
  exact ⟨hbs, fails_mlChoice_close (cs := chars t) (by rw [h4.chars]; rfl)⟩

/-- The parts of a nested comment. -/
theorem nested_places {i r : Cst.Block} {s t : List (Tok O)} (hT : Takes s (Cst.Block.nested i r).text t) :
    ∃ s3, Takes s (Cst.Ws.block i).text s3 ∧ Takes s3 r.text t ∧ s3.length < s.length := by
  have hT' : Takes s ((Cst.Ws.block i).text ++ r.text) t := by simpa [Cst.Block.text, Cst.Ws.text] using hT
  obtain ⟨s3, h1, h2⟩ := takes_append.1 hT'
  refine ⟨s3, h1, h2, ?_⟩
  have := h1.length
  simp [Cst.Ws.text] at this
  omega

/-- Enough room for the comments in a comment is enough room. -/
theorem mlComment_enough : ∀ {n M : Nat} (b : Cst.Block) {s t : List (Tok O)}, b.depth + 1 < n → s.length < M →
    b.Ok true → Takes s (Cst.Ws.block b).text t → mlCommentRec n eoi s = mlCommentRec M eoi s
  | n + 1, M + 1, b, s, t, hn, hM, hok, hT => by
    rw [← ag_false]
    refine ag_mlCommentRec_succ fun s1 h1 => ?_
    have hT' : Takes s (['/', '*'] ++ (b.text ++ ['*', '/'])) t := by simpa [Cst.Ws.text] using hT
    obtain ⟨s1', h1', h2⟩ := takes_append.1 hT'
    have := takes_unique h1 h1'
    subst this
    obtain ⟨s2, h3, h4⟩ := takes_append.1 h2
    have l1 := h1.length
    simp at l1
    have hc2 : chars s2 = '*' :: '/' :: chars t := by rw [h4.chars]; rfl
    have none : ∀ x : List (Tok O), ¬ ['/', '*'] <+: chars x → mlCommentRec n eoi x = mlCommentRec M eoi x := by
      intro x hx
      obtain ⟨n', rfl⟩ : ∃ m, n = m + 1 := ⟨n - 1, by omega⟩
      obtain ⟨M', rfl⟩ : ∃ m, M = m + 1 := ⟨M - 1, by omega⟩
      refine ag_false.1 (ag_mlCommentRec_succ fun t ht => absurd ?_ hx)
      rw [ht.chars]
      exact ⟨chars t, rfl⟩
    refine ag_repeated (X := fun x => ∃ b' : Cst.Block, Takes x b'.text s2 ∧ b'.Ok true ∧ b'.depth < n ∧
      x.length ≤ s1.length) ?_ ⟨b, h3, hok, by omega, Nat.le_refl _⟩ ?_
    · rintro x ⟨b', g1, g2, g3, g4⟩
      refine ag_choice_head (ag_false.2 ?_)
      cases b' with
      | nil =>
        have := takes_nil.1 g1; subst this
        exact none _ (by rw [hc2]; simp)
      | char c r => exact none _ (mlChoice_char (n := 0) (eoi := eoi) g2 g1 hc2).1
      | nested i r =>
        obtain ⟨s3, g5, g6, g7⟩ := nested_places g1
        simp only [Cst.Block.depth] at g3
        exact mlComment_enough i (by omega) (by omega) g2.1 g5
    · rintro x ⟨b', g1, g2, g3, g4⟩ a alt ho
      cases b' with
      | nil =>
        have := takes_nil.1 g1; subst this
        obtain ⟨e, he⟩ := fails_mlChoice_close (eoi := eoi) (n := M) hc2
        rw [he] at ho; cases ho
      | char c r =>
        obtain ⟨_, s3, g5, g6, g7⟩ := mlChoice_char (n := M) (eoi := eoi) g2 g1 hc2
        rw [g7.2.2]
        exact ⟨r, g5, g2.2.2, g3, by omega⟩
      | nested i r =>
        obtain ⟨s3, g5, g6, g7⟩ := nested_places g1
        obtain ⟨M', rfl⟩ : ∃ m, M = m + 1 := ⟨M - 1, by omega⟩
        have g8 : Ok (mlChoice (M' + 1)) eoi x () s3 :=
          ok_choice_cons.2 (Or.inl (mlCommentRec_big g2.1 (by omega) g5))
        rw [g8.2.2]
        simp only [Cst.Block.depth] at g3
        exact ⟨r, g6, g2.2, by omega, by omega⟩

theorem np_choice_head {p : P O α} {ps : List (P O α)} {s} (h : (choice (p :: ps) eoi s).panicked = false) :
    (p eoi s).panicked = false := by
  cases hp : (p eoi s).panicked with
  | false => rfl
  | true =>
    unfold choice choiceGo at h
    simp only [hp, Bool.or_true, Bool.true_or] at h
    have mono : ∀ (ps : List (P O α)) alt, (choiceGo alt true ps eoi s).panicked = true := by
      intro ps
      induction ps with
      | nil => intro alt; unfold choiceGo; split <;> rfl
      | cons p ps ih =>
        intro alt
        unfold choiceGo
        simp only
        split
        · rfl
        · simpa using ih _
    split at h
    · cases h
    · simp [mono] at h

/-- If the run on a comment is not a panic, then there was room for the comments in it. -/
theorem mlComment_needs : ∀ {n : Nat} (b : Cst.Block) {s t : List (Tok O)}, (mlCommentRec n eoi s).panicked = false →
    b.Ok true → Takes s (Cst.Ws.block b).text t → b.depth + 1 < n
  | 0, _, _, _, hp, _, _ => by simp [mlCommentRec, tooDeep] at hp
  | n + 1, b, s, t, hp, hok, hT => by
    have hT' : Takes s (['/', '*'] ++ (b.text ++ ['*', '/'])) t := by simpa [Cst.Ws.text] using hT
    obtain ⟨s1, h1, h2⟩ := takes_append.1 hT'
    obtain ⟨s2, h3, h4⟩ := takes_append.1 h2
    have hc2 : chars s2 = '*' :: '/' :: chars t := by rw [h4.chars]; rfl
    rw [mlCommentRec_succ] at hp
    unfold delimitedBy thenIgnore at hp
    have hp1 := np_bind (p := beginComment '*') (np_bind_l hp) (ok_beginComment (u := ()) |>.2 h1)
    have hp2 : (repGo (mlChoice n) 0 none eoi (s1.length + 1) [] [] none false s1).panicked = false := hp1
    have pos : ∀ x : List (Tok O), (mlCommentRec n eoi x).panicked = false → 0 < n := by
      intro x hx
      cases n with
      | zero => simp [mlCommentRec, tooDeep] at hx
      | succ n => omega
    have go : ∀ (fuel : Nat) (b : Cst.Block) {outs errs alt pan} {x : List (Tok O)}, b.Ok true → Takes x b.text s2 →
        (repGo (mlChoice n) 0 none eoi fuel outs errs alt pan x).panicked = false → b.depth < n := by
      intro fuel
      induction fuel with
      | zero => intro b outs errs alt pan x _ _ h; simp [repGo] at h
      | succ fuel ih =>
        intro b outs errs alt pan x hb hx h
        have hmc : (mlChoice n eoi x).panicked = false := by
          cases hp : (mlChoice n eoi x).panicked with
          | false => rfl
          | true =>
            unfold repGo at h
            simp only [reduceCtorEq, if_false, hp, Bool.or_true, Bool.true_or, repGo_pan] at h
            split at h
            · split at h
              · simp [repGo_pan] at h
              · cases h
            · cases h
        have hm := np_choice_head hmc
        have hpos := pos x hm
        -- one step
        have step : ∀ {s3 : List (Tok O)} {alt'} {r : Cst.Block}, (mlChoice n eoi x).out = .ok ((), alt') →
            (mlChoice n eoi x).rest = s3 → s3.length < x.length → r.Ok true → Takes s3 r.text s2 → r.depth < n := by
          intro s3 alt' r e1 e2 e3 e4 e5
          unfold repGo at h
          simp only [reduceCtorEq, if_false, e1, e2, if_pos e3] at h
          exact ih r e4 e5 h
        cases b with
        | nil => simpa [Cst.Block.depth] using hpos
        | char c r =>
          obtain ⟨_, s3, g5, g6, _, ⟨alt', g7⟩, g8⟩ := mlChoice_char (n := n) (eoi := eoi) hb hx hc2
          simpa [Cst.Block.depth] using step g7 g8 g6 hb.2.2 g5
        | nested i r =>
          obtain ⟨s3, g5, g6, g7⟩ := nested_places hx
          have hi := mlComment_needs i hm hb.1 g5
          have big : Ok (mlChoice (max n x.length + 1)) eoi x () s3 :=
            ok_choice_cons.2 (Or.inl (mlCommentRec_big hb.1 (by omega) g5))
          have hag : Ag True (mlChoice n eoi x) (mlChoice (max n x.length + 1) eoi x) :=
            ag_choice_head (ag_mlCommentRec (by omega) x)
          rcases hag with ⟨_, hb'⟩ | he
          · rw [hmc] at hb'; cases hb'
          · obtain ⟨_, ⟨alt', e1⟩, e2⟩ := big
            rw [← he] at e1 e2
            have := step e1 e2 g7 hb.2 g6
            simp only [Cst.Block.depth]; omega
    have := go _ b hok h3 hp2
    omega

/-- A bound is exceeded, or it makes no difference. -/
theorem mlCommentTo_or (k : Nat) (s : List (Tok O)) :
    (mlCommentTo k eoi s).panicked = true ∨ mlCommentTo k eoi s = mlComment eoi s := by
  have hl := slashStars_le_length (chars s)
  rw [chars_length] at hl
  have h : Ag True (mlCommentRec k eoi s) (mlCommentRec (s.length + 1) eoi s) := by
    rcases Nat.le_total k (s.length + 1) with h | h
    · exact ag_mlCommentRec h s
    · exact Or.inr (mlCommentRec_slashStars (by omega) (by omega))
  rcases ag_mapErrWithSpan (f := mlCommentErr) h with ⟨_, h⟩ | h
  · exact Or.inl h
  · exact Or.inr h

theorem mlCommentTo_tree {k : Nat} (b : Cst.Block) {s t : List (Tok O)} (hok : b.Ok true)
    (hT : Takes s (Cst.Ws.block b).text t) :
    (b.depth + 1 < k → mlCommentTo k eoi s = mlComment eoi s) ∧
    (k ≤ b.depth + 1 → (mlCommentTo k eoi s).panicked = true) := by
  constructor
  · intro h
    exact ag_false.1 (ag_mapErrWithSpan (ag_false.2 (mlComment_enough b h (by omega) hok hT)))
  · intro h
    cases hp : (mlCommentTo k eoi s).panicked with
    | true => rfl
    | false =>
      have := mlComment_needs b (show (mlCommentRec k eoi s).panicked = false from hp) hok hT
      omega

theorem mlCommentTo_slashStars {k : Nat} {s : List (Tok O)} (h : slashStars (chars s) < k) :
    mlCommentTo k eoi s = mlComment eoi s := by
  unfold mlCommentTo mlComment
  refine ag_false.1 (ag_mapErrWithSpan (ag_false.2 (mlCommentRec_slashStars h ?_)))
  have := slashStars_le_length (chars s)
  rw [chars_length] at this
  omega

end

end Knuffel
