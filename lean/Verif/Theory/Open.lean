import Verif.Spec.Open
import Verif.Theory.Meaning
/-!
# What the parser does after a legal beginning

If a text is accepted and begins with a legal beginning (`Open`), then the parser
reads that beginning as such, and what follows must fit.
-/

namespace Knuffel
open Cst

section
variable {O : Type} [Offset O]

theorem sep_iff {f : Str} : Sep f ↔ EndTok f := Iff.rfl

theorem begins_iff {w : Str} : Begins w ↔ ∃ c r, w = c :: r ∧ Solid c := by
  unfold Begins Solid
  constructor
  · rintro ⟨c, r, h, h1, h2, h3⟩
    refine ⟨c, r, h, h1, h2, ?_⟩
    simpa using h3
  · rintro ⟨c, r, h, h1, h2, h3⟩
    refine ⟨c, r, h, h1, h2, ?_⟩
    simpa using h3

/-- The rest of a node after its name and some of its entries. -/
def NodeRest (n : Nat) (eoi : Sp O) (s t : List (Tok O)) : Prop :=
  ∃ vs t3 x t4 as t5 u, Ok (repeated spaceEntry) eoi s vs t3 ∧ Ok (optChildren (nodesRec n)) eoi t3 x t4 ∧
    Ok (repeated nodeSpace) eoi t4 as t5 ∧ Ok nodeTerminator eoi t5 u t

theorem endTok_spaces1 {l : List Cst.Space} {f : Str} {b} (hl : l ≠ []) (h : SpacesOk b f l) :
    EndTok (spacesText l ++ f) := by
  cases l with
  | nil => exact absurd rfl hl
  | cons x l =>
    obtain ⟨c, rest, h1, h2⟩ := space_head h.1
    intro c' hc'
    simp only [spacesText, List.flatMap_cons, h1] at hc'
    simp at hc'
    subst hc'
    exact h2

theorem endTok_dash_brace {d : Option (List Cst.Space)} {f : Str} : EndTok (dashText d ++ '{' :: f) := by
  intro c hc
  cases d with
  | none => simp [dashText] at hc; subst hc; decide
  | some l => simp [dashText] at hc; subst hc; decide

theorem rest_endTok {n : Nat} {eoi : Sp O} {s t} (h : NodeRest n eoi s t) : EndTok (chars s) := by
  obtain ⟨vs, t3, x, t4, as, t5, u, h1, h2, h3, h4⟩ := h
  rw [ok_repeated eats_spaceEntry.consumes] at h1
  obtain ⟨h1, -⟩ := h1
  cases h1 with
  | cons h5 _ _ =>
    unfold spaceEntry at h5
    obtain ⟨_, t1, h6, h7⟩ := ok_ignoreThen.1 h5
    obtain ⟨l, g1, g2, g3, -⟩ := nodeSpaces1_sound h6
    rw [g3.chars]
    exact endTok_spaces1 g1 g2
  | nil =>
    unfold optChildren at h2
    rcases ok_orNot.1 h2 with ⟨a, -, h2⟩ | ⟨-, rfl, -⟩
    · obtain ⟨t6, h5, h6⟩ := ok_seq.1 h2
      obtain ⟨as, t7, h7, h8⟩ := ok_ignoreThen.1 h5
      obtain ⟨l, g2, g3, -⟩ := nodeSpaces_sound h7
      rw [g3.chars]
      refine endTok_spaces g2 ?_
      rcases ok_orNot.1 h8 with ⟨a, -, h8⟩ | ⟨-, rfl, -⟩
      · obtain ⟨t8, b, h9, h10⟩ := ok_thenIgnore.1 h8
        rw [ok_beginComment] at h9
        rw [h9.chars]
        intro c hc; simp at hc; subst hc; decide
      · obtain ⟨b, h9, -⟩ := ok_spanned.1 h6
        unfold bracedNodes at h9
        obtain ⟨c, t9, h9, -⟩ := ok_ignoreThen.1 h9
        obtain ⟨h9', rfl⟩ := ok_just_takes.1 h9
        rw [h9'.chars]
        intro c hc; simp at hc; subst hc; decide
    · obtain ⟨l, g2, g3, -⟩ := nodeSpaces_sound h3
      obtain ⟨e, g4, g5⟩ := nodeTerminator_sound h4
      rw [g3.chars]
      refine endTok_spaces g2 ?_
      rw [g5.chars]
      exact endTok_term g4

/-- Past an entry. -/
theorem rest_entry {n : Nat} {eoi : Sp O} {s t v u} (h : NodeRest n eoi s t) (he : Ok spaceEntry eoi s v u) :
    NodeRest n eoi u t := by
  obtain ⟨vs, t3, x, t4, as, t5, y, h1, h2⟩ := h
  rw [ok_repeated eats_spaceEntry.consumes] at h1
  obtain ⟨h1, hf⟩ := h1
  cases h1 with
  | nil => exact absurd hf he.not_fails
  | cons h5 _ h6 =>
    obtain ⟨-, rfl⟩ := h5.unique he
    exact ⟨_, t3, x, t4, as, t5, y, (ok_repeated eats_spaceEntry.consumes).2 ⟨h6, hf⟩, h2⟩

/-- Past several entries. -/
theorem rest_items {n : Nat} {eoi : Sp O} {l : List Item} {s t u} (h : NodeRest n eoi s t) (hT : Takes s (itemsText l) u)
    (hl : ItemsOk true (chars u) l) (hend : EndTok (chars u)) : NodeRest n eoi u t := by
  induction l generalizing s with
  | nil => have := takes_nil.1 hT; subst this; exact h
  | cons i l ih =>
    have hT' : Takes s (i.text ++ itemsText l) u := by simpa [itemsText] using hT
    obtain ⟨s1, g1, g2⟩ := takes_append.1 hT'
    obtain ⟨o1, o2⟩ := hl
    have hend1 : EndTok (chars s1) := by rw [g2.chars]; exact endTok_items o2 hend
    exact ih (rest_entry h (item_complete (all := s) (n := 0) (by simp) (by rw [g2.chars]; exact o1) g1 hend1)) g2 o2

/-- The next entry. -/
theorem rest_item {n : Nat} {eoi : Sp O} {l : List Cst.Space} {d : Option (List Cst.Space)} {s s1 s2 t}
    (h : NodeRest n eoi s t) (g1 : Takes s (spacesText l) s1) (hl : SpacesOk true (chars s1) l)
    (g2 : Takes s1 (dashText d) s2) (hd : DashOk true (chars s2) d)
    (hw : ∃ c r, chars s2 = c :: r ∧ Solid c) :
    ∃ v u, Ok propOrArgInner eoi s2 v u ∧ NodeRest n eoi u t := by
  obtain ⟨c, r, hc, hsol⟩ := hw
  have hn2 : NoSpace (chars s2) := by rw [hc]; exact hsol.noSpace
  have hn1 : NoSpace (chars s1) := by
    cases d with
    | none => have := takes_nil.1 g2; subst this; exact hn2
    | some l => rw [g2.chars]; exact noSpace_dash
  have hnd : ¬ ['/', '-'] <+: chars s2 := by
    rw [hc]; exact not_prefix_head (c := '/') rfl rfl (fun h => hsol.2.2.1 h.symm)
  have hdash : d = none → ¬ ['/', '-'] <+: chars s1 := by
    rintro rfl
    have := takes_nil.1 g2; subst this
    exact hnd
  obtain ⟨as1, p1⟩ := ok_nodeSpaces (eoi := eoi) hl g1 (failsC_nodeSpace hn1).fails
  obtain ⟨y, p2, hy⟩ := ok_dash (eoi := eoi) (d := d) hd g2 hn2 hdash
  obtain ⟨vs, t3, x, t4, as, t5, u, h1, h2, h3, h4⟩ := h
  rw [ok_repeated eats_spaceEntry.consumes] at h1
  obtain ⟨h1, hf⟩ := h1
  cases h1 with
  | @cons _ a0 u0 _ _ h5 hlt h6 =>
    unfold spaceEntry at h5
    obtain ⟨as', t1, h7, h8⟩ := ok_ignoreThen.1 h5
    have : t1 = s1 := by
      by_cases hl0 : l = []
      · subst hl0
        have := takes_nil.1 g1; subst this
        exact absurd (fails_repeatedB (by decide) (by decide) (failsC_nodeSpace hn1).fails) h7.not_fails
      · obtain ⟨as2, h9⟩ := ok_nodeSpaces1 (eoi := eoi) hl hl0 g1 (failsC_nodeSpace hn1).fails
        exact (h7.unique h9).2
    subst this
    have hinner : ∃ v, Ok propOrArgInner eoi s2 v u0 := by
      unfold propOrArg at h8
      rcases ok_orP.1 h8 with h8 | ⟨hf8, h8⟩
      · obtain ⟨x, h9, -⟩ := ok_pmap.1 h8
        obtain ⟨_, t2, h10, h11⟩ := ok_ignoreThen.1 h9
        obtain ⟨_, t3', h12, h13⟩ := ok_ignoreThen.1 h10
        have : Ok (orNot (thenIgnore (beginComment '-') (repeated nodeSpace))) eoi t1 (some ()) t2 :=
          ok_orNot.2 (Or.inl ⟨(), rfl, ok_thenIgnore.2 ⟨t3', _, h12, h13⟩⟩)
        obtain ⟨-, rfl⟩ := this.unique p2
        exact ⟨_, h11⟩
      · cases d with
        | none =>
          have := takes_nil.1 g2; subst this
          exact ⟨_, h8⟩
        | some l' =>
          -- a slash is no entry
          obtain ⟨e, he, hT, -⟩ := propOrArgInner_sound (all := t1) (n := 0) (by simp) (by
            rw [g2.chars]; simp [dashText]) h8
          obtain ⟨c', r', hc', hs'⟩ := entry_solid he
          have h1 := hT.chars
          rw [g2.chars, hc'] at h1
          simp only [dashText, List.cons_append, List.cons.injEq] at h1
          exact absurd h1.1.symm hs'.2.2.1
    obtain ⟨v, h9⟩ := hinner
    exact ⟨v, u0, h9, _, t3, x, t4, as, t5, u, (ok_repeated eats_spaceEntry.consumes).2 ⟨h6, hf⟩, h2, h3, h4⟩
  | nil =>
    exfalso
    unfold optChildren at h2
    rcases ok_orNot.1 h2 with ⟨a, -, h2⟩ | ⟨-, rfl, -⟩
    · obtain ⟨t6, h5, h6⟩ := ok_seq.1 h2
      obtain ⟨as, t7, h7, h8⟩ := ok_ignoreThen.1 h5
      obtain ⟨-, rfl⟩ := h7.unique p1
      obtain ⟨-, rfl⟩ := h8.unique p2
      obtain ⟨b, h9, -⟩ := ok_spanned.1 h6
      unfold bracedNodes at h9
      obtain ⟨c', t9, h9, -⟩ := ok_ignoreThen.1 h9
      obtain ⟨h9', rfl⟩ := ok_just_takes.1 h9
      have := h9'.chars
      rw [hc] at this
      simp only [List.cons_append, List.cons.injEq] at this
      exact hsol.2.2.2.2.1 this.1
    · obtain ⟨-, rfl⟩ := h3.unique p1
      obtain ⟨e, g4, g5⟩ := nodeTerminator_sound h4
      have hch := g5.chars
      rw [g2.chars, hc] at hch
      have hhead : (dashText d ++ c :: r).head? = some '/' ∧ (dashText d ++ c :: r)[1]? = some '-' ∨
          (dashText d ++ c :: r).head? = some c := by
        cases d with
        | none => right; rfl
        | some l => left; exact ⟨rfl, rfl⟩
      rw [hch] at hhead
      cases e with
      | newline m =>
        obtain ⟨c', h5, h6⟩ := newline_head (n := m) (f := chars t)
        simp only [Term.text] at hhead
        rw [h6] at hhead
        rcases hhead with ⟨h, -⟩ | h
        · injection h with h; subst h; revert h5; decide
        · injection h with h; subst h; exact hsol.2.1 h5
      | comment m =>
        simp only [Term.text, LineComment.text, List.cons_append, List.head?_cons, List.getElem?_cons_succ,
          List.getElem?_cons_zero, Option.some.injEq] at hhead
        rcases hhead with ⟨-, h⟩ | h
        · revert h; decide
        · exact hsol.2.2.1 h.symm
      | semicolon =>
        simp only [Term.text, List.cons_append, List.head?_cons, Option.some.injEq] at hhead
        rcases hhead with ⟨h, -⟩ | h
        · revert h; decide
        · exact hsol.2.2.2.2.2.2.1 h.symm
      | eof =>
        have : chars t = [] := g4
        rw [this] at hhead
        simp [Term.text] at hhead

/-! ### The beginning of a node -/

theorem node_parts {n : Nat} {eoi : Sp O} {s v t} (h : Ok (spanned (node (nodesRec n))) eoi s v t) :
    ∃ x t1 y t2, Ok (orNot (spanned typeName)) eoi s x t1 ∧ Ok (spanned ident) eoi t1 y t2 ∧ NodeRest n eoi t2 t := by
  obtain ⟨v', h, -⟩ := ok_spanned.1 h
  unfold node at h
  obtain ⟨w, h, -⟩ := ok_pmap.1 h
  obtain ⟨t4, b, h1, h2⟩ := ok_thenIgnore.1 h
  obtain ⟨t3, h1, h3⟩ := ok_seq.1 h1
  obtain ⟨t2, h1, h4⟩ := ok_seq.1 h1
  obtain ⟨t1, h1, h5⟩ := ok_seq.1 h1
  obtain ⟨t5, h6, h7⟩ := ok_seq.1 h2
  exact ⟨_, t1, _, t2, h1, h5, _, t3, _, t4, _, t5, _, h4, h3, h6, h7⟩

/-- The type and the name of a node, when they are not known. -/
theorem node_header {n : Nat} {eoi : Sp O} {s v t} (h : Ok (spanned (node (nodesRec n))) eoi s v t) :
    ∃ ty nm t2, TyOk ty ∧ Name.Ok nm ∧ Takes s (tyText ty ++ nm.text) t2 ∧ NodeRest n eoi t2 t := by
  obtain ⟨x, t1, y, t2, h1, h2, h3⟩ := node_parts h
  obtain ⟨y', h2, -⟩ := ok_spanned.1 h2
  obtain ⟨nm, g1, g2, -, -⟩ := ident_sound h2
  rcases ok_orNot.1 h1 with ⟨a, -, h1⟩ | ⟨-, rfl, -⟩
  · obtain ⟨b, h1, -⟩ := ok_spanned.1 h1
    obtain ⟨ty, g3, g4, -⟩ := ok_typeName_sound h1
    exact ⟨some ty, nm, t2, g3, g1, g4.trans g2, h3⟩
  · exact ⟨none, nm, t2, trivial, g1, by simpa [tyText] using g2, h3⟩

/-- The type and the name of a node, when they are known. -/
theorem node_named {n : Nat} {eoi : Sp O} {ty : Option Name} {nm : Name} {s v t t1 t2}
    (h : Ok (spanned (node (nodesRec n))) eoi s v t) (hty : TyOk ty) (hnm : nm.Ok)
    (g1 : Takes s (tyText ty) t1) (g2 : Takes t1 nm.text t2) (hend : EndTok (chars t2)) (hne : NameEndOk (chars t2) nm) :
    NodeRest n eoi t2 t := by
  obtain ⟨x, t1', y, t2', h1, h2, h3⟩ := node_parts h
  have p1 : ∃ x', Ok (orNot (spanned typeName)) eoi s x' t1 := by
    cases ty with
    | none =>
      have := takes_nil.1 g1; subst this
      refine ⟨none, ok_orNot.2 (Or.inr ⟨rfl, rfl, fails_spanned.2 (failsC_typeName ?_).fails⟩)⟩
      intro hh
      rw [g2.chars] at hh
      cases nm with
      | quoted l => simp [Name.text, quotedText] at hh
      | bare v =>
        rcases head_append hh with hh | ⟨hh, _⟩
        · obtain ⟨w, hw⟩ := head_eq_some.1 hh
          simp only [Name.text] at hw
          subst hw
          exact identShape_not_mem hnm.1 (c := '(') (by decide) (by simp)
        · exact identShape_ne_nil hnm.1 hh
    | some m => exact ⟨_, ok_orNot.2 (Or.inl ⟨_, rfl, ok_spanned.2 ⟨_, typeName_complete hty g1, rfl⟩⟩)⟩
  obtain ⟨x', p1⟩ := p1
  obtain ⟨-, rfl⟩ := h1.unique p1
  have hname : IdentEnd (chars t2) ∨ ∃ l, nm = .quoted l := by
    cases nm with
    | quoted l => exact Or.inr ⟨l, rfl⟩
    | bare v => exact Or.inl (identEnd_of_endTok hend hne)
  have p2 : Ok (spanned ident) eoi t1' ⟨spanSince eoi t1' t2, nm.value⟩ t2 :=
    ok_spanned.2 ⟨_, ident_complete hnm g2 hname, rfl⟩
  obtain ⟨-, rfl⟩ := h2.unique p2
  exact h3

/-! ### Inside an entry -/

omit [Offset O] in
theorem just_head {c : Char} {eoi : Sp O} {s a t} (h : Ok (just c) eoi s a t) : Takes s [c] t := by
  obtain ⟨h, rfl⟩ := ok_just_takes.1 h
  exact h

/-- After a property name and the equals sign there is a value. -/
theorem inner_key {eoi : Sp O} {k : PropName} {s s1 v t} (h : Ok propOrArgInner eoi s v t) (hk : k.Ok)
    (hT : Takes s (k.text ++ ['=']) s1) (hend : EndTok (chars t)) : ∃ v', Ok value eoi s1 v' t := by
  obtain ⟨s0, g1, g2⟩ := takes_append.1 hT
  have hc0 : chars s0 = '=' :: chars s1 := by rw [g2.chars]; rfl
  have hopt : ∀ o, Ok optValue eoi s0 o t → ∃ v', Ok value eoi s1 v' t := by
    intro o ho
    unfold optValue at ho
    rcases ok_orNot.1 ho with ⟨a, -, ho⟩ | ⟨-, rfl, -⟩
    · obtain ⟨b, t1, h1, h2⟩ := ok_ignoreThen.1 ho
      have := just_head h1
      have : t1 = s1 := by
        obtain ⟨sp, u1, rfl, h3⟩ := takes_cons.1 this
        obtain ⟨sp', u2, h4, h5⟩ := takes_cons.1 g2
        have := takes_nil.1 h3; subst this
        have := takes_nil.1 h5; subst this
        simp at h4
        exact h4.2
      subst this
      exact ⟨_, h2⟩
    · have := hend '=' (by rw [hc0]; rfl)
      exact absurd this (by decide)
  unfold propOrArgInner at h
  cases k with
  | str sl =>
    have hlit : Ok literal eoi s (Lit.str sl).value s0 := literal_complete (l := .str sl) hk g1 (Or.inr ⟨_, rfl⟩)
    rcases ok_choice_cons.1 h with h | ⟨hf, h⟩
    · obtain ⟨⟨a, o⟩, hh, hl⟩ := ok_tryMap.1 h
      obtain ⟨t1, h1, h2⟩ := ok_seq.1 hh
      obtain ⟨l, h1, -⟩ := ok_spanned.1 h1
      obtain ⟨-, rfl⟩ := h1.unique hlit
      exact hopt _ h2
    · exfalso
      have hq : (chars s).head? = some '"' ∨ RawStart (chars s) := by
        rw [g1.chars]
        rcases strLit_text_head sl with hh | ⟨m, w, hw⟩
        · left
          obtain ⟨w, hw⟩ := head_eq_some.1 hh
          simp only [PropName.text]
          rw [hw]; rfl
        · right
          exact ⟨m, w ++ chars s0, by simp only [PropName.text]; rw [← hw]; simp⟩
      rcases ok_choice_cons.1 h with h | ⟨_, h⟩
      · obtain ⟨⟨a, o⟩, hh, rfl⟩ := ok_pmap.1 h
        obtain ⟨h1, h2⟩ := ok_validate.1 hh
        obtain ⟨t1, h1, h3⟩ := ok_seq.1 h1
        obtain ⟨nm, h1, -⟩ := ok_spanned.1 h1
        obtain ⟨h4, h5, h6⟩ := bareIdent_sound h1
        cases o with
        | none => simp [identEntryErrs] at h2
        | some x =>
          obtain ⟨w, h7, h8, -⟩ := optValue_sound (all := t1) (n := 0) (by simp) h3
          have hcs : chars s = nm ++ '=' :: (w.text ++ chars t) := by rw [h5.chars, h8.chars]; simp
          rcases hq with hq | ⟨m, w', hw'⟩
          · rw [hcs] at hq
            rcases head_append hq with hq | ⟨hq, -⟩
            · obtain ⟨x, hx⟩ := head_eq_some.1 hq
              subst hx
              exact identShape_not_mem h4.1 (c := '"') (by decide) (by simp)
            · exact identShape_ne_nil h4.1 hq
          · rw [hcs] at hw'
            have : '=' = '"' := by
              refine append_cons_eq (a := nm) (b := 'r' :: List.replicate m '#') (x := w.text ++ chars t) (y := w') ?_ ?_ ?_
              · rw [← hw']; simp
              · simp
              · exact identShape_not_mem h4.1 (by decide)
            revert this; decide
      rcases ok_choice_cons.1 h with h | ⟨_, h⟩
      · obtain ⟨a, hh, -⟩ := ok_pmap.1 h
        obtain ⟨w, h0, h1, h2, -⟩ := typeNameValue_sound (all := s) (n := 0) (by simp) hh
        have hc := h2.chars
        cases hty : w.ty with
        | none => rw [hty] at h0; simp at h0
        | some m =>
          simp only [Val.text, hty, tyText, List.cons_append] at hc
          rcases hq with hq | hq
          · rw [hc] at hq; simp at hq
          · have := rawStart_head hq; rw [hc] at this; simp at this
      · simp at h
  | bare nm =>
    obtain ⟨k1, k2, k3⟩ := hk
    have hlit : FailsC literal eoi s := failsC_literal_prop (f := chars s1) k1 k2 (by rw [g1.chars, hc0]; rfl)
    have hbare : Ok bareIdent eoi s nm s0 := bareIdent_complete k1 g1 (by rw [hc0]; exact identEnd_eq)
    rcases ok_choice_cons.1 h with h | ⟨hf, h⟩
    · obtain ⟨⟨a, o⟩, hh, hl⟩ := ok_tryMap.1 h
      obtain ⟨t1, h1, h2⟩ := ok_seq.1 hh
      obtain ⟨l, h1, -⟩ := ok_spanned.1 h1
      exact absurd hlit.fails h1.not_fails
    rcases ok_choice_cons.1 h with h | ⟨_, h⟩
    · obtain ⟨⟨a, o⟩, hh, rfl⟩ := ok_pmap.1 h
      obtain ⟨h1, h2⟩ := ok_validate.1 hh
      obtain ⟨t1, h1, h3⟩ := ok_seq.1 h1
      obtain ⟨nm', h1, -⟩ := ok_spanned.1 h1
      obtain ⟨-, rfl⟩ := h1.unique hbare
      exact hopt _ h3
    rcases ok_choice_cons.1 h with h | ⟨_, h⟩
    · obtain ⟨a, hh, -⟩ := ok_pmap.1 h
      obtain ⟨w, h0, h1, h2, -⟩ := typeNameValue_sound (all := s) (n := 0) (by simp) hh
      have hc := h2.chars
      cases hty : w.ty with
      | none => rw [hty] at h0; simp at h0
      | some m =>
        exfalso
        simp only [Val.text, hty, tyText, List.cons_append] at hc
        rw [g1.chars] at hc
        cases hnm : nm with
        | nil => exact identShape_ne_nil k1.1 hnm
        | cons c r =>
          rw [hnm] at hc k1
          simp only [PropName.text, List.cons_append, List.cons.injEq] at hc
          rw [hc.1] at k1
          exact identShape_not_mem k1.1 (c := '(') (by decide) (by simp)
    · simp at h

/-- After the type of a value there is a literal. -/
theorem typed_literal {eoi : Sp O} {m : Name} {s s1 v t} (h : Ok typeNameValue eoi s v t) (hm : m.Ok)
    (hT : Takes s (tyText (some m)) s1) : ∃ l : Lit, l.Ok ∧ Takes s1 l.text t := by
  unfold typeNameValue at h
  obtain ⟨⟨a, b⟩, hh, -⟩ := ok_pmap.1 h
  obtain ⟨t1, h1, h2⟩ := ok_seq.1 hh
  obtain ⟨ty, h1, -⟩ := ok_spanned.1 h1
  obtain ⟨l, h2, -⟩ := ok_spanned.1 h2
  obtain ⟨-, rfl⟩ := h1.unique (typeName_complete hm hT)
  obtain ⟨lt, h5, h6, -⟩ := literal_sound h2
  exact ⟨lt, h5, h6⟩

theorem paren_literal {eoi : Sp O} {s : List (Tok O)} (h : (chars s).head? = some '(') : FailsC literal eoi s := by
  obtain ⟨r, hr⟩ := head_eq_some.1 h
  refine failsC_literal (by rw [h]; decide) ?_ ?_ ?_
  · intro hq; have := rawStart_head hq; rw [h] at this; revert this; decide
  · rintro k hk ⟨w, hw⟩
    rw [hr] at hw
    simp only [keywords, List.mem_cons, List.not_mem_nil, or_false] at hk
    rcases hk with rfl | rfl | rfl <;> simp at hw
  · intro c rest hc
    rw [hr] at hc
    injection hc with hc; subst hc
    exact ⟨by decide, by simp⟩

theorem inner_ty {eoi : Sp O} {m : Name} {s s1 v t} (h : Ok propOrArgInner eoi s v t) (hm : m.Ok)
    (hT : Takes s (tyText (some m)) s1) : ∃ l : Lit, l.Ok ∧ Takes s1 l.text t := by
  have hc : (chars s).head? = some '(' := by rw [hT.chars]; rfl
  unfold propOrArgInner at h
  rcases ok_choice_cons.1 h with h | ⟨hf, h⟩
  · obtain ⟨⟨a, o⟩, hh, hl⟩ := ok_tryMap.1 h
    obtain ⟨t1, h1, h2⟩ := ok_seq.1 hh
    obtain ⟨l, h1, -⟩ := ok_spanned.1 h1
    exact absurd (paren_literal hc).fails h1.not_fails
  rcases ok_choice_cons.1 h with h | ⟨_, h⟩
  · obtain ⟨⟨a, o⟩, hh, -⟩ := ok_pmap.1 h
    obtain ⟨h1, h2⟩ := ok_validate.1 hh
    obtain ⟨t1, h1, h3⟩ := ok_seq.1 h1
    obtain ⟨nm', h1, -⟩ := ok_spanned.1 h1
    obtain ⟨h4, h5, -⟩ := bareIdent_sound h1
    exfalso
    rw [h5.chars] at hc
    rcases head_append hc with hc | ⟨hc, -⟩
    · obtain ⟨x, hx⟩ := head_eq_some.1 hc
      subst hx
      exact identShape_not_mem h4.1 (c := '(') (by decide) (by simp)
    · exact identShape_ne_nil h4.1 hc
  rcases ok_choice_cons.1 h with h | ⟨_, h⟩
  · obtain ⟨a, hh, -⟩ := ok_pmap.1 h
    exact typed_literal hh hm hT
  · simp at h

theorem value_ty {eoi : Sp O} {m : Name} {s s1 v t} (h : Ok value eoi s v t) (hm : m.Ok)
    (hT : Takes s (tyText (some m)) s1) : ∃ l : Lit, l.Ok ∧ Takes s1 l.text t := by
  have hc : (chars s).head? = some '(' := by rw [hT.chars]; rfl
  unfold value at h
  rcases ok_orP.1 h with h | ⟨-, h⟩
  · exact typed_literal h hm hT
  · obtain ⟨l, h, -⟩ := ok_pmap.1 h
    obtain ⟨l', h, -⟩ := ok_spanned.1 h
    exact absurd (paren_literal hc).fails h.not_fails

/-! ### Walking along the beginning -/

theorem header_solid {ty : Option Name} {nm : Name} {f : Str} (h2 : nm.Ok) (h3 : NameStartOk ty nm) :
    ∃ x rest, tyText ty ++ nm.text ++ f = x :: rest ∧ Solid x := by
  cases ty with
  | some n => exact ⟨'(', _, rfl, by unfold Solid; decide⟩
  | none =>
    cases nm with
    | quoted l => exact ⟨'"', _, rfl, by unfold Solid; decide⟩
    | bare v =>
      cases v with
      | nil => exact absurd h2.1 id
      | cons x v =>
        refine ⟨x, _, rfl, identStart_solid ?_ (by simpa [Cst.NameStartOk] using h3)⟩
        refine ⟨identShape_mem h2.1 (by simp), ?_⟩
        cases v with
        | nil => rcases h2.1 with rfl | rfl | h
                 · decide
                 · decide
                 · exact h.2
        | cons d rest =>
          rcases h2.1.1 with ⟨rfl | rfl, _⟩ | ⟨_, _, h, _⟩
          · decide
          · decide
          · exact h.2

/-- The terminator of a node is no slash-dash and nothing solid. -/
theorem terminator_stop {eoi : Sp O} {s u t} {d : Option (List Cst.Space)} {c : Char} {r : Str}
    (h : Ok nodeTerminator eoi s u t) (hs : chars s = dashText d ++ c :: r) (h1 : c ∉ newlineChars) (h2 : c ≠ '/')
    (h3 : c ≠ ';') : False := by
  obtain ⟨e, g4, g5⟩ := nodeTerminator_sound h
  have hch := g5.chars
  rw [hs] at hch
  have hhead : (dashText d ++ c :: r).head? = some '/' ∧ (dashText d ++ c :: r)[1]? = some '-' ∨
      (dashText d ++ c :: r).head? = some c := by
    cases d with
    | none => right; rfl
    | some l => left; exact ⟨rfl, rfl⟩
  rw [hch] at hhead
  cases e with
  | newline m =>
    obtain ⟨c', h5, h6⟩ := newline_head (n := m) (f := chars t)
    simp only [Term.text] at hhead
    rw [h6] at hhead
    rcases hhead with ⟨h, -⟩ | h
    · injection h with h; subst h; revert h5; decide
    · injection h with h; subst h; exact h1 h5
  | comment m =>
    simp only [Term.text, LineComment.text, List.cons_append, List.head?_cons, List.getElem?_cons_succ,
      List.getElem?_cons_zero, Option.some.injEq] at hhead
    rcases hhead with ⟨-, h⟩ | h
    · revert h; decide
    · exact h2 h.symm
  | semicolon =>
    simp only [Term.text, List.cons_append, List.head?_cons, Option.some.injEq] at hhead
    rcases hhead with ⟨h, -⟩ | h
    · revert h; decide
    · exact h3 h.symm
  | eof =>
    have : chars t = [] := g4
    rw [this] at hhead
    simp [Term.text] at hhead

/-- The next node of a sequence of nodes. -/
theorem body_next {n : Nat} {eoi : Sp O} {lines : List Line} {d : Option (List Cst.Space)} {s s1 s2 v t}
    (h : Ok (nodesRec (n + 1)) eoi s v t) (g1 : Takes s (linesText lines) s1) (hl : LinesOk true (chars s1) lines)
    (g2 : Takes s1 (dashText d) s2) (hd : DashOk true (chars s2) d)
    (hw : ∃ c r, chars s2 = c :: r ∧ Solid c) (hend : BodyEnd (chars t)) :
    ∃ v1 u v2, Ok (spanned (node (nodesRec n))) eoi s2 v1 u ∧ Ok (nodesRec (n + 1)) eoi u v2 t := by
  obtain ⟨c, r, hc, hsol⟩ := hw
  have hdash : d = none → ¬ ['/', '-'] <+: chars s1 := by
    rintro rfl
    have := takes_nil.1 g2; subst this
    rw [hc]
    exact not_prefix_head (c := '/') rfl rfl (fun h => hsol.2.2.1 h.symm)
  have hnl : NoLine (chars s1) := by
    cases d with
    | none =>
      have := takes_nil.1 g2; subst this
      rw [hc]
      refine ⟨noWs_lit hsol.1 hsol.2.2.1, ?_, ?_⟩
      · intro c' hc'; simp at hc'; subst hc'; exact hsol.2.1
      · exact not_prefix_head (c := '/') rfl rfl (fun h => hsol.2.2.1 h.symm)
    | some l =>
      rw [g2.chars]
      refine ⟨noWs_slash (by decide), ?_, ?_⟩
      · intro c' hc'; simp [Cst.dashText] at hc'; subst hc'; decide
      · rintro ⟨y, hy⟩; simp [Cst.dashText] at hy
  obtain ⟨as, p1⟩ := ok_lines (eoi := eoi) hl g1 (failsC_lineSpace hnl).fails
  obtain ⟨y, p2, hy⟩ := ok_dash (eoi := eoi) (d := d) hd g2 (by rw [hc]; exact hsol.noSpace) hdash
  rw [nodesRec] at h
  obtain ⟨vs, h, -⟩ := ok_pmap.1 h
  rw [ok_separatedBy (fun s => lines_total s) (eats_nodeItem (suf_nodesRec n)).consumes] at h
  cases h with
  | nil h1 h2 =>
    exfalso
    obtain ⟨-, rfl⟩ := h1.unique p1
    rw [g2.chars, hc] at hend
    rcases hend with hend | hend
    · simp at hend
    · cases d with
      | none => simp [dashText] at hend; exact hsol.2.2.2.2.2.1 hend
      | some l => simp [dashText] at hend
  | @cons _ _ _ _ _ as0 _ h1 h2 h3 h4 =>
    obtain ⟨-, rfl⟩ := h1.unique p1
    unfold nodeItem at h2
    obtain ⟨t1, h5, h6⟩ := ok_seq.1 h2
    obtain ⟨-, rfl⟩ := h5.unique p2
    have h7 := (ok_separatedBy (fun s => lines_total s) (eats_nodeItem (suf_nodesRec n)).consumes).2 h4
    refine ⟨_, _, keepNodes as0, h6, ?_⟩
    rw [nodesRec]
    exact ok_pmap.2 ⟨_, h7, rfl⟩

/-- Into the children block. -/
theorem rest_block {n : Nat} {eoi : Sp O} {sp : List Cst.Space} {d : Option (List Cst.Space)} {s s1 s2 s3 t}
    (h : NodeRest n eoi s t) (g1 : Takes s (spacesText sp) s1) (hl : SpacesOk true (chars s1) sp)
    (g2 : Takes s1 (dashText d) s2) (hd : DashOk true (chars s2) d) (g3 : Takes s2 ['{'] s3) :
    ∃ v u, Ok (nodesRec n) eoi s3 v u ∧ BodyEnd (chars u) := by
  have hc2 : chars s2 = '{' :: chars s3 := by rw [g3.chars]; rfl
  have hc1 : chars s1 = dashText d ++ '{' :: chars s3 := by rw [g2.chars, hc2]
  have hn1 : NoSpace (chars s1) := by
    rw [hc1]
    cases d with
    | none => exact noSpace_brace
    | some l => exact noSpace_dash
  obtain ⟨x, p2, hx⟩ := ok_dash (eoi := eoi) (d := d) hd g2 (by rw [hc2]; exact noSpace_brace)
    (by rintro rfl; rw [hc1]; exact not_prefix_head (c := '/') (d := '{') rfl rfl (by decide))
  obtain ⟨as, p1⟩ := ok_nodeSpaces (eoi := eoi) hl g1 (failsC_nodeSpace hn1).fails
  have p3f : Fails spaceEntry eoi s := by
    refine fails_spaceEntry (l := sp) hl g1 hn1 ?_
    cases d with
    | none =>
      have := takes_nil.1 g2; subst this
      exact fails_propOrArg_brace hc2
    | some l => exact fails_propOrArg_dash g2 hd hc2
  obtain ⟨vs, t3, y, t4, as', t5, u, h1, h2, h3, h4⟩ := h
  rw [ok_repeated eats_spaceEntry.consumes] at h1
  obtain ⟨h1, -⟩ := h1
  cases h1 with
  | cons h5 _ _ => exact absurd p3f h5.not_fails
  | nil =>
    unfold optChildren at h2
    rcases ok_orNot.1 h2 with ⟨a, -, h2⟩ | ⟨-, rfl, -⟩
    · obtain ⟨t6, h5, h6⟩ := ok_seq.1 h2
      obtain ⟨as, t7, h7, h8⟩ := ok_ignoreThen.1 h5
      obtain ⟨-, rfl⟩ := h7.unique p1
      obtain ⟨-, rfl⟩ := h8.unique p2
      obtain ⟨b, h9, -⟩ := ok_spanned.1 h6
      unfold bracedNodes at h9
      obtain ⟨c', t9, h9, h10⟩ := ok_ignoreThen.1 h9
      obtain ⟨-, rfl⟩ := h9.unique (ok_just_takes.2 ⟨g3, rfl⟩)
      rw [ok_mapErrWithSpan] at h10
      obtain ⟨t10, c2, h11, h12⟩ := ok_thenIgnore.1 h10
      obtain ⟨h13, -⟩ := ok_just_takes.1 h12
      exact ⟨_, _, h11, Or.inr (by rw [h13.chars]; rfl)⟩
    · exfalso
      obtain ⟨-, rfl⟩ := h3.unique p1
      exact terminator_stop h4 hc1 (by decide) (by decide) (by decide)

theorem endTok_entry {sp : List Cst.Space} {f : Str} (h1 : sp ≠ []) (h2 : SpacesOk true f sp) :
    EndTok (spacesText sp ++ f) := endTok_spaces1 h1 h2

/-- The innermost part of a beginning. -/
def openLeaf : Open → Open
  | .inside _ _ _ _ _ _ _ inner => openLeaf inner
  | .after _ _ _ rest => openLeaf rest
  | o => o

theorem openLeaf_slot (o : Open) : (openLeaf o).slot = o.slot := by
  induction o with
  | node | entry => rfl
  | inside _ _ _ _ _ _ _ _ ih => exact ih
  | after _ _ _ _ ih => exact ih

theorem openLeaf_cases (o : Open) :
    (∃ l d, openLeaf o = .node l d) ∨ ∃ a b c d e f g h i, openLeaf o = .entry a b c d e f g h i := by
  induction o with
  | node l d => exact Or.inl ⟨_, _, rfl⟩
  | entry => exact Or.inr ⟨_, _, _, _, _, _, _, _, _, rfl⟩
  | inside _ _ _ _ _ _ _ _ ih => exact ih
  | after _ _ _ _ ih => exact ih

/-- The parser arrives at the innermost part of a beginning. -/
theorem walk_leaf (o : Open) {n : Nat} {eoi : Sp O} {s t v u} (hn : s.length ≤ n) (hT : Takes s o.text t) (ho : o.Ok (chars t))
    (h : Ok (nodesRec (n + 1)) eoi s v u) (hend : BodyEnd (chars u)) :
    ∃ m s' v' u', Takes s' (openLeaf o).text t ∧ (openLeaf o).Ok (chars t) ∧
      Ok (nodesRec (m + 1)) eoi s' v' u' ∧ BodyEnd (chars u') := by
  induction o generalizing n s v u with
  | node lines dash => exact ⟨n, s, v, u, hT, ho, h, hend⟩
  | entry lines dash ty name items space dash' key vty => exact ⟨n, s, v, u, hT, ho, h, hend⟩
  | inside lines dash ty name items space dash' inner ih =>
    obtain ⟨o1, o2, o3, o4, o5, o6, o7, o9, o10, o11⟩ := ho
    have hT' : Takes s (linesText lines ++ (dashText dash ++ (tyText ty ++ (name.text ++ (itemsText items ++ (spacesText space ++
      (dashText dash' ++ (['{'] ++ inner.text)))))))) t := by simpa [Open.text] using hT
    obtain ⟨s1, g1, hT'⟩ := takes_append.1 hT'
    obtain ⟨s2, g2, hT'⟩ := takes_append.1 hT'
    obtain ⟨s3, g3, hT'⟩ := takes_append.1 hT'
    obtain ⟨s4, g4, hT'⟩ := takes_append.1 hT'
    obtain ⟨s5, g5, hT'⟩ := takes_append.1 hT'
    obtain ⟨s6, g6, hT'⟩ := takes_append.1 hT'
    obtain ⟨s7, g7, g8⟩ := takes_append.1 hT'
    obtain ⟨s8, g9, g10⟩ := takes_append.1 g8
    have c7 : chars s7 = '{' :: inner.text ++ chars t := by rw [g8.chars]; simp
    have c6 : chars s6 = dashText dash' ++ ('{' :: inner.text ++ chars t) := by rw [g7.chars, c7]
    have c5 : chars s5 = spacesText space ++ dashText dash' ++ ('{' :: inner.text ++ chars t) := by
      rw [g6.chars, c6]; simp
    have c4 : chars s4 = itemsText items ++ (spacesText space ++ dashText dash' ++ ('{' :: inner.text ++ chars t)) := by
      rw [g5.chars, c5]
    have c2 : chars s2 = tyText ty ++ name.text ++
        (itemsText items ++ (spacesText space ++ dashText dash' ++ ('{' :: inner.text ++ chars t))) := by
      rw [g3.chars, g4.chars, c4]; simp
    have e5 : EndTok (chars s5) := by
      rw [g6.chars]
      refine endTok_spaces (by rw [c6]; exact o9) ?_
      rw [c6]; exact endTok_dash_brace
    have i5 : ItemsOk true (chars s5) items := by rw [c5]; exact o7
    have e4 : EndTok (chars s4) := by rw [g5.chars]; exact endTok_items i5 e5
    obtain ⟨v1, u1, v2, h1, -⟩ := body_next h g1 (by rw [g2.chars, c2]; simpa using o1) g2 (by rw [c2]; simpa using o2)
      (by rw [c2]; exact header_solid o4 o5) hend
    have h2 := node_named h1 o3 o4 g3 g4 e4 (by rw [c4]; exact o6)
    have h3 := rest_items h2 g5 i5 e5
    obtain ⟨v3, u3, h4, h5⟩ := rest_block h3 g6 (by rw [c6]; exact o9) g7 (by rw [c7]; exact o10) g9
    have hlen : s8.length + 1 ≤ n := by
      have := g1.length; have := g2.length; have := g3.length; have := g4.length
      have := g5.length; have := g6.length; have := g7.length; have := g9.length
      simp at this
      omega
    obtain ⟨m, rfl⟩ : ∃ m, n = m + 1 := ⟨n - 1, by omega⟩
    exact ih (by omega) g10 o11 h4 h5
  | after lines dash nd rest ih =>
    obtain ⟨o1, o2, o3, o4⟩ := ho
    have hT' : Takes s (linesText lines ++ (dashText dash ++ (nd.text ++ rest.text))) t := by simpa [Open.text] using hT
    obtain ⟨s1, g1, hT'⟩ := takes_append.1 hT'
    obtain ⟨s2, g2, hT'⟩ := takes_append.1 hT'
    obtain ⟨s3, g3, g4⟩ := takes_append.1 hT'
    have c2 : chars s2 = nd.text ++ rest.text ++ chars t := by rw [g3.chars, g4.chars]; simp
    have o3' : nd.Ok true (chars s3) := by rw [g4.chars]; exact o3
    obtain ⟨v1, u1, v2, h1, h2⟩ := body_next h g1 (by rw [g2.chars, c2]; simpa using o1) g2 (by rw [c2]; exact o2)
      (by
        obtain ⟨x, w, hx, hs⟩ := node_solid o3'
        exact ⟨x, w ++ rest.text ++ chars t, by rw [c2, hx]; simp, hs⟩) hend
    have hl2 : s2.length ≤ n := by
      have := g1.length; have := g2.length
      omega
    have hl3 : s3.length ≤ n := by
      have := g3.length
      omega
    obtain ⟨-, rfl⟩ := h1.unique (node_complete (all := s2) (k := 0) nd hl2 (by simp) o3' g3)
    exact ih hl3 g4 o4 h2 hend

/-- **What follows a legal beginning must fit.** -/
theorem walk (o : Open) {n : Nat} {eoi : Sp O} {s t v u} (hn : s.length ≤ n) (hT : Takes s o.text t) (ho : o.Ok (chars t))
    (h : Ok (nodesRec (n + 1)) eoi s v u) (hend : BodyEnd (chars u)) (hb : Begins (chars t)) : Fits (chars t) o.slot := by
  have hsol := begins_iff.1 hb
  obtain ⟨n, s, v, u, hT, ho, h, hend⟩ := walk_leaf o hn hT ho h hend
  rw [← openLeaf_slot]
  have hleaf := openLeaf_cases o
  cases hl : openLeaf o with
  | inside => rw [hl] at hleaf; rcases hleaf with ⟨_, _, h⟩ | ⟨_, _, _, _, _, _, _, _, _, h⟩ <;> cases h
  | after => rw [hl] at hleaf; rcases hleaf with ⟨_, _, h⟩ | ⟨_, _, _, _, _, _, _, _, _, h⟩ <;> cases h
  | node lines dash =>
    rw [hl] at hT ho
    obtain ⟨o1, o2⟩ := ho
    obtain ⟨s1, g1, g2⟩ := takes_append.1 hT
    obtain ⟨v1, u1, v2, h1, -⟩ := body_next h g1 (by rw [g2.chars]; exact o1) g2 o2 hsol hend
    obtain ⟨ty, nm, t2, h2, h3, h4, h5⟩ := node_header h1
    exact ⟨ty, nm, chars t2, h2, h3, h4.chars, sep_iff.2 (rest_endTok h5)⟩
  | entry lines dash ty name items space dash' key vty =>
    rw [hl] at hT ho
    obtain ⟨o1, o2, o3, o4, o5, o6, o7, o8, o9, o10, o11, o12⟩ := ho
    have hT' : Takes s (linesText lines ++ (dashText dash ++ (tyText ty ++ (name.text ++ (itemsText items ++ (spacesText space ++
      (dashText dash' ++ (keyText key ++ tyText vty)))))))) t := by simpa [Open.text] using hT
    obtain ⟨s1, g1, hT'⟩ := takes_append.1 hT'
    obtain ⟨s2, g2, hT'⟩ := takes_append.1 hT'
    obtain ⟨s3, g3, hT'⟩ := takes_append.1 hT'
    obtain ⟨s4, g4, hT'⟩ := takes_append.1 hT'
    obtain ⟨s5, g5, hT'⟩ := takes_append.1 hT'
    obtain ⟨s6, g6, hT'⟩ := takes_append.1 hT'
    obtain ⟨s7, g7, g8⟩ := takes_append.1 hT'
    obtain ⟨s8, g9, g10⟩ := takes_append.1 g8
    have c7 : chars s7 = keyText key ++ tyText vty ++ chars t := g8.chars
    have c6 : chars s6 = dashText dash' ++ (keyText key ++ tyText vty ++ chars t) := by rw [g7.chars, c7]
    have c5 : chars s5 = spacesText space ++ dashText dash' ++ (keyText key ++ tyText vty ++ chars t) := by
      rw [g6.chars, c6]; simp
    have c4 : chars s4 = itemsText items ++ (spacesText space ++ dashText dash' ++ (keyText key ++ tyText vty ++ chars t)) := by
      rw [g5.chars, c5]
    have c2 : chars s2 = tyText ty ++ name.text ++
        (itemsText items ++ (spacesText space ++ dashText dash' ++ (keyText key ++ tyText vty ++ chars t))) := by
      rw [g3.chars, g4.chars, c4]; simp
    have e5 : EndTok (chars s5) := by rw [g6.chars]; exact endTok_spaces1 o8 (by rw [c6]; exact o9)
    have i5 : ItemsOk true (chars s5) items := by rw [c5]; exact o7
    have e4 : EndTok (chars s4) := by rw [g5.chars]; exact endTok_items i5 e5
    obtain ⟨v1, u1, v2, h1, -⟩ := body_next h g1 (by rw [g2.chars, c2]; simpa using o1) g2 (by rw [c2]; simpa using o2)
      (by rw [c2]; exact header_solid o4 o5) hend
    have h2 := node_named h1 o3 o4 g3 g4 e4 (by rw [c4]; exact o6)
    have h3 := rest_items h2 g5 i5 e5
    have hs7 : ∃ c r, chars s7 = c :: r ∧ Solid c := by
      rw [c7]
      cases key with
      | none =>
        cases vty with
        | none => exact hsol
        | some m => exact ⟨'(', _, rfl, by unfold Solid; decide⟩
      | some k =>
        have hk := o11 k rfl
        cases k with
        | str sl =>
          rcases strLit_text_head sl with hh | ⟨m, w, hw⟩
          · obtain ⟨w, hw⟩ := head_eq_some.1 hh
            refine ⟨'"', w ++ ['='] ++ tyText vty ++ chars t, ?_, by unfold Solid; decide⟩
            simp [keyText, PropName.text, hw]
          · refine ⟨'r', (List.replicate m '#' ++ '"' :: w) ++ ['='] ++ tyText vty ++ chars t, ?_, by unfold Solid; decide⟩
            simp only [keyText, PropName.text, ← hw]; simp
        | bare nm =>
          obtain ⟨k1, k2, k3⟩ := hk
          have := header_solid (ty := none) (nm := .bare nm) (f := ['='] ++ tyText vty ++ chars t) k1 (by simpa [NameStartOk] using k3)
          simpa [keyText, PropName.text, tyText, Name.text] using this
    obtain ⟨v3, u3, h4, h5⟩ := rest_item h3 g6 (by rw [c6]; exact o9) g7 (by rw [c7]; exact o10) hs7
    have e6 := rest_endTok h5
    cases key with
    | none =>
      have := takes_nil.1 g9; subst this
      cases vty with
      | none =>
        have hst := takes_nil.1 g10
        rw [hst] at h4
        obtain ⟨e, he, hT, -⟩ := propOrArgInner_sound (all := t) (n := 0) (by simp) (by
          obtain ⟨c, r, hc, hs⟩ := hsol
          rw [hc]
          intro h
          injection h with h; subst h
          exact hs.1 (by decide)) h4
        exact ⟨e, chars u3, he, hT.chars, sep_iff.2 e6⟩
      | some m =>
        obtain ⟨l, hl, hT⟩ := inner_ty h4 o12 g10
        exact ⟨l, chars u3, hl, hT.chars, sep_iff.2 e6⟩
    | some k =>
      obtain ⟨v4, h6⟩ := inner_key h4 (o11 k rfl) g9 e6
      cases vty with
      | none =>
        have hst := takes_nil.1 g10
        rw [hst] at h6
        obtain ⟨w, hw, hT, -⟩ := value_sound (all := t) (n := 0) (by simp) h6
        exact ⟨w, chars u3, hw, hT.chars, sep_iff.2 e6⟩
      | some m =>
        obtain ⟨l, hl, hT⟩ := value_ty h6 o12 g10
        exact ⟨l, chars u3, hl, hT.chars, sep_iff.2 e6⟩

/-- A text that goes on with something else than what is expected is rejected. -/
theorem reject {o : Open} {w : Str} (ho : o.Ok w) (hb : Begins w) (hf : ¬ Fits w o.slot) :
    ∀ d, parseAst (o.text ++ w) ≠ some (.ok d) := by
  intro d h
  have h := parseAst_ok_iff.1 h
  unfold document at h
  obtain ⟨v, h', rfl⟩ := ok_pmap.1 h; clear h
  obtain ⟨t1, _, h1, h2⟩ := ok_thenIgnore.1 h'
  obtain ⟨rfl, -⟩ := ok_endP.1 h2
  have h3 := ok_nodes.1 h1
  obtain ⟨t, hT, ht⟩ := takes_of_chars (s := offsetToks 0 (o.text ++ w)) (a := o.text) (b := w) (by rw [chars_offsetToks])
  subst ht
  exact hf (walk o (Nat.le_refl _) hT ho h3 (Or.inl rfl) hb)

end

end Knuffel
