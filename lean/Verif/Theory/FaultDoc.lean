import Verif.Theory.FaultEntries
import Verif.Theory.NoPanicNode
/-!
# Nodes, children blocks and documents with recoverable faults
-/

set_option linter.unusedSimpArgs false
set_option linter.unusedSectionVars false

namespace Knuffel

open Cst (Matching Fault Piece NameF LitF ValF PropNameF EntryF ItemF NodeF ChildrenF BodyF Term)

variable {O α β γ : Type}

section
variable [Offset O]

theorem Em.of {R : Fault → PErr O → Prop} {p : P O α} {eoi s a t fs gs} (h : Em R p eoi s a t fs)
    (e : fs = gs) : Em R p eoi s a t gs := e ▸ h

theorem endTok_childrenF {c : ChildrenF} {f : Str} (h : c.Ok f) (hf : EndTok f) :
    EndTok (c.text ++ f) := by
  cases c with
  | none => exact hf
  | some sp d b =>
    obtain ⟨h1, _⟩ := h
    have : EndTok (Cst.spacesText sp ++ (Cst.dashText d ++ '{' :: b.text ++ '}' :: f)) := by
      refine endTok_spaces h1 ?_
      intro c hc
      cases d with
      | none => simp [Cst.dashText] at hc; subst hc; decide
      | some l => simp [Cst.dashText] at hc; subst hc; decide
    simpa [ChildrenF.text] using this

theorem nodeF_solid {c : NodeF} {f : Str} (h : c.Ok f) : ∃ x rest, c.text = x :: rest ∧ Solid x := by
  obtain ⟨ty, nm, items, ch, sp, term⟩ := c
  obtain ⟨_, h2, h3, _⟩ := h
  cases ty with
  | some n => exact ⟨'(', _, rfl, by unfold Solid; decide⟩
  | none =>
    cases nm with
    | quoted l => exact ⟨'"', _, rfl, by unfold Solid; decide⟩
    | bare v =>
      cases v with
      | nil => exact absurd h2.1 id
      | cons x v =>
        refine ⟨x, _, rfl, identStart_solid ?_ (by simpa [Cst.NameStartOkF] using h3)⟩
        refine ⟨identShape_mem h2.1 (by simp), ?_⟩
        cases v with
        | nil => rcases h2.1 with rfl | rfl | h
                 · decide
                 · decide
                 · exact h.2
        | cons d rest =>
          rcases h2.1.1 with ⟨rfl | rfl, _⟩ | ⟨_, _, h, _⟩
          · decide
          · decide
          · exact h.2

mutual
theorem em_node {eoi : Sp O} {all : List (Tok O)} (c : NodeF) {n k : Nat} {s t : List (Tok O)}
    (hn : s.length ≤ n) (hs : s = all.drop k) (hok : c.Ok (chars t)) (hT : Takes s c.text t) :
    ∃ v, Em (Due eoi all) (spanned (node (nodesRec n))) eoi s v t (c.faults k) := by
  match c with
  | .mk ty nm items ch sp term =>
    obtain ⟨h1, h2, h3, h4, h5, h6, h7, h8⟩ := hok
    have hT' : Takes s (Cst.tyTextF ty ++ (nm.text ++ (Cst.itemsTextF items ++ (ch.text ++
        (Cst.spacesText sp ++ term.text))))) t := by simpa [NodeF.text] using hT
    obtain ⟨t1, g1, hT'⟩ := takes_append.1 hT'
    obtain ⟨t2, g2, hT'⟩ := takes_append.1 hT'
    obtain ⟨t3, g3, hT'⟩ := takes_append.1 hT'
    obtain ⟨t4, g4, hT'⟩ := takes_append.1 hT'
    obtain ⟨t5, g5, g6⟩ := takes_append.1 hT'
    have e1 := g1.drop hs
    have e2 := g2.drop e1
    have e3 := g3.drop e2
    have hstop : Stopper (chars t5) := by rw [g6.chars]; exact term_stopper h8
    have hend5 : EndTok (chars t5) := by rw [g6.chars]; exact endTok_term h8
    have hsp : Cst.SpacesOk true (chars t5) sp := by rw [g6.chars]; exact h7
    have hend4 : EndTok (chars t4) := by rw [g5.chars]; exact endTok_spaces hsp hend5
    have hc4 : chars t4 = Cst.spacesText sp ++ term.text ++ chars t := by
      rw [g5.chars, g6.chars]; simp
    have hch : ch.Ok (chars t4) := by rw [hc4]; exact h6
    have hend3 : EndTok (chars t3) := by rw [g4.chars]; exact endTok_childrenF hch hend4
    have hc3 : chars t3 = ch.text ++ Cst.spacesText sp ++ term.text ++ chars t := by
      rw [g4.chars, hc4]; simp
    have hitems : Cst.ItemsOkF (chars t3) items := by rw [hc3]; exact h5
    have hend2 : EndTok (chars t2) := by rw [g3.chars]; exact endTok_itemsF hitems hend3
    have hname : IdentEnd (chars t2) ∨ ∃ l, nm = .quoted l := by
      cases nm with
      | quoted l => exact Or.inr ⟨l, rfl⟩
      | bare v =>
        left
        refine identEnd_of_endTok hend2 ?_
        rw [g3.chars, hc3]
        simpa [Cst.NameEndOkF] using h4
    -- the type annotation
    have p1 : ∃ v, Em (Due eoi all) (orNot (spanned typeName)) eoi s v t1 (Cst.tyFaults k ty) := by
      cases ty with
      | none =>
        have := takes_nil.1 g1; subst this
        refine ⟨none, em_of_ok (ok_orNot.2 (Or.inr ⟨rfl, rfl, fails_spanned.2 (failsC_typeName ?_).fails⟩))⟩
        intro hh
        rw [g2.chars] at hh
        cases nm with
        | quoted l => simp [NameF.text, Cst.quotedTextF] at hh
        | bare v =>
          rcases head_append hh with hh | ⟨hh, _⟩
          · obtain ⟨w, hw⟩ := head_eq_some.1 hh
            simp only [NameF.text] at hw
            subst hw
            exact identShape_not_mem h2.1 (c := '(') (by decide) (by simp)
          · exact identShape_ne_nil h2.1 hh
      | some m =>
        obtain ⟨v, h⟩ := em_typeName (eoi := eoi) hs h1 g1
        exact ⟨_, em_orNot (em_spanned h)⟩
    obtain ⟨v1, p1⟩ := p1
    obtain ⟨v2, p2⟩ := em_ident (eoi := eoi) e1 h2 g2 hname
    -- the children and the end of the entries
    have hlen : t3.length ≤ n := by
      have := g1.length; have := g2.length; have := g3.length
      omega
    obtain ⟨x, p4⟩ := em_children (eoi := eoi) (all := all) ch hlen e3 hch g4
      (fun hnone => by
        subst hnone
        have := takes_nil.1 g4; subst this
        exact ok_noChildren hsp g5 hstop)
    have p3f : Fails spaceEntry eoi t3 := by
      cases ch with
      | none =>
        have := takes_nil.1 g4; subst this
        exact fails_spaceEntry hsp g5 hstop.1 (fails_propOrArg_stopper hstop)
      | some sp' d b =>
        have g4' : Takes t3 (Cst.spacesText sp' ++ (Cst.dashText d ++ ('{' :: b.text ++ ['}']))) t4 := by
          simpa [ChildrenF.text] using g4
        obtain ⟨t6, g7, g8⟩ := takes_append.1 g4'
        obtain ⟨t7, g9, g10⟩ := takes_append.1 g8
        obtain ⟨q1, q2, _⟩ := hch
        have hc7 : chars t7 = '{' :: (b.text ++ '}' :: chars t4) := by rw [g10.chars]; simp
        refine fails_spaceEntry (t := t6) (l := sp') ?_ g7 ?_ ?_
        · rw [g9.chars, hc7]; simpa using q1
        · cases d with
          | none => rw [g9.chars, hc7]; exact noSpace_brace
          | some l => rw [g9.chars]; exact noSpace_dash
        · cases d with
          | none =>
            have := takes_nil.1 g9; subst this
            exact fails_propOrArg_brace hc7
          | some l =>
            refine fails_propOrArg_dash g9 ?_ hc7
            rw [hc7]; simpa [Cst.DashOk] using q2
    obtain ⟨v3, p3⟩ := em_repeated (ereps_items (eoi := eoi) e2 hitems g3 hend3) p3f
    obtain ⟨as, p5⟩ := ok_nodeSpaces (eoi := eoi) hsp g5 (failsC_nodeSpace hstop.1).fails
    have p6 := nodeTerminator_complete (eoi := eoi) h8 g6
    have := em_spanned (em_pmap (f := fun x : ((_ × _) × _) × _ =>
      match x with | (((typeName, nodeName), items), children) => buildNode typeName nodeName items children)
      (em_thenIgnore (em_seq (em_seq (em_seq p1 (em_spanned p2)) p3) p4)
      (em_of_ok (a := (as, ())) (ok_seq.2 ⟨t5, p5, p6⟩))))
    exact ⟨_, Em.of this (by simp [NodeF.faults, Nat.add_assoc])⟩
theorem em_children {eoi : Sp O} {all : List (Tok O)} (c : ChildrenF) {n k : Nat}
    {s t : List (Tok O)} (hn : s.length ≤ n) (hs : s = all.drop k) (hok : c.Ok (chars t))
    (hT : Takes s c.text t)
    (hnone : c = .none → Ok (optChildren (nodesRec n)) eoi t none t) :
    ∃ x, Em (Due eoi all) (optChildren (nodesRec n)) eoi s x t (c.faults k) := by
  match c with
  | .none =>
    have := takes_nil.1 hT; subst this
    exact ⟨none, em_of_ok (hnone rfl)⟩
  | .some sp d b =>
    obtain ⟨h1, h2, h3⟩ := hok
    have hT' : Takes s (Cst.spacesText sp ++ (Cst.dashText d ++ (['{'] ++ (b.text ++ ['}'])))) t := by
      simpa [ChildrenF.text] using hT
    obtain ⟨t1, g1, hT'⟩ := takes_append.1 hT'
    obtain ⟨t2, g2, hT'⟩ := takes_append.1 hT'
    obtain ⟨t3, g3, hT'⟩ := takes_append.1 hT'
    obtain ⟨t4, g4, g5⟩ := takes_append.1 hT'
    have e1 := g1.drop hs
    have e2 := g2.drop e1
    have e3 := g3.drop e2
    have hc4 : chars t4 = '}' :: chars t := by rw [g5.chars]; rfl
    have hc2 : chars t2 = '{' :: (b.text ++ '}' :: chars t) := by rw [g3.chars, g4.chars, hc4]; rfl
    have hc1 : chars t1 = Cst.dashText d ++ '{' :: b.text ++ '}' :: chars t := by
      rw [g2.chars, hc2]; simp
    obtain ⟨x, p2, hx⟩ := ok_dash (eoi := eoi) (d := d) (s := t1) (t := t2)
      (by rw [hc2]; simpa using h2) g2 (by rw [hc2]; exact noSpace_brace)
      (by rintro rfl; rw [hc1]; exact not_prefix_head (c := '/') (d := '{') rfl rfl (by decide))
    obtain ⟨as, p1⟩ := ok_nodeSpaces (eoi := eoi) (l := sp) (s := s) (t := t1)
      (by rw [hc1]; exact h1) g1 (failsC_nodeSpace (by
        rw [hc1]
        cases d with
        | none => exact noSpace_brace
        | some l => exact noSpace_dash)).fails
    have hlen : t3.length + 1 ≤ n := by
      have := g1.length; have := g2.length; have := g3.length
      simp at this
      omega
    obtain ⟨m, rfl⟩ : ∃ m, n = m + 1 := ⟨n - 1, by omega⟩
    obtain ⟨v, p3⟩ := em_nodes (eoi := eoi) (all := all) b (n := m) (by omega) e3 (by rw [hc4]; exact h3) g4
      (Or.inr (by rw [hc4]; rfl))
    have := em_orNot (em_seq (em_of_ok (R := Due eoi all) (ok_ignoreThen.2 ⟨as, t1, p1, p2⟩))
      (em_spanned (em_ignoreThen (em_of_ok (ok_just_takes.2 ⟨g3, rfl⟩ : Ok (just '{') eoi t2 '{' t3))
        (em_mapErrWithSpan (f := bracesErr) (em_thenIgnore p3 (em_of_ok
          (ok_just_takes.2 ⟨g5, rfl⟩ : Ok (just '}') eoi t4 '}' t)))))))
    exact ⟨_, Em.of this (by simp [ChildrenF.faults, Nat.add_assoc])⟩
theorem em_nodes {eoi : Sp O} {all : List (Tok O)} (b : BodyF) {n k : Nat} {s t : List (Tok O)}
    (hn : s.length ≤ n) (hs : s = all.drop k) (hok : b.Ok (chars t)) (hT : Takes s b.text t)
    (hend : BodyEnd (chars t)) :
    ∃ v, Em (Due eoi all) (nodesRec (n + 1)) eoi s v t (b.faults k) := by
  obtain ⟨vs, h⟩ := em_separatedBy (esep_body (eoi := eoi) (all := all) b hn hs hok hT hend)
  exact ⟨_, em_pmap h⟩
theorem esep_body {eoi : Sp O} {all : List (Tok O)} (b : BodyF) {n k : Nat} {s t : List (Tok O)}
    (hn : s.length ≤ n) (hs : s = all.drop k) (hok : b.Ok (chars t)) (hT : Takes s b.text t)
    (hend : BodyEnd (chars t)) :
    ESep (Due eoi all) (nodeItem (nodesRec n)) (repeated lineSpace) eoi s t (b.faults k) := by
  match b with
  | .nil lines =>
    obtain ⟨as, h1⟩ := ok_lines (eoi := eoi) hok hT (failsC_lineSpace hend.noLine).fails
    exact .nil h1 (failsC_nodeItem_end hend)
  | .cons lines d c rest =>
    obtain ⟨h1, h2, h3, h4⟩ := hok
    have hT' : Takes s (Cst.linesText lines ++ (Cst.dashText d ++ (c.text ++ rest.text))) t := by
      simpa [BodyF.text] using hT
    obtain ⟨t1, g1, hT'⟩ := takes_append.1 hT'
    obtain ⟨t2, g2, hT'⟩ := takes_append.1 hT'
    obtain ⟨t3, g3, g4⟩ := takes_append.1 hT'
    have e1 := g1.drop hs
    have e2 := g2.drop e1
    have e3 := g3.drop e2
    have hc3 : chars t3 = rest.text ++ chars t := g4.chars
    have hc2 : chars t2 = c.text ++ rest.text ++ chars t := by rw [g3.chars, hc3]; simp
    have hc1 : chars t1 = Cst.dashText d ++ c.text ++ rest.text ++ chars t := by
      rw [g2.chars, hc2]; simp
    have h3' : c.Ok (chars t3) := by rw [hc3]; exact h3
    obtain ⟨x, w, hx, hsol⟩ := nodeF_solid h3'
    have hc2' : chars t2 = x :: (w ++ rest.text ++ chars t) := by rw [hc2, hx]; simp
    have hdash : d = none → ¬ ['/', '-'] <+: chars t1 := by
      rintro rfl
      have := takes_nil.1 g2; subst this
      rw [hc2']
      exact not_prefix_head (c := '/') rfl rfl (fun h => hsol.2.2.1 h.symm)
    have hnl : NoLine (chars t1) := by
      cases d with
      | none =>
        have := takes_nil.1 g2; subst this
        rw [hc2']
        refine ⟨noWs_lit hsol.1 hsol.2.2.1, ?_, ?_⟩
        · intro c' hc'; simp at hc'; subst hc'; exact hsol.2.1
        · exact not_prefix_head (c := '/') rfl rfl (fun h => hsol.2.2.1 h.symm)
      | some l =>
        rw [hc1]
        refine ⟨noWs_slash (by decide), ?_, ?_⟩
        · intro c' hc'; simp [Cst.dashText] at hc'; subst hc'; decide
        · rintro ⟨y, hy⟩; simp [Cst.dashText] at hy
    obtain ⟨as, p1⟩ := ok_lines (eoi := eoi) (l := lines) (s := s) (t := t1) (by rw [hc1]; exact h1) g1
      (failsC_lineSpace hnl).fails
    obtain ⟨y, p2, hy⟩ := ok_dash (eoi := eoi) (d := d) (s := t1) (t := t2)
      (by rw [hc2]; exact h2) g2 (by rw [hc2']; exact hsol.noSpace) hdash
    have hlen2 : t2.length ≤ n := by
      have := g1.length; have := g2.length
      omega
    obtain ⟨v, p3⟩ := em_node (eoi := eoi) (all := all) c hlen2 e2 h3' g3
    have hlen3 : t3.length < s.length := by
      have := g1.length; have := g2.length; have := g3.length
      rw [hx] at this
      simp at this
      omega
    have p4 := esep_body (eoi := eoi) (all := all) rest (n := n) (by omega) e3 h4 g4 hend
    have := ESep.cons p1 (em_seq (em_of_ok (R := Due eoi all) p2) p3) hlen3 p4
    have e : ∀ fs, fs = BodyF.faults k (.cons lines d c rest) →
        ESep (Due eoi all) (nodeItem (nodesRec n)) (repeated lineSpace) eoi s t fs →
        ESep (Due eoi all) (nodeItem (nodesRec n)) (repeated lineSpace) eoi s t
          (BodyF.faults k (.cons lines d c rest)) := fun fs h h' => h ▸ h'
    exact e _ (by simp [BodyF.faults, Nat.add_assoc]) this
end

/-- The parser goes through a text with recoverable faults and reports exactly these. -/
theorem em_document {eoi : Sp O} {all} (b : BodyF) (hok : b.Ok []) (ht : b.text = chars all) :
    ∃ d, Em (Due eoi all) document eoi all d [] (b.faults 0) := by
  have hT : Takes all b.text [] := ⟨all, by simp, ht.symm⟩
  obtain ⟨v, h⟩ : ∃ v, Em (Due eoi all) (nodesRec (all.length + 1)) eoi all v [] (b.faults 0) :=
    em_nodes b (Nat.le_refl _) (by simp) hok hT (Or.inl rfl)
  have e : nodes eoi all = nodesRec (all.length + 1) eoi all := by rw [nodes]
  have h' : Em (Due eoi all) nodes eoi all v [] (b.faults 0) := by
    unfold Em at h ⊢
    rw [e]
    exact h
  have := em_pmap (f := fun nodes => (⟨nodes⟩ : Document (Sp O)))
    (em_thenIgnore h' (em_of_ok (a := ()) (ok_endP.2 ⟨rfl, rfl⟩)))
  refine ⟨⟨v⟩, ?_⟩
  unfold document
  exact Em.of this (by simp)

theorem matching_imp {R S : α → β → Prop} {as bs} (h : Matching R as bs)
    (hf : ∀ a b, R a b → S a b) : Matching S as bs := by
  induction h with
  | nil => exact .nil
  | cons h _ ih => exact .cons (hf _ _ h) ih

/-- What the entry point gives. -/
theorem run_faults {eoi : Sp O} {all} (b : BodyF) (hok : b.Ok []) (ht : b.text = chars all) :
    (b.faults 0 = [] → ∃ d, runParser document eoi all = some (.ok d)) ∧
    (b.faults 0 ≠ [] → ∃ es, runParser document eoi all = some (.error es) ∧
      Matching (Due eoi all) (b.faults 0) es) := by
  have hnp := document_np eoi all
  obtain ⟨d, h1, ⟨alt, h2⟩, h3⟩ := em_document (eoi := eoi) b hok ht
  unfold runParser
  simp only [hnp, Bool.false_eq_true, if_false, h2]
  constructor
  · intro h
    rw [h] at h1
    have : (document eoi all).errs = [] := by
      cases hh : (document eoi all).errs with
      | nil => rfl
      | cons => rw [hh] at h1; cases h1
    exact ⟨d, by rw [this]; rfl⟩
  · intro h
    refine ⟨_, ?_, h1⟩
    cases hh : (document eoi all).errs with
    | nil => rw [hh] at h1; cases hb : b.faults 0 with
      | nil => exact absurd hb h
      | cons => rw [hb] at h1; cases h1
    | cons => rfl

end

end Knuffel
