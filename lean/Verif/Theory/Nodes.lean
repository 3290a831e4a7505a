import Verif.Theory.Entries
/-!
# Nodes and documents: the parser against the specification
-/

set_option linter.unusedSimpArgs false
set_option linter.unusedSectionVars false

namespace Knuffel

open Cst (Name Item NodeC ChildrenC BodyC Term)

variable {O α β γ : Type}

section
variable [Offset O]

/-- The children that `buildNode` takes. -/
def childOf {S : Type} : Option (Option Unit × Spanned (List (SpannedNode S)) S) →
    Option (Spanned (List (SpannedNode S)) S)
  | some (some _, _) => none
  | some (none, c) => some c
  | none => none

theorem buildNode_eq {S : Type} (ty : Option (Spanned TypeName S)) (nm : Spanned Str S)
    (l : List Item) (f : Nat → Nat → S) (n : Nat) (oc) :
    buildNode ty nm (itemsValue f n l) oc =
      .mk ty nm (Cst.itemsArgs f n l) (Cst.propMap (Cst.itemsProps f n l)) (childOf oc) := by
  unfold buildNode Cst.propMap
  rw [collectItems_eq]
  simp only [List.nil_append]
  rcases oc with _ | ⟨_ | _, c⟩ <;> rfl

/-! ### Soundness -/

/-- What the soundness of the inner nodes says. -/
def BodySound (eoi : Sp O) (all : List (Tok O)) (inner : P O (List (SpannedNode (Sp O)))) : Prop :=
  ∀ {s v t} {k : Nat}, s = all.drop k → Ok inner eoi s v t →
    ∃ b : BodyC, b.Ok false (chars t) ∧ Takes s b.text t ∧ v = b.value (spf eoi all) k

theorem dash_sound {eoi : Sp O} {s x t}
    (h : Ok (orNot (thenIgnore (beginComment '-') (repeated nodeSpace))) eoi s x t) :
    ∃ d, Cst.DashOk false (chars t) d ∧ Takes s (Cst.dashText d) t ∧ (x.isSome = d.isSome) ∧
      (d = none → t = s) ∧ (d ≠ none → Fails nodeSpace eoi t) := by
  rcases ok_orNot.1 h with ⟨a, rfl, h'⟩ | ⟨rfl, rfl, _⟩
  · obtain ⟨t1, _, h1, h2⟩ := ok_thenIgnore.1 h'
    rw [ok_beginComment] at h1
    obtain ⟨l, h3, h4, h5⟩ := nodeSpaces_sound h2
    exact ⟨some l, h3, by simpa [Cst.dashText] using h1.trans h4, rfl, by simp, fun _ => h5⟩
  · exact ⟨none, trivial, .nil, rfl, fun _ => rfl, by simp⟩

theorem bracedNodes_sound {eoi : Sp O} {all} {inner : P O (List (SpannedNode (Sp O)))}
    (hin : BodySound eoi all inner) {s v t} {k : Nat} (hs : s = all.drop k)
    (h : Ok (bracedNodes inner) eoi s v t) :
    ∃ b : BodyC, b.Ok false ('}' :: chars t) ∧ Takes s ('{' :: b.text ++ ['}']) t ∧
      v = b.value (spf eoi all) (k + 1) := by
  unfold bracedNodes at h
  obtain ⟨_, t1, h1, h2⟩ := ok_ignoreThen.1 h
  obtain ⟨h1', rfl⟩ := ok_just_takes.1 h1
  rw [ok_mapErrWithSpan] at h2
  obtain ⟨t2, _, h3, h4⟩ := ok_thenIgnore.1 h2
  obtain ⟨h4', rfl⟩ := ok_just_takes.1 h4
  obtain ⟨b, h5, h6, rfl⟩ := hin (h1'.drop hs) h3
  refine ⟨b, ?_, ?_, rfl⟩
  · rw [h4'.chars] at h5; exact h5
  · exact h1'.trans (h6.trans h4')

theorem optChildren_sound {eoi : Sp O} {all} {inner : P O (List (SpannedNode (Sp O)))}
    (hin : BodySound eoi all inner) {s x t} {k : Nat} (hs : s = all.drop k)
    (h : Ok (optChildren inner) eoi s x t) :
    ∃ c : ChildrenC, c.Ok false (chars t) ∧ Takes s c.text t ∧
      childOf x = c.value (spf eoi all) k := by
  unfold optChildren at h
  rcases ok_orNot.1 h with ⟨a, rfl, h'⟩ | ⟨rfl, rfl, _⟩
  · obtain ⟨y, z⟩ := a
    obtain ⟨t1, h1, h2⟩ := ok_seq.1 h'
    simp only at h1 h2
    obtain ⟨_, t2, h3, h4⟩ := ok_ignoreThen.1 h1
    obtain ⟨l, h5, h6, _⟩ := nodeSpaces_sound h3
    obtain ⟨d, h7, h8, h9, _⟩ := dash_sound h4
    obtain ⟨v, h10, rfl⟩ := ok_spanned.1 h2
    have e2 := h6.drop hs
    have e1 := h8.drop e2
    obtain ⟨b, h11, h12, rfl⟩ := bracedNodes_sound hin e1 h10
    have e0 := h12.drop e1
    refine ⟨.some l d b, ⟨?_, ?_, h11⟩, ?_, ?_⟩
    · rw [h8.chars, h12.chars] at h5
      simpa using h5
    · rw [h12.chars] at h7
      simpa using h7
    · have := h6.trans (h8.trans h12)
      simpa [ChildrenC.text] using this
    · cases d with
      | some d' =>
        cases y with
        | none => simp at h9
        | some _ => simp [childOf, ChildrenC.value]
      | none =>
        cases y with
        | some _ => simp at h9
        | none =>
          simp only [childOf, ChildrenC.value, Option.some.injEq, spf, Cst.dashText,
            List.length_nil, Nat.add_zero] at e1 e0 ⊢
          rw [← e1]
          congr 1
          rw [e0]
          congr 2
          simp; omega
  · exact ⟨.none, trivial, .nil, rfl⟩

theorem identChar_feff : Cst.IdentChar '\uFEFF' := by rw [← isIdChar_iff]; decide

theorem nameMunch_end {n : Name} {f : Str} (h : NameMunch n f) : Cst.NameEndOk f n := by
  cases n with
  | quoted l => trivial
  | bare v =>
    intro hc
    rcases h _ hc with h | ⟨_, h⟩
    · exact h identChar_feff
    · revert h; decide

theorem node_sound {eoi : Sp O} {all} {inner : P O (List (SpannedNode (Sp O)))}
    (hin : BodySound eoi all inner) {s v t} {k : Nat} (hs : s = all.drop k)
    (hb : (chars s).head? ≠ some '\uFEFF') (h : Ok (spanned (node inner)) eoi s v t) :
    ∃ c : NodeC, c.Ok false (chars t) ∧ Takes s c.text t ∧ v = c.value (spf eoi all) k := by
  obtain ⟨w, h', rfl⟩ := ok_spanned.1 h; clear h
  unfold node at h'
  obtain ⟨⟨⟨⟨ty, nm⟩, items⟩, oc⟩, h, rfl⟩ := ok_pmap.1 h'; clear h'
  obtain ⟨t1, x, h1, h2⟩ := ok_thenIgnore.1 h
  obtain ⟨t2, h1, h3⟩ := ok_seq.1 h1
  obtain ⟨t3, h1, h4⟩ := ok_seq.1 h1
  obtain ⟨t4, h5, h6⟩ := ok_seq.1 h1
  simp only at h3 h4 h5 h6
  obtain ⟨t5, h7, h8⟩ := ok_seq.1 h2
  obtain ⟨sp, h9, h10, _⟩ := nodeSpaces_sound h7
  obtain ⟨term, h11, h12⟩ := nodeTerminator_sound h8
  -- type name
  have hty : ∃ tyc, Cst.TyOk tyc ∧ Takes s (Cst.tyText tyc) t4 ∧ ty = Cst.tyValue (spf eoi all) k tyc := by
    rcases ok_orNot.1 h5 with ⟨a, rfl, hh⟩ | ⟨rfl, rfl, _⟩
    · obtain ⟨b, hh', rfl⟩ := ok_spanned.1 hh
      obtain ⟨n, h13, h14, rfl⟩ := ok_typeName_sound hh'
      have e := h14.drop hs
      refine ⟨some n, h13, h14, ?_⟩
      simp only [Cst.tyValue, spf]
      rw [← e, ← hs]
    · exact ⟨none, trivial, .nil, rfl⟩
  obtain ⟨tyc, h13, h14, rfl⟩ := hty
  obtain ⟨nv, h15, rfl⟩ := ok_spanned.1 h6
  obtain ⟨n, h16, h17, rfl, h18⟩ := ident_sound h15
  have e4 := h14.drop hs
  have e3 := h17.drop e4
  rw [ok_repeated eats_spaceEntry.consumes] at h4
  obtain ⟨l, h19, h20, rfl⟩ := reps_spaceEntry_sound h4.1 e3
  have e2 := h20.drop e3
  obtain ⟨c, h21, h22, h23⟩ := optChildren_sound hin e2 h3
  have hT : Takes s (NodeC.mk tyc n l c sp term).text t := by
    have := h14.trans (h17.trans (h20.trans (h22.trans (h10.trans h12))))
    simpa [NodeC.text] using this
  refine ⟨.mk tyc n l c sp term, ⟨h13, h16, ?_, ?_, ?_, ?_, ?_, h11⟩, hT, ?_⟩
  · cases tyc with
    | some _ => trivial
    | none =>
      cases n with
      | quoted _ => trivial
      | bare v =>
        intro hh
        apply hb
        have := takes_nil.1 h14
        subst this
        rw [h17.chars]
        obtain ⟨w, rfl⟩ := head_eq_some.1 hh
        rfl
  · have := nameMunch_end h18
    rw [h20.chars, h22.chars, h10.chars, h12.chars] at this
    simpa using this
  · rw [h22.chars, h10.chars, h12.chars] at h19
    simpa using h19
  · rw [h10.chars, h12.chars] at h21
    simpa using h21
  · rw [h12.chars] at h9
    exact h9
  · have e0 := hT.drop hs
    simp only
    rw [buildNode_eq, h23]
    simp only [NodeC.value, spf, List.length_append, ← Nat.add_assoc]
    rw [← e0, ← e4, ← e3, ← hs]

theorem nodeItem_sound {eoi : Sp O} {all} {inner : P O (List (SpannedNode (Sp O)))}
    (hin : BodySound eoi all inner) {s v t} {k : Nat} (hs : s = all.drop k)
    (hb : (chars s).head? ≠ some '\uFEFF') (h : Ok (nodeItem inner) eoi s v t) :
    ∃ d, ∃ c : NodeC, Cst.DashOk false (c.text ++ chars t) d ∧ c.Ok false (chars t) ∧
      Takes s (Cst.dashText d ++ c.text) t ∧ v.1.isSome = d.isSome ∧
      v.2 = c.value (spf eoi all) (k + (Cst.dashText d).length) := by
  unfold nodeItem at h
  obtain ⟨t1, h1, h2⟩ := ok_seq.1 h
  obtain ⟨d, h3, h4, h5, h6, h7⟩ := dash_sound h1
  have hb' : (chars t1).head? ≠ some '\uFEFF' := by
    by_cases hd : d = none
    · rw [h6 hd]; exact hb
    · exact fails_nodeSpace_feff (h7 hd)
  obtain ⟨c, h8, h9, h10⟩ := node_sound hin (h4.drop hs) hb' h2
  refine ⟨d, c, ?_, h8, h4.trans h9, h5, h10⟩
  rw [h9.chars] at h3
  exact h3

theorem fails_lineSpace_feff {eoi : Sp O} {s} (h : Fails lineSpace eoi s) :
    (chars s).head? ≠ some '\uFEFF' := by
  intro hc
  obtain ⟨t, ht⟩ := wsRun_exists (by decide) hc
  exact (ok_lineSpace_run ht).not_fails h

theorem sepReps_sound {eoi : Sp O} {all} {inner : P O (List (SpannedNode (Sp O)))}
    (hin : BodySound eoi all inner) {s vs t}
    (h : SepReps (nodeItem inner) (repeated lineSpace) eoi s vs t) : ∀ {k : Nat}, s = all.drop k →
    ∃ b : BodyC, b.Ok false (chars t) ∧ Takes s b.text t ∧ keepNodes vs = b.value (spf eoi all) k := by
  induction h with
  | nil h1 h2 =>
    intro k hs
    obtain ⟨l, h3, h4, _⟩ := lines_sound h1
    exact ⟨.nil l, h3, h4, rfl⟩
  | cons h1 h2 _ _ ih =>
    intro k hs
    obtain ⟨l, h3, h4, h5⟩ := lines_sound h1
    have e1 := h4.drop hs
    obtain ⟨d, c, h6, h7, h8, h9, h10⟩ := nodeItem_sound hin e1 (fails_lineSpace_feff h5) h2
    have e2 := h8.drop e1
    obtain ⟨b, h11, h12, h13⟩ := ih e2
    refine ⟨.cons l d c b, ⟨?_, ?_, ?_, h11⟩, ?_, ?_⟩
    · rw [h8.chars, h12.chars] at h3
      simpa using h3
    · rw [h12.chars] at h6
      simpa using h6
    · rw [h12.chars] at h7
      exact h7
    · have := h4.trans (h8.trans h12)
      simpa [BodyC.text] using this
    · rename_i _ _ _ a _ _ _ _ _
      obtain ⟨x, v⟩ := a
      subst h10
      simp only at h9
      have e : k + (Cst.linesText l).length + (Cst.dashText d ++ c.text).length =
          k + (Cst.linesText l ++ Cst.dashText d).length + c.text.length := by simp; omega
      rw [e] at h13
      cases d with
      | none =>
        cases x with
        | some _ => simp at h9
        | none =>
          simp only [BodyC.value]
          rw [← h13]
          simp [keepNodes, Nat.add_assoc]
      | some d =>
        cases x with
        | none => simp at h9
        | some _ =>
          simp only [BodyC.value]
          rw [← h13]
          simp [keepNodes]

theorem nodesRec_sound {eoi : Sp O} {all} (n : Nat) :
    BodySound eoi all (nodesRec n : P O (List (SpannedNode (Sp O)))) := by
  induction n with
  | zero =>
    intro s v t k hs h
    obtain ⟨_, ⟨alt, h⟩, _⟩ := h
    simp [nodesRec, tooDeep] at h
  | succ n ih =>
    intro s v t k hs h
    rw [nodesRec] at h
    obtain ⟨vs, h', rfl⟩ := ok_pmap.1 h
    rw [ok_separatedBy (fun s => lines_total s) (eats_nodeItem (suf_nodesRec n)).consumes] at h'
    exact sepReps_sound ih h' hs

theorem ok_nodes {eoi : Sp O} {s v t} : Ok nodes eoi s v t ↔ Ok (nodesRec (s.length + 1)) eoi s v t := by
  unfold Ok nodes
  exact Iff.rfl

/-- **Soundness.**  Whatever `document` accepts (without recording errors) is the
text of a legal concrete syntax tree, and the result is its meaning. -/
theorem document_sound {eoi : Sp O} {all d t} (h : Ok document eoi all d t) :
    t = [] ∧ ∃ b : BodyC, b.Ok false [] ∧ b.text = chars all ∧ d.nodes = b.value (spf eoi all) 0 := by
  unfold document at h
  obtain ⟨v, h', rfl⟩ := ok_pmap.1 h; clear h
  obtain ⟨t1, _, h1, h2⟩ := ok_thenIgnore.1 h'
  obtain ⟨rfl, rfl⟩ := ok_endP.1 h2
  have h3 := ok_nodes.1 h1
  obtain ⟨b, h4, h5, h6⟩ := nodesRec_sound (all := all) _ (s := all) (k := 0) rfl h3
  refine ⟨rfl, b, h4, ?_, h6⟩
  rw [h5.chars]; simp

/-! ### Completeness -/

/-- The text is where the entries of a node end, after the space. -/
def Stopper (s : Str) : Prop :=
  NoSpace s ∧ ¬ ['/', '-'] <+: s ∧ s.head? ≠ some '{' ∧
  ∀ c, s.head? = some c → ¬ Cst.IdentStart c ∧ c ∉ Cst.decDigits ∧ c ≠ '"' ∧ c ≠ '('

theorem not_identStart_of {c : Char} (h : isIdSansDig c = false) : ¬ Cst.IdentStart c := by
  rw [← isIdSansDig_iff]; simp [h]

theorem term_stopper {e : Term} {f : Str} (h : e.Ok f) : Stopper (e.text ++ f) := by
  cases e with
  | newline n =>
    obtain ⟨c, h1, h2⟩ := newline_head (n := n) (f := f)
    have hall : ∀ c ∈ Cst.newlineChars, c ≠ '\\' ∧ c ≠ '/' ∧ c ≠ '{' ∧ isIdSansDig c = false ∧
      c ∉ Cst.decDigits ∧ c ≠ '"' ∧ c ≠ '(' := by decide
    have hc := hall c h1
    obtain ⟨w, hw⟩ := head_eq_some.1 h2
    simp only [Term.text]
    refine ⟨⟨noWs_newline h1 h2, ?_⟩, ?_, ?_, ?_⟩
    · rw [h2]; simpa using hc.1
    · exact not_prefix_head (c := '/') rfl h2 (fun h => hc.2.1 h.symm)
    · rw [h2]; simpa using hc.2.2.1
    · intro c' hc'
      rw [h2] at hc'
      injection hc' with hc'
      subst hc'
      exact ⟨not_identStart_of hc.2.2.2.1, hc.2.2.2.2.1, hc.2.2.2.2.2.1, hc.2.2.2.2.2.2⟩
  | comment c =>
    simp only [Term.text, Cst.LineComment.text, List.cons_append]
    refine ⟨⟨noWs_slash (by decide), by simp⟩, ?_, by simp, ?_⟩
    · rintro ⟨w, hw⟩
      simp at hw
    · intro c hc
      simp at hc; subst hc
      exact ⟨not_identStart_of (by decide), by decide, by decide, by decide⟩
  | semicolon =>
    simp only [Term.text, List.cons_append]
    refine ⟨⟨noWs_lit (by decide) (by decide), by simp⟩, ?_, by simp, ?_⟩
    · exact not_prefix_head (c := '/') (d := ';') rfl rfl (by decide)
    · intro c hc
      simp at hc; subst hc
      exact ⟨not_identStart_of (by decide), by decide, by decide, by decide⟩
  | eof =>
    have : f = [] := h
    subst this
    refine ⟨⟨noWs_nil, by simp [Term.text]⟩, by simp [Term.text], by simp [Term.text], by simp [Term.text]⟩

theorem noSpace_brace {f : Str} : NoSpace ('{' :: f) := ⟨noWs_lit (by decide) (by decide), by simp⟩
theorem noSpace_dash {f : Str} : NoSpace ('/' :: '-' :: f) := ⟨noWs_slash (by decide), by simp⟩

theorem fails_propOrArg_stopper {eoi : Sp O} {s} (h : Stopper (chars s)) : Fails propOrArg eoi s := by
  unfold propOrArg
  rw [fails_orP, fails_pmap]
  exact ⟨fails_ignoreThen_left (fails_ignoreThen_left (failsC_beginComment h.2.1).fails),
    (fails_propOrArgInner h.2.2.2).fails⟩

theorem fails_inner_brace {eoi : Sp O} {s} {f : Str} (h : chars s = '{' :: f) :
    Fails propOrArgInner eoi s := by
  refine (fails_propOrArgInner ?_).fails
  intro c hc
  rw [h] at hc
  simp at hc; subst hc
  exact ⟨not_identStart_of (by decide), by decide, by decide, by decide⟩

theorem fails_propOrArg_brace {eoi : Sp O} {s} {f : Str} (h : chars s = '{' :: f) :
    Fails propOrArg eoi s := by
  unfold propOrArg
  rw [fails_orP, fails_pmap]
  refine ⟨fails_ignoreThen_left (fails_ignoreThen_left (failsC_beginComment ?_).fails),
    fails_inner_brace h⟩
  rw [h]
  exact not_prefix_head (c := '/') rfl rfl (by decide)

theorem fails_propOrArg_dash {eoi : Sp O} {s t} {f : Str} {l : List Cst.Space}
    (hT : Takes s (Cst.dashText (some l)) t) (hl : Cst.SpacesOk true (chars t) l)
    (h : chars t = '{' :: f) : Fails propOrArg eoi s := by
  have hT' : Takes s (['/', '-'] ++ Cst.spacesText l) t := by simpa [Cst.dashText] using hT
  obtain ⟨t1, h1, h2⟩ := takes_append.1 hT'
  obtain ⟨as, h3⟩ := ok_nodeSpaces (eoi := eoi) hl h2
    (failsC_nodeSpace (by rw [h]; exact noSpace_brace)).fails
  unfold propOrArg
  rw [fails_orP, fails_pmap]
  refine ⟨fails_ignoreThen_right (ok_ignoreThen.2 ⟨(), t1, ok_beginComment.2 h1, h3⟩)
    (fails_inner_brace h), (fails_propOrArgInner ?_).fails⟩
  intro c hc
  rw [h1.chars] at hc
  simp at hc; subst hc
  exact ⟨not_identStart_of (by decide), by decide, by decide, by decide⟩

theorem fails_spaceEntry {eoi : Sp O} {s t} {l : List Cst.Space} (hl : Cst.SpacesOk true (chars t) l)
    (hT : Takes s (Cst.spacesText l) t) (hn : NoSpace (chars t)) (hf : Fails propOrArg eoi t) :
    Fails spaceEntry eoi s := by
  have hns := (failsC_nodeSpace (eoi := eoi) hn).fails
  unfold spaceEntry
  by_cases h : l = []
  · subst h
    have := takes_nil.1 hT; subst this
    exact fails_ignoreThen_left (fails_repeatedB (by decide) (by decide) hns)
  · obtain ⟨as, h1⟩ := ok_nodeSpaces1 (eoi := eoi) hl h hT hns
    exact fails_ignoreThen_right h1 hf

theorem ok_dash {eoi : Sp O} {s t} {d : Option (List Cst.Space)} (hd : Cst.DashOk true (chars t) d)
    (hT : Takes s (Cst.dashText d) t) (hn : NoSpace (chars t)) (hdash : d = none → ¬ ['/', '-'] <+: chars s) :
    ∃ x, Ok (orNot (thenIgnore (beginComment '-') (repeated nodeSpace))) eoi s x t ∧
      x.isSome = d.isSome := by
  cases d with
  | none =>
    have := takes_nil.1 hT; subst this
    exact ⟨none, ok_orNot.2 (Or.inr ⟨rfl, rfl, fails_thenIgnore_left
      (failsC_beginComment (hdash rfl)).fails⟩), rfl⟩
  | some l =>
    have hT' : Takes s (['/', '-'] ++ Cst.spacesText l) t := by simpa [Cst.dashText] using hT
    obtain ⟨t1, h1, h2⟩ := takes_append.1 hT'
    obtain ⟨as, h3⟩ := ok_nodeSpaces (eoi := eoi) hd h2 (failsC_nodeSpace hn).fails
    exact ⟨some (), ok_orNot.2 (Or.inl ⟨(), rfl, ok_thenIgnore.2 ⟨t1, as, ok_beginComment.2 h1, h3⟩⟩), rfl⟩

theorem ok_noChildren {eoi : Sp O} {inner : P O (List (SpannedNode (Sp O)))} {s t} {l : List Cst.Space}
    (hl : Cst.SpacesOk true (chars t) l) (hT : Takes s (Cst.spacesText l) t) (hf : Stopper (chars t)) :
    Ok (optChildren inner) eoi s none s := by
  obtain ⟨as, h1⟩ := ok_nodeSpaces (eoi := eoi) hl hT (failsC_nodeSpace hf.1).fails
  unfold optChildren
  refine ok_orNot.2 (Or.inr ⟨rfl, rfl, ?_⟩)
  refine fails_seq_right (t := t) (a := none) (ok_ignoreThen.2 ⟨as, t, h1, ok_orNot.2 (Or.inr ⟨rfl, rfl,
    fails_thenIgnore_left (failsC_beginComment hf.2.1).fails⟩)⟩) ?_
  rw [fails_spanned]
  exact fails_ignoreThen_left (fails_just_head.2 hf.2.2.1)

theorem identEnd_of_endTok {f : Str} (h : EndTok f) (hb : f.head? ≠ some '\uFEFF') : IdentEnd f := by
  intro c hc
  have hall : ∀ c ∈ endChars, c = '\uFEFF' ∨ (isIdChar c = false ∧ c ≠ '!') := by decide
  rcases hall c (h c hc) with rfl | ⟨h1, h2⟩
  · exact absurd hc hb
  · rw [← isIdChar_iff]
    exact ⟨by simp [h1], h2⟩

theorem endTok_term {e : Term} {f : Str} (h : e.Ok f) : EndTok (e.text ++ f) := by
  cases e with
  | newline n =>
    obtain ⟨c, h1, h2⟩ := newline_head (n := n) (f := f)
    intro c' hc'
    simp only [Term.text] at hc'
    rw [h2] at hc'
    injection hc' with hc'; subst hc'
    simp only [endChars, List.mem_append]
    exact Or.inl (Or.inr h1)
  | comment c => intro c' hc'; simp [Term.text, Cst.LineComment.text] at hc'; subst hc'; decide
  | semicolon => intro c' hc'; simp [Term.text] at hc'; subst hc'; decide
  | eof =>
    have : f = [] := h
    subst this
    intro c' hc'; simp [Term.text] at hc'

theorem endTok_children {c : ChildrenC} {f : Str} (h : c.Ok true f) (hf : EndTok f) :
    EndTok (c.text ++ f) := by
  cases c with
  | none => exact hf
  | some sp d b =>
    obtain ⟨h1, _⟩ := h
    have : EndTok (Cst.spacesText sp ++ (Cst.dashText d ++ '{' :: b.text ++ '}' :: f)) := by
      refine endTok_spaces h1 ?_
      intro c hc
      cases d with
      | none => simp [Cst.dashText] at hc; subst hc; decide
      | some l => simp [Cst.dashText] at hc; subst hc; decide
    simpa [ChildrenC.text] using this

/-- The first character of a node. -/
theorem node_solid {c : NodeC} {f : Str} (h : c.Ok true f) : ∃ x rest, c.text = x :: rest ∧ Solid x := by
  obtain ⟨ty, nm, items, ch, sp, term⟩ := c
  obtain ⟨_, h2, h3, _⟩ := h
  cases ty with
  | some n => exact ⟨'(', _, rfl, by unfold Solid; decide⟩
  | none =>
    cases nm with
    | quoted l => exact ⟨'"', _, rfl, by unfold Solid; decide⟩
    | bare v =>
      cases v with
      | nil => exact absurd h2.1 id
      | cons x v =>
        refine ⟨x, _, rfl, identStart_solid ?_ (by simpa [Cst.NameStartOk] using h3)⟩
        refine ⟨identShape_mem h2.1 (by simp), ?_⟩
        cases v with
        | nil => rcases h2.1 with rfl | rfl | h
                 · decide
                 · decide
                 · exact h.2
        | cons d rest =>
          rcases h2.1.1 with ⟨rfl | rfl, _⟩ | ⟨_, _, h, _⟩
          · decide
          · decide
          · exact h.2

/-- The text is the end of a sequence of nodes. -/
def BodyEnd (s : Str) : Prop := s = [] ∨ s.head? = some '}'

theorem BodyEnd.noName {s : Str} (h : BodyEnd s) : NoName s := by
  intro c hc
  rcases h with rfl | h
  · simp at hc
  · rw [h] at hc
    injection hc with hc; subst hc
    exact ⟨not_identStart_of (by decide), by decide, by decide⟩

theorem BodyEnd.noLine {s : Str} (h : BodyEnd s) : NoLine s := by
  rcases h with rfl | h
  · exact ⟨noWs_nil, by simp, by simp⟩
  · obtain ⟨w, rfl⟩ := head_eq_some.1 h
    refine ⟨noWs_lit (by decide) (by decide), ?_, ?_⟩
    · intro c hc; simp at hc; subst hc; decide
    · exact not_prefix_head (c := '/') rfl rfl (by decide)

theorem failsC_nodeItem_end {eoi : Sp O} {inner : P O (List (SpannedNode (Sp O)))} {s}
    (h : BodyEnd (chars s)) : FailsC (nodeItem inner) eoi s := by
  have hd : ¬ ['/', '-'] <+: chars s := by
    rcases h with h | h
    · rw [h]; simp
    · exact not_prefix_head (c := '/') rfl h (by decide)
  have hty : (chars s).head? ≠ some '(' := by
    intro hc
    rcases h with h | h
    · rw [h] at hc; simp at hc
    · rw [h] at hc; revert hc; decide
  unfold nodeItem
  refine failsC_seq_right (ok_orNot.2 (Or.inr ⟨rfl, rfl, fails_thenIgnore_left
    (failsC_beginComment hd).fails⟩)) ?_
  rw [failsC_spanned]
  unfold node
  rw [failsC_pmap]
  refine failsC_thenIgnore_left (failsC_seq_left (failsC_seq_left (failsC_seq_right
    (ok_orNot.2 (Or.inr ⟨rfl, rfl, fails_spanned.2 (failsC_typeName hty).fails⟩)) ?_)))
  rw [failsC_spanned]
  exact failsC_ident h.noName

mutual
theorem node_complete {eoi : Sp O} {all : List (Tok O)} (c : NodeC) {n k : Nat} {s t : List (Tok O)}
    (hn : s.length ≤ n) (hs : s = all.drop k) (hok : c.Ok true (chars t)) (hT : Takes s c.text t) :
    Ok (spanned (node (nodesRec n))) eoi s (c.value (spf eoi all) k) t := by
  match c with
  | .mk ty nm items ch sp term =>
    obtain ⟨h1, h2, h3, h4, h5, h6, h7, h8⟩ := hok
    have hT0 := hT
    have hT' : Takes s (Cst.tyText ty ++ (nm.text ++ (Cst.itemsText items ++ (ch.text ++
        (Cst.spacesText sp ++ term.text))))) t := by simpa [NodeC.text] using hT
    obtain ⟨t1, g1, hT'⟩ := takes_append.1 hT'
    obtain ⟨t2, g2, hT'⟩ := takes_append.1 hT'
    obtain ⟨t3, g3, hT'⟩ := takes_append.1 hT'
    obtain ⟨t4, g4, hT'⟩ := takes_append.1 hT'
    obtain ⟨t5, g5, g6⟩ := takes_append.1 hT'
    have e1 := g1.drop hs
    have e2 := g2.drop e1
    have e3 := g3.drop e2
    have e4 := g4.drop e3
    have hstop : Stopper (chars t5) := by rw [g6.chars]; exact term_stopper h8
    have hend5 : EndTok (chars t5) := by rw [g6.chars]; exact endTok_term h8
    have hsp : Cst.SpacesOk true (chars t5) sp := by rw [g6.chars]; exact h7
    have hend4 : EndTok (chars t4) := by rw [g5.chars]; exact endTok_spaces hsp hend5
    have hc4 : chars t4 = Cst.spacesText sp ++ term.text ++ chars t := by
      rw [g5.chars, g6.chars]; simp
    have hch : ch.Ok true (chars t4) := by rw [hc4]; exact h6
    have hend3 : EndTok (chars t3) := by rw [g4.chars]; exact endTok_children hch hend4
    have hc3 : chars t3 = ch.text ++ Cst.spacesText sp ++ term.text ++ chars t := by
      rw [g4.chars, hc4]; simp
    have hitems : Cst.ItemsOk true (chars t3) items := by rw [hc3]; exact h5
    have hend2 : EndTok (chars t2) := by rw [g3.chars]; exact endTok_items hitems hend3
    have hname : IdentEnd (chars t2) ∨ ∃ l, nm = .quoted l := by
      cases nm with
      | quoted l => exact Or.inr ⟨l, rfl⟩
      | bare v =>
        left
        refine identEnd_of_endTok hend2 ?_
        rw [g3.chars, hc3]
        simpa [Cst.NameEndOk] using h4
    -- the type annotation
    have p1 : Ok (orNot (spanned typeName)) eoi s (Cst.tyValue (spf eoi all) k ty) t1 := by
      cases ty with
      | none =>
        have := takes_nil.1 g1; subst this
        refine ok_orNot.2 (Or.inr ⟨rfl, rfl, fails_spanned.2 (failsC_typeName ?_).fails⟩)
        intro hh
        rw [g2.chars] at hh
        cases nm with
        | quoted l => simp [Name.text, Cst.quotedText] at hh
        | bare v =>
          rcases head_append hh with hh | ⟨hh, _⟩
          · obtain ⟨w, hw⟩ := head_eq_some.1 hh
            simp only [Name.text] at hw
            subst hw
            exact identShape_not_mem h2.1 (c := '(') (by decide) (by simp)
          · exact identShape_ne_nil h2.1 hh
      | some m =>
        refine ok_orNot.2 (Or.inl ⟨_, rfl, ok_spanned.2 ⟨_, typeName_complete h1 g1, ?_⟩⟩)
        simp only [spf]
        rw [← e1, ← hs]
    have p2 : Ok (spanned ident) eoi t1 ⟨spanSince eoi t1 t2, nm.value⟩ t2 :=
      ok_spanned.2 ⟨_, ident_complete h2 g2 hname, rfl⟩
    -- the children and the end of the entries
    have hlen : t3.length ≤ n := by
      have := g1.length; have := g2.length; have := g3.length
      omega
    obtain ⟨x, p4, hx⟩ := children_complete (eoi := eoi) (all := all) ch hlen e3 hch g4
      (fun hnone => by
        subst hnone
        have := takes_nil.1 g4; subst this
        exact ok_noChildren hsp g5 hstop)
    have p3f : Fails spaceEntry eoi t3 := by
      cases ch with
      | none =>
        have := takes_nil.1 g4; subst this
        exact fails_spaceEntry hsp g5 hstop.1 (fails_propOrArg_stopper hstop)
      | some sp' d b =>
        have g4' : Takes t3 (Cst.spacesText sp' ++ (Cst.dashText d ++ ('{' :: b.text ++ ['}']))) t4 := by
          simpa [ChildrenC.text] using g4
        obtain ⟨t6, g7, g8⟩ := takes_append.1 g4'
        obtain ⟨t7, g9, g10⟩ := takes_append.1 g8
        obtain ⟨q1, q2, _⟩ := hch
        have hc7 : chars t7 = '{' :: (b.text ++ '}' :: chars t4) := by rw [g10.chars]; simp
        refine fails_spaceEntry (t := t6) (l := sp') ?_ g7 ?_ ?_
        · rw [g9.chars, hc7]; simpa using q1
        · cases d with
          | none => rw [g9.chars, hc7]; exact noSpace_brace
          | some l => rw [g9.chars]; exact noSpace_dash
        · cases d with
          | none =>
            have := takes_nil.1 g9; subst this
            exact fails_propOrArg_brace hc7
          | some l =>
            refine fails_propOrArg_dash g9 ?_ hc7
            rw [hc7]; simpa [Cst.DashOk] using q2
    have p3 : Ok (repeated spaceEntry) eoi t2 (itemsValue (spf eoi all) _ items) t3 :=
      (ok_repeated eats_spaceEntry.consumes).2 ⟨reps_spaceEntry_complete e2 hitems g3 hend3, p3f⟩
    obtain ⟨as, p5⟩ := ok_nodeSpaces (eoi := eoi) hsp g5 (failsC_nodeSpace hstop.1).fails
    have p6 := nodeTerminator_complete (eoi := eoi) h8 g6
    refine ok_spanned.2 ⟨_, ok_pmap.2 ⟨(((_, _), _), x), ok_thenIgnore.2 ⟨t4, (as, ()),
      ok_seq.2 ⟨t3, ok_seq.2 ⟨t2, ok_seq.2 ⟨t1, p1, p2⟩, p3⟩, p4⟩, ok_seq.2 ⟨t5, p5, p6⟩⟩, rfl⟩, ?_⟩
    have e0 := hT0.drop hs
    simp only
    rw [buildNode_eq, hx]
    simp only [NodeC.value, spf, List.length_append, ← Nat.add_assoc]
    rw [← e0, ← e1, ← e2, ← hs]
    cases ty <;> simp only [Cst.tyValue, spf] <;> rw [← hs]
theorem children_complete {eoi : Sp O} {all : List (Tok O)} (c : ChildrenC) {n k : Nat}
    {s t : List (Tok O)} (hn : s.length ≤ n) (hs : s = all.drop k) (hok : c.Ok true (chars t))
    (hT : Takes s c.text t)
    (hnone : c = .none → Ok (optChildren (nodesRec n)) eoi t none t) :
    ∃ x, Ok (optChildren (nodesRec n)) eoi s x t ∧ childOf x = c.value (spf eoi all) k := by
  match c with
  | .none =>
    have := takes_nil.1 hT; subst this
    exact ⟨none, hnone rfl, rfl⟩
  | .some sp d b =>
    obtain ⟨h1, h2, h3⟩ := hok
    have hT' : Takes s (Cst.spacesText sp ++ (Cst.dashText d ++ (['{'] ++ (b.text ++ ['}'])))) t := by
      simpa [ChildrenC.text] using hT
    obtain ⟨t1, g1, hT'⟩ := takes_append.1 hT'
    obtain ⟨t2, g2, hT'⟩ := takes_append.1 hT'
    have g2b : Takes t2 ('{' :: b.text ++ ['}']) t := by simpa using hT'
    obtain ⟨t3, g3, hT'⟩ := takes_append.1 hT'
    obtain ⟨t4, g4, g5⟩ := takes_append.1 hT'
    have e1 := g1.drop hs
    have e2 := g2.drop e1
    have e3 := g3.drop e2
    have hc4 : chars t4 = '}' :: chars t := by rw [g5.chars]; rfl
    have hc2 : chars t2 = '{' :: (b.text ++ '}' :: chars t) := by rw [g3.chars, g4.chars, hc4]; rfl
    have hc1 : chars t1 = Cst.dashText d ++ '{' :: b.text ++ '}' :: chars t := by
      rw [g2.chars, hc2]; simp
    obtain ⟨x, p2, hx⟩ := ok_dash (eoi := eoi) (d := d) (s := t1) (t := t2)
      (by rw [hc2]; simpa using h2) g2 (by rw [hc2]; exact noSpace_brace)
      (by rintro rfl; rw [hc1]; exact not_prefix_head (c := '/') (d := '{') rfl rfl (by decide))
    obtain ⟨as, p1⟩ := ok_nodeSpaces (eoi := eoi) (l := sp) (s := s) (t := t1)
      (by rw [hc1]; exact h1) g1 (failsC_nodeSpace (by
        rw [hc1]
        cases d with
        | none => exact noSpace_brace
        | some l => exact noSpace_dash)).fails
    have hlen : t3.length + 1 ≤ n := by
      have := g1.length; have := g2.length; have := g3.length
      simp at this
      omega
    obtain ⟨m, rfl⟩ : ∃ m, n = m + 1 := ⟨n - 1, by omega⟩
    have p3 : Ok (nodesRec (m + 1)) eoi t3 (b.value (spf eoi all) _) t4 :=
      nodes_complete b (by omega) e3 (by rw [hc4]; exact h3) g4 (Or.inr (by rw [hc4]; rfl))
    have e0 := g2b.drop e2
    refine ⟨some (x, ⟨spanSince eoi t2 t, b.value (spf eoi all) _⟩), ok_orNot.2 (Or.inl ⟨_, rfl,
      ok_seq.2 ⟨t2, ok_ignoreThen.2 ⟨as, t1, p1, p2⟩, ok_spanned.2 ⟨_, ok_ignoreThen.2 ⟨'{', t3,
        ok_just_takes.2 ⟨g3, rfl⟩, ok_mapErrWithSpan.2 (ok_thenIgnore.2 ⟨t4, '}', p3,
          ok_just_takes.2 ⟨g5, rfl⟩⟩)⟩, rfl⟩⟩⟩), ?_⟩
    cases d with
    | some l =>
      cases x with
      | none => simp at hx
      | some _ => simp [childOf, ChildrenC.value]
    | none =>
      cases x with
      | some _ => simp at hx
      | none =>
        simp only [childOf, ChildrenC.value, Option.some.injEq, spf, Cst.dashText,
          List.length_nil, List.length_singleton, Nat.add_zero] at e2 e0 ⊢
        rw [← e2]
        congr 1
        rw [e0]
        congr 2
        simp; omega
theorem nodes_complete {eoi : Sp O} {all : List (Tok O)} (b : BodyC) {n k : Nat} {s t : List (Tok O)}
    (hn : s.length ≤ n) (hs : s = all.drop k) (hok : b.Ok true (chars t)) (hT : Takes s b.text t)
    (hend : BodyEnd (chars t)) :
    Ok (nodesRec (n + 1)) eoi s (b.value (spf eoi all) k) t := by
  obtain ⟨vs, h1, h2⟩ := body_complete (eoi := eoi) (all := all) b hn hs hok hT hend
  rw [nodesRec]
  refine ok_pmap.2 ⟨vs, ?_, h2⟩
  rw [ok_separatedBy (fun s => lines_total s) (eats_nodeItem (suf_nodesRec n)).consumes]
  exact h1
theorem body_complete {eoi : Sp O} {all : List (Tok O)} (b : BodyC) {n k : Nat} {s t : List (Tok O)}
    (hn : s.length ≤ n) (hs : s = all.drop k) (hok : b.Ok true (chars t)) (hT : Takes s b.text t)
    (hend : BodyEnd (chars t)) :
    ∃ vs, SepReps (nodeItem (nodesRec n)) (repeated lineSpace) eoi s vs t ∧
      keepNodes vs = b.value (spf eoi all) k := by
  match b with
  | .nil lines =>
    obtain ⟨as, h1⟩ := ok_lines (eoi := eoi) hok hT (failsC_lineSpace hend.noLine).fails
    exact ⟨[], .nil h1 (failsC_nodeItem_end hend), rfl⟩
  | .cons lines d c rest =>
    obtain ⟨h1, h2, h3, h4⟩ := hok
    have hT' : Takes s (Cst.linesText lines ++ (Cst.dashText d ++ (c.text ++ rest.text))) t := by
      simpa [BodyC.text] using hT
    obtain ⟨t1, g1, hT'⟩ := takes_append.1 hT'
    obtain ⟨t2, g2, hT'⟩ := takes_append.1 hT'
    obtain ⟨t3, g3, g4⟩ := takes_append.1 hT'
    have e1 := g1.drop hs
    have e2 := g2.drop e1
    have e3 := g3.drop e2
    have hc3 : chars t3 = rest.text ++ chars t := g4.chars
    have hc2 : chars t2 = c.text ++ rest.text ++ chars t := by rw [g3.chars, hc3]; simp
    have hc1 : chars t1 = Cst.dashText d ++ c.text ++ rest.text ++ chars t := by
      rw [g2.chars, hc2]; simp
    have h3' : c.Ok true (chars t3) := by rw [hc3]; exact h3
    obtain ⟨x, w, hx, hsol⟩ := node_solid h3'
    have hc2' : chars t2 = x :: (w ++ rest.text ++ chars t) := by rw [hc2, hx]; simp
    have hdash : d = none → ¬ ['/', '-'] <+: chars t1 := by
      rintro rfl
      have := takes_nil.1 g2; subst this
      rw [hc2']
      exact not_prefix_head (c := '/') rfl rfl (fun h => hsol.2.2.1 h.symm)
    have hnl : NoLine (chars t1) := by
      cases d with
      | none =>
        have := takes_nil.1 g2; subst this
        rw [hc2']
        refine ⟨noWs_lit hsol.1 hsol.2.2.1, ?_, ?_⟩
        · intro c' hc'; simp at hc'; subst hc'; exact hsol.2.1
        · exact not_prefix_head (c := '/') rfl rfl (fun h => hsol.2.2.1 h.symm)
      | some l =>
        rw [hc1]
        refine ⟨noWs_slash (by decide), ?_, ?_⟩
        · intro c' hc'; simp [Cst.dashText] at hc'; subst hc'; decide
        · rintro ⟨y, hy⟩; simp [Cst.dashText] at hy
    obtain ⟨as, p1⟩ := ok_lines (eoi := eoi) (l := lines) (s := s) (t := t1) (by rw [hc1]; exact h1) g1
      (failsC_lineSpace hnl).fails
    obtain ⟨y, p2, hy⟩ := ok_dash (eoi := eoi) (d := d) (s := t1) (t := t2)
      (by rw [hc2]; exact h2) g2 (by rw [hc2']; exact hsol.noSpace) hdash
    have hlen2 : t2.length ≤ n := by
      have := g1.length; have := g2.length
      omega
    have p3 := node_complete (eoi := eoi) (all := all) c hlen2 e2 h3' g3
    have hlen3 : t3.length < s.length := by
      have := g1.length; have := g2.length; have := g3.length
      rw [hx] at this
      simp at this
      omega
    obtain ⟨vs, p4, hvs⟩ := body_complete (eoi := eoi) (all := all) rest (n := n) (by omega) e3 h4 g4 hend
    refine ⟨(y, _) :: vs, .cons p1 (ok_seq.2 ⟨t2, p2, p3⟩) hlen3 p4, ?_⟩
    have e : k + (Cst.linesText lines).length + (Cst.dashText d).length =
        k + (Cst.linesText lines ++ Cst.dashText d).length := by simp; omega
    rw [e] at hvs ⊢
    cases d with
    | none =>
      cases y with
      | some _ => simp at hy
      | none =>
        simp only [BodyC.value]
        rw [← hvs]
        simp [keepNodes]
    | some d =>
      cases y with
      | none => simp at hy
      | some _ =>
        simp only [BodyC.value]
        rw [← hvs]
        simp [keepNodes]
end

/-- **Completeness.**  The text of every legal concrete syntax tree (strict block
comments) is accepted without errors, with the meaning of the tree as result. -/
theorem document_complete {eoi : Sp O} {all} (b : BodyC) (hok : b.Ok true []) (ht : b.text = chars all) :
    Ok document eoi all ⟨b.value (spf eoi all) 0⟩ [] := by
  have hT : Takes all b.text [] := ⟨all, by simp, ht.symm⟩
  have h : Ok (nodesRec (all.length + 1)) eoi all (b.value (spf eoi all) 0) [] :=
    nodes_complete b (Nat.le_refl _) (by simp) hok hT (Or.inl rfl)
  unfold document
  exact ok_pmap.2 ⟨_, ok_thenIgnore.2 ⟨[], (), ok_nodes.2 h, ok_endP.2 ⟨rfl, rfl⟩⟩, rfl⟩

end

end Knuffel
