import Verif.Theory.FaultLex
/-!
# Values, properties, arguments and words where arguments should stand
-/

set_option linter.unusedSimpArgs false
set_option linter.unusedSectionVars false

namespace Knuffel

open Cst (Matching Fault Piece NameF LitF ValF PropNameF EntryF ItemF StrLit Lit Name PropName)

variable {O α β γ : Type}

section
variable [Offset O]
variable {eoi : Sp O} {all s t : List (Tok O)} {pos : Nat}

theorem em_ident {n : NameF} (hs : s = all.drop pos) (hn : n.Ok) (hT : Takes s n.text t)
    (he : IdentEnd (chars t) ∨ ∃ l, n = .quoted l) :
    ∃ v, Em (Due eoi all) ident eoi s v t (n.faults pos) := by
  cases n with
  | bare v =>
    have he : IdentEnd (chars t) := by
      rcases he with he | ⟨l, hl⟩
      · exact he
      · cases hl
    exact ⟨v, em_of_ok (ident_complete (n := .bare v) hn hT (Or.inl he))⟩
  | quoted l =>
    have hc := hT.chars
    simp only [NameF.text, Cst.quotedTextF, List.cons_append] at hc
    obtain ⟨v, h⟩ := em_quoted (eoi := eoi) hs hn hT
    refine ⟨v, ?_⟩
    unfold ident
    refine em_tryMap (a := some v) (em_choice3 ?_ ?_ (em_pmap h)) rfl
    · rw [fails_pmap]
      refine (failsC_number ?_).fails
      rw [hc]
      rintro c rest heq
      injection heq with h1 h2
      subst h1
      exact ⟨by decide, by simp⟩
    · rw [fails_pmap]
      refine (failsC_bareIdent ?_).fails
      rw [hc]
      rintro c heq
      simp at heq
      subst heq
      rw [← isIdSansDig_iff]; decide

theorem em_typeName {n : NameF} (hs : s = all.drop pos) (hn : n.Ok)
    (hT : Takes s (Cst.tyTextF (some n)) t) :
    ∃ v, Em (Due eoi all) typeName eoi s v t (Cst.tyFaults pos (some n)) := by
  obtain ⟨sp, s1, rfl, h1⟩ := takes_cons.1 hT
  obtain ⟨s2, h2, h3⟩ := takes_append.1 h1
  obtain ⟨v, h⟩ := em_ident (eoi := eoi) ((Takes.single (sp := sp)).drop hs) hn h2 (Or.inl (by
    intro c hc
    rw [h3.chars] at hc
    simp at hc
    subst hc
    rw [← isIdChar_iff]; decide))
  refine ⟨TypeName.fromString v, ?_⟩
  unfold typeName delimitedBy
  have := em_pmap (f := TypeName.fromString) (em_thenIgnore (gs := []) (em_ignoreThen (R := Due eoi all) (fs := [])
    (em_of_ok (ok_just.2 ⟨sp, rfl, rfl⟩ : Ok (just '(') eoi _ _ s1)) h)
    (em_of_ok (ok_just_takes.2 ⟨h3, rfl⟩ : Ok (just ')') eoi s2 ')' t)))
  simpa [Cst.tyFaults] using this

theorem em_literal_quoted {l : List Piece} (hs : s = all.drop pos) (hl : Cst.QuotedOk l)
    (hT : Takes s (Cst.quotedTextF l) t) :
    ∃ v, Em (Due eoi all) literal eoi s (.string v) t (Cst.quotedFaults pos l) := by
  obtain ⟨v, h⟩ := em_quoted (eoi := eoi) hs hl hT
  exact ⟨v, em_choice1 (em_pmap h)⟩

theorem em_literal {l : LitF} (hs : s = all.drop pos) (hl : l.Ok) (hT : Takes s l.text t)
    (he : EndTok (chars t)) : ∃ v, Em (Due eoi all) literal eoi s v t (l.faults pos) := by
  cases l with
  | quoted l => obtain ⟨v, h⟩ := em_literal_quoted (eoi := eoi) hs hl hT; exact ⟨_, h⟩
  | good l => exact ⟨_, em_of_ok (literal_complete hl hT (Or.inl he.numEnd'))⟩

theorem em_typeNameValue {w : ValF} (hs : s = all.drop pos) (hw : w.Ok) (hty : w.ty.isSome)
    (hT : Takes s w.text t) (he : EndTok (chars t)) :
    ∃ v, Em (Due eoi all) typeNameValue eoi s v t (w.faults pos) := by
  obtain ⟨ty, l⟩ := w
  cases ty with
  | none => simp at hty
  | some nm =>
    obtain ⟨t1, h1, h2⟩ := takes_append.1 hT
    have e1 := h1.drop hs
    obtain ⟨v, g1⟩ := em_typeName (eoi := eoi) hs hw.1 h1
    obtain ⟨x, g2⟩ := em_literal (eoi := eoi) e1 hw.2 h2 he
    exact ⟨_, em_pmap (em_seq (em_spanned g1) (em_spanned g2))⟩

theorem litF_head {l : LitF} (hl : l.Ok) : ∃ c rest, l.text = c :: rest ∧
    (c = '"' ∨ c = 'r' ∨ c = 'n' ∨ c = 't' ∨ c = 'f' ∨ c = '+' ∨ c = '-' ∨ c ∈ Cst.decDigits) := by
  cases l with
  | quoted l => exact ⟨'"', _, rfl, by simp⟩
  | good l => exact lit_head hl

theorem failsC_literal_paren (hh : (chars s).head? = some '(') : FailsC literal eoi s := by
  refine failsC_literal ?_ ?_ ?_ ?_
  · rw [hh]; decide
  · intro h; rw [rawStart_head h] at hh; revert hh; decide
  · intro k hk
    simp only [Cst.keywords, List.mem_cons, List.not_mem_nil, or_false] at hk
    rcases hk with rfl | rfl | rfl
    · exact not_prefix_head (c := 't') rfl hh (by decide)
    · exact not_prefix_head (c := 'f') rfl hh (by decide)
    · exact not_prefix_head (c := 'n') rfl hh (by decide)
  · intro c rest hc
    rw [hc] at hh
    injection hh with hh; subst hh
    exact ⟨by decide, by simp⟩

theorem em_value {w : ValF} (hs : s = all.drop pos) (hw : w.Ok) (hT : Takes s w.text t)
    (he : EndTok (chars t)) : ∃ v, Em (Due eoi all) value eoi s v t (w.faults pos) := by
  unfold value
  by_cases hty : w.ty.isSome
  · obtain ⟨v, h⟩ := em_typeNameValue (eoi := eoi) hs hw hty hT he
    refine ⟨v, em_orP_left h ?_⟩
    rw [fails_pmap, fails_spanned]
    refine (failsC_literal_paren ?_).fails
    rw [hT.chars]
    obtain ⟨ty, l⟩ := w
    cases ty with
    | none => simp at hty
    | some nm => simp [ValF.text, Cst.tyTextF]
  · obtain ⟨ty, l⟩ := w
    cases ty with
    | some nm => simp at hty
    | none =>
      have hT' : Takes s l.text t := hT
      obtain ⟨c, rest, hc, hc'⟩ := litF_head hw.2
      obtain ⟨v, h⟩ := em_literal (eoi := eoi) hs hw.2 hT' he
      refine ⟨_, em_orP_right ?_ (em_pmap (em_spanned (by simpa [ValF.faults, Cst.tyFaults, Cst.tyTextF] using h)))⟩
      unfold typeNameValue
      rw [fails_pmap]
      refine fails_seq_left (fails_spanned.2 (failsC_typeName ?_).fails)
      rw [hT'.chars, hc]
      simp only [List.cons_append, List.head?_cons, ne_eq, Option.some.injEq]
      rintro rfl
      revert hc'; decide

theorem em_optValue {w : ValF} (hs : s = all.drop pos) (hw : w.Ok) (hT : Takes s ('=' :: w.text) t)
    (he : EndTok (chars t)) :
    ∃ v, Em (Due eoi all) optValue eoi s (some v) t (w.faults (pos + 1)) := by
  obtain ⟨sp, s1, rfl, h1⟩ := takes_cons.1 hT
  obtain ⟨v, h⟩ := em_value (eoi := eoi) ((Takes.single (sp := sp)).drop hs) hw h1 he
  refine ⟨v, ?_⟩
  unfold optValue
  have := em_orNot (em_ignoreThen (R := Due eoi all) (fs := [])
    (em_of_ok (ok_just.2 ⟨sp, rfl, rfl⟩ : Ok (just '=') eoi _ _ s1)) h)
  simpa using this

/-- A word does not begin a literal. -/
theorem failsC_literal_word {v f : Str} (hv : Cst.BareIdent v) (hk : ∀ k ∈ Cst.keywords, ¬ k <+: v)
    (hf : EndTok f) (hi : IdentEnd f) (hs : chars s = v ++ f) : FailsC literal eoi s := by
  refine failsC_literal ?_ ?_ ?_ ?_
  · intro h
    rw [hs] at h
    rcases head_append h with h | ⟨h, _⟩
    · obtain ⟨w, rfl⟩ := head_eq_some.1 h
      exact identShape_not_mem hv.1 (c := '"') (by decide) (by simp)
    · exact identShape_ne_nil hv.1 h
  · rintro ⟨n, w, hw⟩
    rw [hs] at hw
    have hw' : v ++ f = ('r' :: List.replicate n '#') ++ '"' :: w := by rw [← hw]; simp
    rcases List.append_eq_append_iff.1 hw' with ⟨a, h1, h2⟩ | ⟨a, h1, h2⟩
    · cases a with
      | nil => have := hf '"' (by rw [h2]; rfl); revert this; decide
      | cons x a =>
        have hx : x ∈ 'r' :: List.replicate n '#' := by rw [h1]; simp
        have hx' := hf x (by rw [h2]; rfl)
        rcases List.mem_cons.1 hx with rfl | hx
        · revert hx'; decide
        · have := List.eq_of_mem_replicate hx
          subst this
          revert hx'; decide
    · cases a with
      | nil =>
        simp only [List.nil_append] at h2
        have := hf '"' (by rw [← h2]; rfl)
        revert this; decide
      | cons x a =>
        have : x = '"' := by simpa using (List.cons.inj h2).1.symm
        subst this
        exact identShape_not_mem hv.1 (c := '"') (by decide) (by rw [h1]; simp)
  · rintro k hkm ⟨w, hw⟩
    rw [hs] at hw
    rcases List.append_eq_append_iff.1 hw with ⟨a, h1, h2⟩ | ⟨a, h1, h2⟩
    · exact hk k hkm ⟨a, h1.symm⟩
    · cases a with
      | nil => exact hk k hkm ⟨[], by rw [h1]; simp⟩
      | cons c a =>
        have h3 := hf c (by rw [h2]; rfl)
        have h4 : c ∈ k := by rw [h1]; simp
        have : ∀ k ∈ Cst.keywords, ∀ c ∈ k, c ∉ endChars := by decide
        exact this k hkm c h4 h3
  · rw [hs]
    exact noNum_ident hv.1 hi

theorem em_propOrArgInner {e : EntryF} (hs : s = all.drop pos) (he : e.Ok (chars t))
    (hT : Takes s e.text t) (hend : EndTok (chars t)) :
    ∃ v, Em (Due eoi all) propOrArgInner eoi s v t (e.faults pos) := by
  unfold propOrArgInner
  cases e with
  | arg v =>
    by_cases hty : v.ty.isSome
    · obtain ⟨x, h⟩ := em_typeNameValue (eoi := eoi) hs he hty hT hend
      have hh : (chars s).head? = some '(' := by
        rw [hT.chars]
        obtain ⟨ty, l⟩ := v
        cases ty with
        | none => simp at hty
        | some nm => simp [EntryF.text, ValF.text, Cst.tyTextF]
      refine ⟨_, em_choice3 ?_ ?_ (em_pmap h)⟩
      · exact (failsC_tryMap_of (failsC_seq_left (failsC_spanned.2 (failsC_literal_paren hh)))).fails
      · rw [fails_pmap, fails_validate]
        refine fails_seq_left (fails_spanned.2 (failsC_bareIdent ?_).fails)
        intro c hc
        rw [hc] at hh
        injection hh with hh; subst hh
        rw [← isIdSansDig_iff]; decide
    · obtain ⟨ty, l⟩ := v
      cases ty with
      | some nm => simp at hty
      | none =>
        have hT' : Takes s l.text t := hT
        obtain ⟨x, h⟩ := em_literal (eoi := eoi) hs he.2 hT' hend
        have h2 := em_seq (gs := []) (em_spanned h) (em_of_ok (R := Due eoi all)
          (fails_value_not (eoi := eoi) hend.not_eq))
        refine ⟨.arg ⟨none, ⟨spanSince eoi s t, x⟩⟩, em_choice1 (em_tryMap (a := (⟨spanSince eoi s t, x⟩, none))
          ?_ ?_)⟩
        · simpa [EntryF.faults, ValF.faults, Cst.tyFaults, Cst.tyTextF] using h2
        · cases x <;> rfl
  | prop nm v =>
    obtain ⟨hnm, hv⟩ := he
    obtain ⟨t1, h1, h2⟩ := takes_append.1 hT
    have e1 := h1.drop hs
    obtain ⟨x, h3⟩ := em_optValue (eoi := eoi) e1 hv h2 hend
    cases nm with
    | quoted l =>
      obtain ⟨y, h4⟩ := em_literal_quoted (eoi := eoi) hs hnm h1
      exact ⟨_, em_choice1 (em_tryMap (em_seq (em_spanned h4) h3) rfl)⟩
    | good nm =>
      cases nm with
      | bare nm =>
        refine ⟨_, em_choice2 ?_ (em_pmap (a := (⟨spanSince eoi s t1, nm⟩, some x)) ?_)⟩
        · refine (failsC_tryMap_of (failsC_seq_left (failsC_spanned.2
            (failsC_literal_prop hnm.1 hnm.2.1 (f := v.text ++ chars t) ?_)))).fails
          rw [h1.chars, h2.chars]; simp [PropName.text, PropNameF.text]
        · have h4 : Ok bareIdent eoi s nm t1 := bareIdent_complete hnm.1 h1 (by rw [h2.chars]; exact identEnd_eq)
          have := em_validate (f := identEntryErrs) (gs := []) (em_seq (R := Due eoi all) (em_spanned (em_of_ok h4)) h3) .nil
          simpa [EntryF.faults, PropNameF.faults] using this
      | str sl =>
        have h4 := literal_complete (eoi := eoi) (l := .str sl) hnm h1 (Or.inr ⟨sl, rfl⟩)
        have := em_tryMap (f := literalEntry) (em_seq (R := Due eoi all) (em_spanned (em_of_ok h4)) h3) rfl
        exact ⟨_, em_choice1 (by simpa [EntryF.faults, PropNameF.faults] using this)⟩
  | word w =>
    obtain ⟨⟨hw, hk, _⟩, hb⟩ := he
    have hi := identEnd_of_endTok hend hb
    have hT' : Takes s w t := hT
    have h1 : Ok bareIdent eoi s w t := bareIdent_complete hw hT' hi
    have h2 := em_seq (gs := []) (em_spanned (em_of_ok (R := Due eoi all) h1)) (em_of_ok (R := Due eoi all)
          (fails_value_not (eoi := eoi) hend.not_eq))
    have h3 := em_validate (f := identEntryErrs) (gs := [.word pos (pos + w.length)]) h2 (.cons (by
      refine ⟨?_, ?_⟩
      · have h4 := hT'.length
        have h5 : s.length = all.length - pos := by rw [hs]; simp
        have h6 : 0 < w.length := by
          cases w with
          | nil => exact absurd hw.1 id
          | cons => simp
        exact ⟨by omega, by omega⟩
      · show _ = _
        rw [spf, ← hs, ← hT'.drop hs]) .nil)
    refine ⟨_, em_choice2 ?_ (em_pmap (by simpa [EntryF.faults] using h3))⟩
    exact (failsC_tryMap_of (failsC_seq_left (failsC_spanned.2
      (failsC_literal_word hw hk hend hi hT'.chars)))).fails

theorem entryF_solid {e : EntryF} {f : Str} (he : e.Ok f) : ∃ c rest, e.text = c :: rest ∧ Solid c := by
  have hlit : ∀ l : LitF, l.Ok → ∃ c rest, l.text = c :: rest ∧ Solid c := by
    intro l hl
    cases l with
    | quoted l => exact ⟨'"', _, rfl, by unfold Solid; decide⟩
    | good l => exact entry_solid (e := .arg ⟨none, l⟩) ⟨trivial, hl⟩
  cases e with
  | arg v =>
    obtain ⟨ty, l⟩ := v
    cases ty with
    | none => exact hlit l he.2
    | some nm => exact ⟨'(', _, rfl, by unfold Solid; decide⟩
  | prop nm v =>
    cases nm with
    | quoted l => exact ⟨'"', _, rfl, by unfold Solid; decide⟩
    | good nm =>
      obtain ⟨c, rest, h1, h2⟩ := entry_solid (e := .prop nm ⟨none, .null⟩) ⟨he.1, trivial, trivial⟩
      cases hx : nm.text with
      | nil =>
        rw [Cst.Entry.text, hx] at h1
        have : c = '=' := by simpa using (List.cons.inj h1).1.symm
        subst this
        exact absurd rfl h2.2.2.2.2.2.2.2
      | cons d r =>
        rw [Cst.Entry.text, hx] at h1
        have : d = c := by simpa using (List.cons.inj h1).1
        subst this
        exact ⟨d, r ++ '=' :: v.text, by simp [EntryF.text, PropNameF.text, hx], h2⟩
  | word w =>
    obtain ⟨c, rest, h1, h2⟩ := entry_solid (e := .prop (.bare w) ⟨none, .null⟩) ⟨he.1, trivial, trivial⟩
    cases w with
    | nil => exact absurd he.1.1.1 id
    | cons d r =>
      have : d = c := by simpa using (List.cons.inj h1).1
      subst this
      exact ⟨d, r, rfl, h2⟩

theorem em_item {i : ItemF} (hs : s = all.drop pos) (hi : i.Ok (chars t)) (hT : Takes s i.text t)
    (hend : EndTok (chars t)) : ∃ v, Em (Due eoi all) spaceEntry eoi s v t (i.faults pos) := by
  obtain ⟨l, d, e⟩ := i
  obtain ⟨h1, h2, h3, h4⟩ := hi
  simp only at h1 h2 h3 h4
  obtain ⟨c, rest, hc, hsol⟩ := entryF_solid h4
  unfold spaceEntry propOrArg
  cases d with
  | none =>
    have hT' : Takes s (Cst.spacesText l ++ e.text) t := by simpa [ItemF.text, Cst.dashText] using hT
    obtain ⟨t1, h5, h6⟩ := takes_append.1 hT'
    have hct : chars t1 = c :: (rest ++ chars t) := by rw [h6.chars, hc]; rfl
    have e1 := h5.drop hs
    obtain ⟨as, h7⟩ := ok_nodeSpaces1 (eoi := eoi) (l := l) (s := s) (t := t1)
      (by rw [h6.chars]; simpa [Cst.dashText] using h2) h1 h5
      (failsC_nodeSpace (by rw [hct]; exact hsol.noSpace)).fails
    obtain ⟨v, h8⟩ := em_propOrArgInner (eoi := eoi) e1 h4 h6 hend
    refine ⟨v, ?_⟩
    have := em_ignoreThen (fs := []) (em_of_ok h7) (em_orP_right (p := pmap (fun _ => .ignore)
      (ignoreThen (ignoreThen (beginComment '-') (repeated nodeSpace)) propOrArgInner)) ?_ h8)
    · simpa [ItemF.faults, Cst.dashText] using this
    · rw [fails_pmap]
      refine fails_ignoreThen_left (fails_ignoreThen_left (failsC_beginComment ?_).fails)
      rw [hct]
      exact not_prefix_head (c := '/') rfl rfl (fun h => hsol.2.2.1 h.symm)
  | some l' =>
    have hT' : Takes s (Cst.spacesText l ++ (['/', '-'] ++ (Cst.spacesText l' ++ e.text))) t := by
      simpa [ItemF.text, Cst.dashText] using hT
    obtain ⟨t1, h5, hT'⟩ := takes_append.1 hT'
    obtain ⟨t2, h6, hT'⟩ := takes_append.1 hT'
    obtain ⟨t3, h7, h8⟩ := takes_append.1 hT'
    have hct : chars t3 = c :: (rest ++ chars t) := by rw [h8.chars, hc]; rfl
    have e3 := h7.drop (h6.drop (h5.drop hs))
    have hct1 : chars t1 = '/' :: '-' :: chars t2 := by rw [h6.chars]; rfl
    obtain ⟨as, h9⟩ := ok_nodeSpaces1 (eoi := eoi) (l := l) (s := s) (t := t1)
      (by rw [hct1, h7.chars, h8.chars]; simpa [Cst.dashText] using h2) h1 h5
      (failsC_nodeSpace (by rw [hct1]; exact ⟨noWs_slash (by decide), by simp⟩)).fails
    obtain ⟨as', h10⟩ := ok_nodeSpaces (eoi := eoi) (l := l') (s := t2) (t := t3)
      (by rw [h8.chars]; exact h3) h7
      (failsC_nodeSpace (by rw [hct]; exact hsol.noSpace)).fails
    obtain ⟨v, h11⟩ := em_propOrArgInner (eoi := eoi) e3 h4 h8 hend
    have h12 := em_ignoreThen (fs := []) (em_of_ok (ok_ignoreThen.2 ⟨(), t2, ok_beginComment.2 h6, h10⟩)) h11
    have hfail : Fails propOrArgInner eoi t1 := by
      refine (fails_propOrArgInner ?_).fails
      intro c' hc'
      rw [hct1] at hc'
      simp at hc'
      subst hc'
      exact ⟨not_identStart_of (by decide), by decide, by decide, by decide⟩
    have := em_ignoreThen (fs := []) (em_of_ok h9) (em_orP_left (em_pmap (f := fun _ => PropOrArg.ignore) h12) hfail)
    refine ⟨.ignore, ?_⟩
    have hd : (Cst.dashText (some l')).length = 2 + (Cst.spacesText l').length := by
      simp [Cst.dashText]; omega
    simpa [ItemF.faults, hd, Nat.add_assoc] using this

theorem endTok_itemsF {l : List ItemF} {f : Str} (h : Cst.ItemsOkF f l) (hf : EndTok f) :
    EndTok (Cst.itemsTextF l ++ f) := by
  cases l with
  | nil => exact hf
  | cons x l =>
    obtain ⟨⟨h1, h2, _⟩, _⟩ := h
    obtain ⟨sp, d, e⟩ := x
    cases sp with
    | nil => exact absurd rfl h1
    | cons y ys =>
      obtain ⟨c, rest, h3, h4⟩ := space_head h2.1
      intro c' hc'
      simp only [Cst.itemsTextF, List.flatMap_cons, ItemF.text, Cst.spacesText, h3] at hc'
      simp at hc'
      subst hc'
      exact h4

theorem ereps_items {l : List ItemF} (hs : s = all.drop pos) (hl : Cst.ItemsOkF (chars t) l)
    (hT : Takes s (Cst.itemsTextF l) t) (hend : EndTok (chars t)) :
    EReps (Due eoi all) spaceEntry eoi s t (Cst.itemsFaults pos l) := by
  induction l generalizing s pos with
  | nil => have := takes_nil.1 hT; subst this; exact .nil _
  | cons i l ih =>
    obtain ⟨s1, h1, h2⟩ := (takes_append (a := i.text) (b := Cst.itemsTextF l)).1 hT
    obtain ⟨hi, hl⟩ := hl
    obtain ⟨v, h⟩ := em_item (eoi := eoi) hs (by rw [h2.chars]; exact hi) h1
      (by rw [h2.chars]; exact endTok_itemsF hl hend)
    obtain ⟨h3, ⟨alt, h4⟩, h5⟩ := h
    refine .cons ⟨h3, ⟨alt, h4⟩, h5⟩ ?_ (ih (h1.drop hs) hl h2)
    have := eats_spaceEntry.consumes _ _ _ h4
    rw [h5] at this; exact this

end

end Knuffel
