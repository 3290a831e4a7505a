import Verif.Theory.BlameDoc
import Verif.Theory.TruthDoc
/-!
# Where the errors are

Every error that complains about a character has the position of that character; and
when all `\u` in the text begin legal escapes, all of them are fatal ones.
-/

set_option linter.unusedSimpArgs false
set_option linter.unusedSectionVars false

namespace Knuffel
open Cst

variable {O α β γ : Type} [Offset O]

/-- The error complains about a character. -/
def Accuses (e : PErr O) : Prop := ∃ lb sp c ex, e = .unexpected lb sp (.char c) ex

/-- The world of errors that are where the character is that they complain about. -/
def placeWorld (all : List (Tok O)) (eoi : Sp O) : World O where
  eoi := eoi
  I s := s <:+ all
  Q l := ∀ lb sp c ex, l.err = .unexpected lb sp (.char c) ex → ∃ t, (c, sp) :: t <:+ all ∧ l.rem = t.length + 1
  E l := ¬ Accuses l.err
  suf h1 h2 := h2.trans h1
  eoiQ _ := by rintro lb sp c ex h; simp at h
  chQ h := by
    intro lb sp c ex he
    simp only [PErr.unexpected.injEq, TokenFormat.char.injEq] at he
    obtain ⟨-, rfl, rfl, -⟩ := he
    exact ⟨_, h, rfl⟩
  exQ h := by
    intro lb sp c ex he
    simp only [PErr.unexpected.injEq] at he
    obtain ⟨rfl, rfl, rfl, -⟩ := he
    exact h _ _ _ _ rfl
  EQ h := fun lb sp c ex he => absurd ⟨lb, sp, c, ex, he⟩ h

variable {all : List (Tok O)} {eoi : Sp O}

theorem place_vacuous {l : Loc O} (h : ¬ Accuses l.err) : (placeWorld all eoi).Q l :=
  (placeWorld all eoi).EQ h

theorem place_merge_unclosed {n} {e : PErr O} {lb a b c d f} (h : (placeWorld all eoi).Q ⟨n, e⟩) :
    (placeWorld all eoi).Q ⟨n, (e.merge (.unclosed lb a b c d f)).getD e⟩ := by
  cases e <;> first
    | exact h
    | (refine place_vacuous ?_; rintro ⟨_, _, _, _, h⟩; simp [PErr.merge] at h)

theorem pl_mlComment : Tr (placeWorld all eoi) mlComment := by
  intro s hs
  unfold mlComment
  refine trR_mapErrWithSpan (tr_mlCommentRec _ s hs) ?_
  intro e he hq
  unfold mlCommentErr
  split
  · exact place_merge_unclosed hq
  · exact hq

theorem pl_ws : Tr (placeWorld all eoi) ws :=
  tr_mapErr (tr_orP (tr_ignored (tr_repeatedB (tr_ignored (tr_filter _)))) pl_mlComment) (fun _ _ => q_withExpectedKind)

theorem pl_escLine : Tr (placeWorld all eoi) escLine :=
  tr_ignoreThen (tr_ignoreThen (tr_just _) (tr_repeated pl_ws)) (tr_orP tr_comment tr_newline)

theorem pl_nodeSpace : Tr (placeWorld all eoi) nodeSpace := tr_orP pl_ws pl_escLine
theorem pl_lineSpace : Tr (placeWorld all eoi) lineSpace := tr_orP (tr_orP tr_newline pl_ws) tr_comment

theorem pl_nodeTerminator : Tr (placeWorld all eoi) nodeTerminator := by
  refine tr_choice ?_
  intro p hp
  simp only [List.mem_cons, List.not_mem_nil, or_false] at hp
  rcases hp with rfl | rfl | rfl | rfl
  · exact tr_newline
  · exact tr_comment
  · exact tr_ignored (tr_just _)
  · exact tr_endP

theorem pl_rawString : Tr (placeWorld all eoi) rawString := by
  refine tr_pmap ?_
  refine tr_bind (tr_thenIgnore (tr_ignoreThen (tr_just _) (tr_pmap (tr_repeated (tr_just _)))) (tr_just _)) ?_
  intro n s hs
  refine trR_mapErrWithSpan (tr_takeUntil (tr_ignoreThen (tr_just _) (tr_ignored (tr_repeatedB (tr_just _)))) _ hs) ?_
  intro e he hq
  unfold rawStringErr
  split
  · exact place_merge_unclosed hq
  · exact hq

theorem trR_recover_ok {W : World O} {u : List Char} {fb : α} {p : P O α} {s : List (Tok O)} {x}
    (h : TrR W s (p W.eoi s)) (ho : (p W.eoi s).out = .ok x) : TrR W s (recoverSkipUntil u fb p W.eoi s) := by
  unfold recoverSkipUntil
  simpa [ho] using trR_mk_ok h.suf h.errs (trR_ok h ho)

theorem pl_hexBraces : Tr (placeWorld all eoi) (tryMap hexToChar
    (delimitedBy (repeatedB 1 (some 6) (filterMap hexDigit)) (just '{') (just '}'))) := by
  intro s hs
  refine trR_tryMap (tr_delimitedBy (tr_repeatedB (tr_filterMap ?_)) (tr_just _) (tr_just _) s hs) ?_
  · intro sp c t e hI h
    unfold hexDigit at h
    split at h
    · simp at h
    · injection h with h; subst h; exact (placeWorld all eoi).chQ hI
  · intro a alt e ho h
    unfold hexToChar at h
    split at h
    · simp at h
    · injection h with h; subst h
      exact place_vacuous (by rintro ⟨_, _, _, _, h⟩; simp at h)

theorem pl_escChar {s : List (Tok O)} (hs : s <:+ all)
    (hu : ∀ y w, s = y :: w → y.1 = 'u' → ∃ hex t, (StrChar.unicode hex).Ok ∧ Takes w ('{' :: hex ++ ['}']) t) :
    TrR (placeWorld all eoi) s (escChar eoi s) := by
  refine trR_orP (tr_filterMap ?_ s hs) ?_
  · intro sp c t e hI h
    unfold escSimple at h
    repeat' split at h
    all_goals first | (simp at h; done) | (injection h with h; subst h; exact (placeWorld all eoi).chQ hI)
  · refine trR_bind (tr_just _ s hs) ?_
    intro a alt ho
    obtain ⟨sp, h8, -⟩ := ok_just.1 (Quiet.ok (quiet_just _) ho)
    obtain ⟨hex, t, h1, h2⟩ := hu _ _ h8 rfl
    have h3 := ok_code (eoi := eoi) (y := ('u', sp)) rfl h1 h2
    unfold escChar at h3
    rcases ok_orP.1 h3 with h4 | ⟨-, h4⟩
    · obtain ⟨c, sp', h5, h6⟩ := ok_filterMap.1 h4
      simp only [List.cons.injEq, Prod.mk.injEq] at h5
      rw [← h5.1.1] at h6
      simp [escSimple] at h6
    · obtain ⟨_, t1, h5, h6⟩ := ok_ignoreThen.1 h4
      rw [ok_just] at h5
      obtain ⟨sp', h5, -⟩ := h5
      simp only [List.cons.injEq] at h5
      rw [ok_recoverSkipUntil, ← h5.2] at h6
      obtain ⟨-, ⟨alt', h7⟩, -⟩ := h6
      have hI : (just 'u' eoi s).rest <:+ all := (tr_just (W := placeWorld all eoi) 'u' s hs).suf.trans hs
      have h9 := pl_hexBraces (eoi := eoi) _ hI
      exact trR_recover_ok h9 h7

theorem pl_strChar (hc : CodesOk all) : Tr (placeWorld all eoi) strChar := by
  refine tr_orP (tr_filter _) ?_
  intro s hs
  refine trR_bind (tr_just _ s hs) ?_
  intro a alt ho
  obtain ⟨sp, h8, -⟩ := ok_just.1 (Quiet.ok (quiet_just _) ho)
  refine pl_escChar ((placeWorld all eoi).suf hs (tr_just '\\' s hs).suf) ?_
  intro y w hy
  refine hc ('\\', sp) y w ?_ rfl
  rw [h8, hy] at hs
  exact hs

theorem pl_escapedString (hc : CodesOk all) : Tr (placeWorld all eoi) escapedString := by
  refine tr_ignoreThen (tr_just _) ?_
  intro s hs
  refine trR_mapErrWithSpan (tr_thenIgnore (tr_repeated (pl_strChar hc)) (tr_just '"') _ hs) ?_
  intro e he hq
  unfold stringErr
  split
  · exact place_merge_unclosed hq
  · exact hq

theorem pl_string (hc : CodesOk all) : Tr (placeWorld all eoi) string := tr_orP pl_rawString (pl_escapedString hc)

theorem pl_bareIdent : Tr (placeWorld all eoi) bareIdent := by
  intro s hs
  refine trR_tryMap (tr_choice3 (tr_pmap (tr_seq tr_sign (tr_seq tr_idSansDig (tr_repeated tr_idChar))))
    (tr_repeatedB tr_sign) (tr_pmap (tr_seq tr_idSansSignDig (tr_repeated tr_idChar))) s hs) ?_
  intro a alt e ho h
  unfold checkKeyword at h
  split at h
  · injection h with h; subst h
    exact place_vacuous (by rintro ⟨_, _, _, _, h⟩; simp at h)
  · simp at h

theorem pl_ident (hc : CodesOk all) : Tr (placeWorld all eoi) ident := by
  intro s hs
  refine trR_tryMap (tr_choice3 (tr_pmap tr_number) (tr_pmap pl_bareIdent) (tr_pmap (pl_string hc)) s hs) ?_
  intro a alt e ho h
  cases a with
  | some v => simp [checkNumber] at h
  | none =>
    simp only [checkNumber] at h
    injection h with h; subst h
    exact place_vacuous (by rintro ⟨_, _, _, _, h⟩; simp at h)

theorem pl_literal (hc : CodesOk all) : Tr (placeWorld all eoi) literal :=
  tr_choice3 (tr_pmap (pl_string hc)) tr_keyword tr_number

theorem pl_typeName (hc : CodesOk all) : Tr (placeWorld all eoi) typeName :=
  tr_pmap (tr_delimitedBy (pl_ident hc) (tr_just _) (tr_just _))

theorem pl_typeNameValue (hc : CodesOk all) : Tr (placeWorld all eoi) typeNameValue :=
  tr_pmap (tr_seq (tr_spanned (pl_typeName hc)) (tr_spanned (pl_literal hc)))

theorem pl_value (hc : CodesOk all) : Tr (placeWorld all eoi) value :=
  tr_orP (pl_typeNameValue hc) (tr_pmap (tr_spanned (pl_literal hc)))

theorem pl_optValue (hc : CodesOk all) : Tr (placeWorld all eoi) optValue :=
  tr_orNot (tr_ignoreThen (tr_just _) (pl_value hc))

theorem pl_literalEntry (hc : CodesOk all) :
    Tr (placeWorld all eoi) (tryMap literalEntry (seq (spanned literal) optValue)) := by
  intro s hs
  refine trR_tryMap (tr_seq (tr_spanned (pl_literal hc)) (pl_optValue hc) s hs) ?_
  rintro ⟨⟨nameSpan, l⟩, o⟩ alt e ho h
  refine place_vacuous ?_
  rintro ⟨_, _, _, _, h'⟩
  simp only at h'
  subst h'
  cases o with
  | none => cases l <;> simp [literalEntry] at h
  | some v => cases l <;> simp [literalEntry] at h

theorem pl_identEntry (hc : CodesOk all) :
    Tr (placeWorld all eoi) (validate identEntryErrs (seq (spanned bareIdent) optValue)) := by
  intro s hs
  refine trR_validate (tr_seq (tr_spanned pl_bareIdent) (pl_optValue hc) s hs) ?_
  rintro ⟨⟨nameSpan, v⟩, o⟩ alt ho e he
  cases o with
  | some v => simp [identEntryErrs] at he
  | none =>
    simp only [identEntryErrs, List.mem_singleton] at he
    subst he
    rintro ⟨_, _, _, _, h⟩
    simp at h

theorem pl_propOrArgInner (hc : CodesOk all) : Tr (placeWorld all eoi) propOrArgInner :=
  tr_choice3 (pl_literalEntry hc) (tr_pmap (pl_identEntry hc)) (tr_pmap (pl_typeNameValue hc))

theorem pl_propOrArg (hc : CodesOk all) : Tr (placeWorld all eoi) propOrArg :=
  tr_orP (tr_pmap (tr_ignoreThen (tr_ignoreThen (tr_beginComment _) (tr_repeated pl_nodeSpace)) (pl_propOrArgInner hc)))
    (pl_propOrArgInner hc)

theorem pl_spaceEntry (hc : CodesOk all) : Tr (placeWorld all eoi) spaceEntry :=
  tr_ignoreThen (tr_repeatedB pl_nodeSpace) (pl_propOrArg hc)

theorem pl_bracedNodes {inner : P O (List (SpannedNode (Sp O)))} (hin : Tr (placeWorld all eoi) inner) :
    Tr (placeWorld all eoi) (bracedNodes inner) := by
  refine tr_ignoreThen (tr_just _) ?_
  intro s hs
  refine trR_mapErrWithSpan (tr_thenIgnore hin (tr_just '}') _ hs) ?_
  intro e he hq
  unfold bracesErr
  split
  · exact place_merge_unclosed hq
  · exact hq

theorem pl_nodeItem {inner : P O (List (SpannedNode (Sp O)))} (hc : CodesOk all) (h : Tr (placeWorld all eoi) inner) :
    Tr (placeWorld all eoi) (nodeItem inner) :=
  tr_seq (tr_orNot (tr_thenIgnore (tr_beginComment _) (tr_repeated pl_nodeSpace))) (tr_spanned
    (tr_pmap (tr_thenIgnore (tr_seq (tr_seq (tr_seq (tr_orNot (tr_spanned (pl_typeName hc))) (tr_spanned (pl_ident hc)))
      (tr_repeated (pl_spaceEntry hc)))
      (tr_orNot (tr_seq (tr_ignoreThen (tr_repeated pl_nodeSpace) (tr_orNot (tr_thenIgnore (tr_beginComment _)
        (tr_repeated pl_nodeSpace)))) (tr_spanned (pl_bracedNodes h)))))
      (tr_seq (tr_repeated pl_nodeSpace) pl_nodeTerminator))))

theorem pl_nodesRec (hc : CodesOk all) : ∀ n, Tr (placeWorld all eoi) (nodesRec n) := by
  intro n
  induction n with
  | zero => exact tr_tooDeep
  | succ n ih => exact tr_pmap (tr_separatedBy (pl_nodeItem hc ih) (tr_repeated pl_lineSpace))

theorem pl_document (hc : CodesOk all) : Tr (placeWorld all eoi) document := by
  refine tr_pmap ?_
  intro s hs
  refine trR_bind (pl_nodesRec hc _ s hs) ?_
  intro a alt _
  exact tr_pmap tr_endP _ ((placeWorld all eoi).suf hs (pl_nodesRec hc _ s hs).suf)

/-- If the last error complains about a character then it is the fatal one, and its place is
that of the character. -/
theorem parse_place (hc : CodesOk all) {es : List (PErr O)} (hr : runParser document eoi all = some (.error es))
    {lb sp c ex} (hl : es.getLast? = some (.unexpected lb sp (.char c) ex)) :
    ∃ e t, (document eoi all).out = .error e ∧ (c, sp) :: t <:+ all ∧ e.rem = t.length + 1 := by
  have h1 : TrR (placeWorld all eoi) all (document eoi all) := pl_document hc all List.suffix_rfl
  unfold runParser at hr
  simp only at hr
  split at hr
  · simp at hr
  · cases ho : (document eoi all).out with
    | ok x =>
      simp only [ho] at hr
      split at hr
      · simp at hr
      · simp only [Option.some.injEq, Except.error.injEq] at hr
        subst hr
        obtain ⟨e', h', he'⟩ := List.mem_map.1 (List.mem_of_getLast? hl)
        exact absurd ⟨lb, sp, c, ex, he'⟩ (h1.errs _ h')
    | error e0 =>
      simp only [ho, Option.some.injEq, Except.error.injEq] at hr
      subst hr
      simp only [List.map_append, List.map_cons, List.map_nil, List.getLast?_append, List.getLast?_singleton,
        Option.some_or, Option.some.injEq] at hl
      obtain ⟨t, h2, h3⟩ := trR_error h1 ho _ _ _ _ hl
      exact ⟨e0, t, rfl, h2, h3⟩

end Knuffel
