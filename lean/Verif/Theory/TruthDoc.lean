import Verif.Theory.Truth
import Verif.Theory.Nodes
import Verif.Theory.Meaning
import Verif.Theory.PositionTok
import Verif.Spec.Diag
/-!
# Diagnostics are true of the text

The logic of `Theory/Truth.lean` with the predicate `PErr.TrueOf`.
-/

set_option linter.unusedSimpArgs false
set_option linter.unusedSectionVars false

namespace Knuffel

open Cst

/-! ### Places in the text -/

theorem offset_suffix {text : Str} : ∀ {k s}, s <:+ offsetToks k text →
    ∃ pre post, text = pre ++ post ∧ s = offsetToks (k + byteLen pre) post := by
  induction text with
  | nil =>
    intro k s h
    have : s = [] := by simpa [offsetToks] using h
    exact ⟨[], [], rfl, by simp [this, offsetToks]⟩
  | cons c text ih =>
    intro k s h
    simp only [offsetToks] at h
    rcases List.suffix_cons_iff.1 h with h | h
    · exact ⟨[], c :: text, rfl, by simp [h, offsetToks, byteLen]⟩
    · obtain ⟨pre, post, h1, h2⟩ := ih h
      exact ⟨c :: pre, post, by simp [h1], by rw [h2]; simp [byteLen, Nat.add_assoc]⟩

theorem offset_takes {post : Str} : ∀ {w : Str} {k t}, Takes (offsetToks k post) w t →
    ∃ post', post = w ++ post' ∧ t = offsetToks (k + byteLen w) post' := by
  intro w
  induction w generalizing post with
  | nil =>
    intro k t h
    exact ⟨post, rfl, by simpa [byteLen] using (takes_nil.1 h).symm⟩
  | cons c w ih =>
    intro k t h
    obtain ⟨sp, u, h1, h2⟩ := takes_cons.1 h
    cases post with
    | nil => simp [offsetToks] at h1
    | cons d post =>
      simp only [offsetToks, List.cons.injEq, Prod.mk.injEq] at h1
      obtain ⟨⟨rfl, rfl⟩, rfl⟩ := h1
      obtain ⟨post', rfl, rfl⟩ := ih h2
      exact ⟨post', rfl, by simp [byteLen, Nat.add_assoc]⟩

theorem offsetToks_len (k : Nat) (text : Str) : (offsetToks k text).length = text.length := by
  rw [← chars_length, chars_offsetToks]

/-- The span since the beginning: it begins there and ends between two characters. -/
theorem offset_since {eoi : Sp Nat} {k : Nat} {post : Str} {t : List (Tok Nat)}
    (he : eoi = ⟨k + byteLen post, k + byteLen post⟩) (ht : t <:+ offsetToks k post) :
    ∃ p q, post = p ++ q ∧ spanSince eoi (offsetToks k post) t = ⟨k, k + byteLen p⟩ := by
  cases post with
  | nil =>
    have : t = [] := by simpa [offsetToks] using ht
    subst this
    exact ⟨[], [], rfl, by simp [spanSince, offsetToks, he, byteLen]⟩
  | cons c post =>
    have hl := ht.length_le
    have hm : (offsetToks k (c :: post)).length - t.length - 1 < (c :: post).length := by
      rw [offsetToks_len]; simp; omega
    refine ⟨(c :: post).take ((offsetToks k (c :: post)).length - t.length - 1 + 1),
      (c :: post).drop ((offsetToks k (c :: post)).length - t.length - 1 + 1), by simp, ?_⟩
    unfold spanSince
    simp only [offsetToks_get hm]
    simp [offsetToks]

/-- The span since the beginning if something has been taken. -/
theorem offset_since_takes {eoi : Sp Nat} {k : Nat} {w post : Str} (hw : w ≠ []) :
    spanSince eoi (offsetToks k (w ++ post)) (offsetToks (k + byteLen w) post) = ⟨k, k + byteLen w⟩ := by
  have hlen : (offsetToks k (w ++ post)).length - (offsetToks (k + byteLen w) post).length - 1 = w.length - 1 := by
    simp only [offsetToks_len, List.length_append]; omega
  have hpos : 0 < w.length := List.length_pos_iff.2 hw
  unfold spanSince
  rw [hlen, offsetToks_get (by simp; omega)]
  have : (w ++ post).take (w.length - 1 + 1) = w := by
    rw [show w.length - 1 + 1 = w.length by omega]; simp
  simp only [this]
  cases w with
  | nil => exact absurd rfl hw
  | cons c w => simp [offsetToks]

/-! ### The world of a text -/

/-- The streams are the ends of the text of at most `L` characters, the predicate is
`PErr.TrueOf`. -/
def textWorld (text : Str) (L : Nat) : World Nat where
  eoi := offsetEoi text
  I s := s <:+ offsetToks 0 text ∧ s.length ≤ L
  Q e := e.err.TrueOf text
  E e := e.err.TrueOf text
  suf h ht := ⟨ht.trans h.1, Nat.le_trans ht.length_le h.2⟩
  eoiQ _ := rfl
  chQ := by
    rintro l c sp t ex ⟨h, _⟩
    obtain ⟨pre, post, h1, h2⟩ := offset_suffix h
    cases post with
    | nil => simp [offsetToks] at h2
    | cons d post =>
      simp only [offsetToks, List.cons.injEq, Prod.mk.injEq] at h2
      obtain ⟨⟨rfl, rfl⟩, -⟩ := h2
      exact ⟨pre, post, by simp [h1], by simp [byteLen]⟩
  exQ h := h
  EQ h := h

variable {text : Str} {L : Nat}

theorem World.le {M : Nat} (h : L ≤ M) {s} (hs : (textWorld text L).I s) : (textWorld text M).I s :=
  ⟨hs.1, Nat.le_trans hs.2 h⟩

/-- A stream of the world: what precedes it and what it has. -/
theorem World.split {s} (hs : (textWorld text L).I s) :
    ∃ pre post, text = pre ++ post ∧ s = offsetToks (byteLen pre) post := by
  obtain ⟨pre, post, h1, h2⟩ := offset_suffix hs.1
  exact ⟨pre, post, h1, by simpa using h2⟩

/-- What has been taken is covered by the span. -/
theorem covers_takes {s t : List (Tok Nat)} {w : Str} (hs : (textWorld text L).I s) (hT : Takes s w t) (hw : w ≠ []) :
    ∃ pre post, text = pre ++ w ++ post ∧ t = offsetToks (byteLen (pre ++ w)) post ∧
      spanSince (offsetEoi text) s t = ⟨byteLen pre, byteLen pre + byteLen w⟩ := by
  obtain ⟨pre, post, h1, rfl⟩ := World.split hs
  obtain ⟨post', rfl, rfl⟩ := offset_takes hT
  exact ⟨pre, post', by simp [h1], by rw [byteLen_append], offset_since_takes hw⟩

theorem covers_of_takes {s t : List (Tok Nat)} {w : Str} (hs : (textWorld text L).I s) (hT : Takes s w t) (hw : w ≠ []) :
    Covers text (spanSince (offsetEoi text) s t) w := by
  obtain ⟨pre, post, h1, _, h2⟩ := covers_takes hs hT hw
  exact ⟨pre, post, h1, h2⟩

theorem coversName_of_takes {s t t' : List (Tok Nat)} {w : Str} {sp} (hs : (textWorld text L).I s) (hT : Takes s w t)
    (ht : t = ('=', sp) :: t') (hw : w ≠ []) :
    CoversName text (spanSince (offsetEoi text) s t) w := by
  obtain ⟨pre, post, h1, h3, h2⟩ := covers_takes hs hT hw
  cases post with
  | nil => rw [ht] at h3; simp [offsetToks] at h3
  | cons c post =>
    rw [ht] at h3
    simp only [offsetToks, List.cons.injEq, Prod.mk.injEq] at h3
    obtain ⟨⟨rfl, -⟩, -⟩ := h3
    exact ⟨pre, post, h1, h2⟩

theorem Quiet.ok {O α : Type} {p : P O α} (hq : Quiet p) {eoi : Sp O} {s a alt} (h : (p eoi s).out = .ok (a, alt)) :
    Ok p eoi s a (p eoi s).rest := ⟨hq eoi s, ⟨alt, h⟩, rfl⟩

/-- The error mapping of something opened by `w` just before `s`. -/
theorem unclosed_before {s t u : List (Tok Nat)} {w : Str} {name : Str} {o c : TokenFormat} {n : Nat}
    (hu : (textWorld text L).I u) (hT : Takes u w s) (hn : n = byteLen w) (ht : t <:+ s)
    (hc : ∀ after, chars s = after → NotClosed name o c w after) :
    (PErr.unclosed name ((spanSince (offsetEoi text) s t).beforeStart n) o (spanSince (offsetEoi text) s t).atEnd c
      .eoi).TrueOf text := by
  obtain ⟨pre, post, h1, rfl⟩ := World.split hu
  obtain ⟨post', rfl, rfl⟩ := offset_takes hT
  obtain ⟨p, q, h2, h3⟩ := offset_since (eoi := offsetEoi text) (by
    rw [offsetEoi, h1]; simp [byteLen_append, Nat.add_assoc]) ht
  refine ⟨rfl, pre, w, post', by simp [h1], ?_, ⟨p, q, h2, ?_⟩, hc _ (chars_offsetToks _ _)⟩
  · rw [h3, hn]
    simp [Sp.beforeStart, Offset.back]
  · rw [h3, byteLen_append]; rfl

theorem merge_unclosed_true {e : PErr Nat} {name oa o ea c} (h : e.TrueOf text)
    (h2 : (PErr.unclosed name oa o ea c .eoi).TrueOf text) :
    ((e.merge (.unclosed name oa o ea c .eoi)).getD e).TrueOf text := by
  cases e <;> first | exact h2 | exact h

/-! ### Block comments and strings -/

/-- More than two bytes that do not begin with `/*`: the character is unexpected. -/
theorem beginComment_short {eoi : Sp Nat} {k : Nat} {post : Str} (h : ¬ ['/', '*'] <+: post) (hl : 2 < byteLen post) :
    ∃ e, (beginComment '*' eoi (offsetToks k post)).out = .error e ∧ e.err.isEoi = false := by
  cases post with
  | nil => simp [byteLen] at hl
  | cons a post =>
    by_cases ha : a = '/'
    · subst ha
      cases post with
      | nil => exact absurd hl (by decide)
      | cons b post =>
        by_cases hb : b = '*'
        · subst hb; exact absurd ⟨post, rfl⟩ h
        · exact ⟨_, by simp [beginComment, ignoreThen, bind, mapErr, just, pok, pfail, offsetToks, ignored, pmap, hb,
            Loc.maxO]; rfl, rfl⟩
    · exact ⟨_, by simp [beginComment, ignoreThen, bind, mapErr, just, pok, pfail, offsetToks, ha,
        PErr.withNoExpected, PErr.expectedFound]; rfl, rfl⟩

theorem tr_mlComment : Tr (textWorld text L) mlComment := by
  intro s hs
  unfold mlComment
  refine trR_mapErrWithSpan (tr_mlCommentRec _ s hs) ?_
  intro e he hq
  unfold mlCommentErr
  split
  · rename_i hc
    simp only [Bool.and_eq_true, decide_eq_true_eq] at hc
    have hsuf : (mlCommentRec (s.length + 1) (offsetEoi text) s).rest <:+ s := suf_mlCommentRec _ _ _
    obtain ⟨pre, post, h1, h2⟩ := World.split hs
    subst h2
    obtain ⟨p, q, h3, h4⟩ := offset_since (eoi := offsetEoi text) (by
      rw [offsetEoi, h1]; simp [byteLen_append]) hsuf
    have h4' : spanSince (textWorld text L).eoi (offsetToks (byteLen pre) post)
        (mlCommentRec ((offsetToks (byteLen pre) post).length + 1) (textWorld text L).eoi (offsetToks (byteLen pre) post)).rest =
        ⟨byteLen pre, byteLen pre + byteLen p⟩ := h4
    rw [h4'] at hc ⊢
    have hlen : 2 < byteLen p := by
      have := hc.2; simp [Sp.length, Offset.byte] at this; exact this
    by_cases hst : ['/', '*'] <+: post
    · obtain ⟨after, rfl⟩ := hst
      refine merge_unclosed_true hq ⟨rfl, pre, ['/', '*'], after, by simp [h1], ?_, ?_, .comment ?_⟩
      · simp [Sp.atStart, Offset.fwd, byteLen]; decide
      · -- the end of the span is after the two characters
        obtain ⟨p', rfl⟩ : ∃ p', p = '/' :: '*' :: p' := by
          cases p with
          | nil => simp [byteLen] at hlen
          | cons a p => cases p with
            | nil =>
              simp only [List.cons_append, List.nil_append, List.cons.injEq] at h3
              rw [← h3.1] at hlen
              exact absurd hlen (by decide)
            | cons b p =>
              simp only [List.cons_append, List.nil_append, List.cons.injEq] at h3
              rw [← h3.1, ← h3.2.1]
              exact ⟨p, rfl⟩
        simp only [List.cons_append, List.nil_append, List.cons.injEq, true_and] at h3
        refine ⟨p', q, h3, ?_⟩
        simp [Sp.atEnd, byteLen, byteLen_append, Nat.add_assoc]
      · intro b rest hb hafter
        have hT : ∃ t, Takes (offsetToks (byteLen pre) (['/', '*'] ++ after)) (Ws.block b).text t ∧ chars t = rest :=
          takes_of_chars (by rw [chars_offsetToks, hafter]; simp [Ws.text])
        obtain ⟨t, hT, -⟩ := hT
        have hok := mlComment_complete (eoi := offsetEoi text) hb hT
        refine hok.not_fails ?_
        show Fails (mapErrWithSpan mlCommentErr (mlCommentRec _)) _ _
        exact fails_mapErrWithSpan.2 ⟨e, he⟩
    · -- the opening is not there: the span is too short
      exfalso
      obtain ⟨e', h5, h6⟩ := beginComment_short (eoi := offsetEoi text) (k := byteLen pre) hst (by
        rw [h3]; rw [byteLen_append]; omega)
      have h7 : (mlCommentRec ((offsetToks (byteLen pre) post).length + 1) (offsetEoi text)
          (offsetToks (byteLen pre) post)).out = .error e' := by
        rw [mlCommentRec_succ]
        exact bind_error_left (bind_error_left h5)
      have h8 : e = e' := by
        have := he.symm.trans h7
        injection this
      rw [h8, h6] at hc
      exact absurd hc.1 (by simp)
  · exact hq

theorem tr_ws : Tr (textWorld text L) ws :=
  tr_mapErr (tr_orP (tr_ignored (tr_repeatedB (tr_ignored (tr_filter _)))) tr_mlComment) (fun _ _ => q_withExpectedKind)

theorem tr_escLine : Tr (textWorld text L) escLine :=
  tr_ignoreThen (tr_ignoreThen (tr_just _) (tr_repeated tr_ws)) (tr_orP tr_comment tr_newline)

theorem tr_nodeSpace : Tr (textWorld text L) nodeSpace := tr_orP tr_ws tr_escLine
theorem tr_lineSpace : Tr (textWorld text L) lineSpace := tr_orP (tr_orP tr_newline tr_ws) tr_comment

theorem tr_nodeTerminator : Tr (textWorld text L) nodeTerminator := by
  refine tr_choice ?_
  intro p hp
  simp only [List.mem_cons, List.not_mem_nil, or_false] at hp
  rcases hp with rfl | rfl | rfl | rfl
  · exact tr_newline
  · exact tr_comment
  · exact tr_ignored (tr_just _)
  · exact tr_endP

/-- If `take_until` fails then the end is nowhere. -/
theorem takeUntilGo_error {O β : Type} {p : P O β} {eoi : Sp O} : ∀ fuel {outs alt pan s e}, s.length < fuel →
    (takeUntilGo p eoi fuel outs alt pan s).out = .error e → ∀ t, t <:+ s → Fails p eoi t := by
  intro fuel
  induction fuel with
  | zero => intro _ _ _ _ _ h; omega
  | succ n ih =>
    intro outs alt pan s e hf h t ht
    unfold takeUntilGo at h
    cases ho : (p eoi s).out with
    | ok x => simp [ho] at h
    | error e' =>
      simp only [ho] at h
      cases s with
      | nil =>
        have : t = [] := by simpa using ht
        subst this; exact ⟨_, ho⟩
      | cons x s =>
        simp only at h
        rcases List.suffix_cons_iff.1 ht with rfl | ht
        · exact ⟨_, ho⟩
        · exact ih (by simp at hf; omega) h t ht

theorem takeUntil_nowhere {O β : Type} {p : P O β} {eoi : Sp O} {s e} (h : (takeUntil p eoi s).out = .error e) :
    ∀ t, t <:+ s → Fails p eoi t := takeUntilGo_error _ (Nat.lt_succ_self _) h

theorem quiet_rawStart {O : Type} : Quiet (thenIgnore (ignoreThen (just 'r') (pmap List.length (repeated (just '#')))) (just '"') : P O Nat) :=
  quiet_thenIgnore (quiet_ignoreThen (quiet_just _) (quiet_pmap (quiet_repeated (quiet_just _)))) (quiet_just _)

theorem rawStart_takes {O : Type} {eoi : Sp O} {s n t}
    (h : Ok (thenIgnore (ignoreThen (just 'r') (pmap List.length (repeated (just '#')))) (just '"')) eoi s n t) :
    Takes s ('r' :: List.replicate n '#' ++ ['"']) t := by
  obtain ⟨t2, _, h3, h4⟩ := ok_thenIgnore.1 h
  obtain ⟨h4', -⟩ := ok_just_takes.1 h4
  obtain ⟨_, t3, h5, h6⟩ := ok_ignoreThen.1 h3
  obtain ⟨h5', rfl⟩ := ok_just_takes.1 h5
  obtain ⟨as, h6', rfl⟩ := ok_pmap.1 h6
  rw [ok_repeated eats_just.consumes, reps_just] at h6'
  have h9 : Takes t3 (List.replicate as.length '#') t2 := by
    have := h6'.1.2
    rwa [h6'.1.1] at this
  have := h5'.trans (h9.trans h4')
  simpa using this

theorem byteLen_hashes (n : Nat) : byteLen (List.replicate n '#') = n := by
  induction n with
  | zero => rfl
  | succ n ih =>
    rw [List.replicate_succ, byteLen, ih]
    have : '#'.utf8Size = 1 := by decide
    omega

theorem byteLen_rawOpen (n : Nat) : byteLen ('r' :: List.replicate n '#' ++ ['"']) = n + 2 := by
  rw [byteLen_append, byteLen, byteLen_hashes]
  have h1 : 'r'.utf8Size = 1 := by decide
  have h2 : byteLen ['"'] = 1 := by decide
  omega

theorem tr_rawString : Tr (textWorld text L) rawString := by
  refine tr_pmap ?_
  intro s hs
  refine trR_bind (tr_thenIgnore (tr_ignoreThen (tr_just _) (tr_pmap (tr_repeated (tr_just _)))) (tr_just _) s hs) ?_
  intro n alt ho
  have hT := rawStart_takes (Quiet.ok quiet_rawStart ho)
  have hs1 := (textWorld text L).suf hs (tr_thenIgnore (tr_ignoreThen (tr_just 'r') (tr_pmap (f := List.length)
    (tr_repeated (tr_just '#')))) (tr_just '"') s hs).suf
  refine trR_mapErrWithSpan (tr_takeUntil (tr_ignoreThen (tr_just _) (tr_ignored (tr_repeatedB (tr_just _)))) _ hs1) ?_
  intro e he hq
  unfold rawStringErr
  split
  · refine merge_unclosed_true hq (unclosed_before hs hT (byteLen_rawOpen n).symm
      (tr_takeUntil (tr_ignoreThen (tr_just _) (tr_ignored (tr_repeatedB (tr_just _)))) _ hs1).suf ?_)
    rintro after hafter
    refine .raw ?_
    rintro ⟨x, y, hxy⟩
    rw [← hafter] at hxy
    have hxy' : chars (thenIgnore (ignoreThen (just 'r') (pmap List.length (repeated (just '#')))) (just '"')
        (textWorld text L).eoi s).rest = x ++ (Cst.rawClose n ++ y) := by rw [← hxy]; simp [Cst.rawClose]
    obtain ⟨p, q, hpq, hp, hq'⟩ := chars_eq_append.1 hxy'
    have hf := takeUntil_nowhere he q (by rw [hpq]; exact List.suffix_append _ _)
    exact fails_rawEnd.1 hf ⟨y, hq'.symm⟩
  · exact hq

theorem tr_hexBraces : Tr (textWorld text L) hexBraces := by
  refine tr_delimitedBy (tr_repeatedB (tr_filterMap ?_)) (tr_just _) (tr_just _)
  intro sp c t e hI h
  unfold hexDigit at h
  split at h
  · simp at h
  · injection h with h; subst h; exact (textWorld text L).chQ hI

theorem tr_escChar : Tr (textWorld text L) escChar := by
  refine tr_orP (tr_filterMap ?_) (tr_ignoreThen (tr_just _) (tr_recoverSkipUntil ?_ (fun _ h => h)))
  · intro sp c t e hI h
    unfold escSimple at h
    repeat' split at h
    all_goals first | (simp at h; done) | (injection h with h; subst h; exact (textWorld text L).chQ hI)
  · intro s hs
    refine trR_tryMap (tr_hexBraces s hs) ?_
    intro a alt e ho h
    unfold hexToChar at h
    split at h
    · simp at h
    · rename_i hc
      injection h with h; subst h
      have hok := Quiet.ok quiet_hexBraces ho
      have h6 := hok
      unfold hexBraces at hok
      obtain ⟨_, t1, _, t2, h1, h2, h3⟩ := ok_delimitedBy.1 hok
      obtain ⟨h1', -⟩ := ok_just_takes.1 h1
      obtain ⟨h3', -⟩ := ok_just_takes.1 h3
      have hmax := repeatedB_le_max h2
      obtain ⟨h2', h4⟩ := ok_repeatedB eats_hexDigit.consumes h2
      obtain ⟨h5, hd⟩ := reps_hexDigit.1 h2'
      have hT := h1'.trans (h5.trans h3')
      refine ⟨rfl, rfl, a, ?_, hmax, hd, ?_, ?_⟩
      · rintro rfl
        rcases h4 with h4 | h4
        · simp at h4
        · simp at h4
      · have hn : ¬ ∃ c, charOfNat? (digitsVal 16 a) = some c := by rw [hc]; simp
        rw [digitsVal_eq hd] at hn
        have : ¬ (Cst.hexNumber a < 0xD800 ∨ (0xDFFF < Cst.hexNumber a ∧ Cst.hexNumber a < 0x110000)) :=
          fun hh => hn ⟨_, charOfNat_eq.2 ⟨hh, rfl⟩⟩
        omega
      · exact covers_of_takes hs hT (by simp)

theorem tr_strChar : Tr (textWorld text L) strChar :=
  tr_orP (tr_filter _) (tr_ignoreThen (tr_just _) tr_escChar)

theorem tr_escapedString : Tr (textWorld text L) escapedString := by
  intro s hs
  refine trR_bind (tr_just _ s hs) ?_
  intro c alt ho
  obtain ⟨hT, rfl⟩ := ok_just_takes.1 (Quiet.ok (quiet_just _) ho)
  have hs1 := (textWorld text L).suf hs (tr_just '"' s hs).suf
  have hin := tr_thenIgnore (tr_repeated tr_strChar) (tr_just '"') _ hs1
  refine trR_mapErrWithSpan hin ?_
  intro e he hq
  unfold stringErr
  split
  · refine merge_unclosed_true hq (unclosed_before hs hT (by decide) hin.suf ?_)
    intro after hafter
    refine .string ?_
    intro l rest hl hr
    rw [← hafter] at hr
    have hch : chars s = Cst.quotedText l ++ rest := by
      rw [hT.chars, hr]; simp [Cst.quotedText]
    obtain ⟨t, hT2, -⟩ := takes_of_chars hch
    have hok : Ok escapedString (offsetEoi text) s _ t := ok_escapedString.2 ⟨l, hl, rfl, hT2⟩
    refine hok.not_fails ?_
    exact fails_ignoreThen_right (Quiet.ok (quiet_just _) ho) (fails_mapErrWithSpan.2 ⟨e, he⟩)
  · exact hq

theorem tr_string : Tr (textWorld text L) string := tr_orP tr_rawString tr_escapedString

/-! ### Names and values -/

theorem quiet_identChoice {O : Type} : Quiet (choice [
      pmap (fun x => x.1 :: x.2.1 :: x.2.2) (seq sign (seq idSansDig (repeated idChar))),
      repeatedB 1 (some 1) sign,
      pmap (fun x => x.1 :: x.2) (seq idSansSignDig (repeated idChar))] : P O (List Char)) := by
  refine quiet_choice ?_
  intro p hp
  simp only [List.mem_cons, List.not_mem_nil, or_false] at hp
  rcases hp with rfl | rfl | rfl
  · exact quiet_pmap (quiet_seq quiet_sign (quiet_seq (quiet_mapErr (quiet_filter _)) (quiet_repeated quiet_idChar)))
  · exact quiet_repeatedB quiet_sign
  · exact quiet_pmap (quiet_seq (quiet_mapErr (quiet_filter _)) (quiet_repeated quiet_idChar))

theorem quiet_bareIdent {O : Type} : Quiet (bareIdent : P O Str) := quiet_tryMap quiet_identChoice

theorem quiet_decimalNumber {O : Type} : Quiet (decimalNumber : P O Literal) :=
  quiet_pmap (quiet_seq (quiet_seq (quiet_seq (quiet_seq quiet_optSign (quiet_filter _)) (quiet_repeated (quiet_filter _)))
    (quiet_orNot (quiet_pmap (quiet_seq (quiet_seq (quiet_just _) (quiet_filter _)) (quiet_repeated (quiet_filter _))))))
    (quiet_orNot (quiet_pmap (quiet_seq (quiet_seq (quiet_orP (quiet_just _) (quiet_just _)) quiet_optSign)
      (quiet_repeated (quiet_filter _))))))

theorem quiet_number {O : Type} : Quiet (number : P O Literal) := quiet_orP quiet_radixNumber quiet_decimalNumber

theorem quiet_keyword {O : Type} : Quiet (keyword : P O Literal) := by
  refine quiet_choice ?_
  intro p hp
  simp only [List.mem_cons, List.not_mem_nil, or_false] at hp
  rcases hp with rfl | rfl | rfl <;> exact quiet_pmap (quiet_mapErr (quiet_justStr _))

theorem tr_bareIdent : Tr (textWorld text L) bareIdent := by
  intro s hs
  refine trR_tryMap (tr_choice3 (tr_pmap (tr_seq tr_sign (tr_seq tr_idSansDig (tr_repeated tr_idChar))))
    (tr_repeatedB tr_sign) (tr_pmap (tr_seq tr_idSansSignDig (tr_repeated tr_idChar))) s hs) ?_
  intro a alt e ho h
  unfold checkKeyword at h
  split at h
  · rename_i hk
    injection h with h; subst h
    have hsound := identChoice_sound (Quiet.ok quiet_identChoice ho)
    refine ⟨by simpa [Cst.keywords] using hk, covers_of_takes hs hsound.2.1 ?_⟩
    rintro rfl; exact hsound.1
  · simp at h

/-- A number is not empty. -/
theorem number_takes {O : Type} {eoi : Sp O} {s v alt} (h : (number eoi s).out = .ok (v, alt)) :
    ∃ n : Num, n.Ok ∧ Takes s n.text (number eoi s).rest ∧ n.text ≠ [] := by
  obtain ⟨n, h1, h2, -⟩ := number_sound (Quiet.ok quiet_number h)
  refine ⟨n, h1, h2, ?_⟩
  intro hn
  have := eats_number eoi s _ h
  have hl := h2.length
  rw [hn] at hl
  simp at hl; omega

theorem tr_ident : Tr (textWorld text L) ident := by
  intro s hs
  refine trR_tryMap (tr_choice3 (tr_pmap tr_number) (tr_pmap tr_bareIdent) (tr_pmap tr_string) s hs) ?_
  intro a alt e ho h
  cases a with
  | some v => simp [checkNumber] at h
  | none =>
    simp only [checkNumber] at h
    injection h with h; subst h
    obtain ⟨p, hp, h1, h2, -⟩ := choice_ok_inv ho
    rw [h2]
    simp only [List.mem_cons, List.not_mem_nil, or_false] at hp
    rcases hp with rfl | rfl | rfl
    · obtain ⟨v, h3, -⟩ := pmap_ok_inv h1
      obtain ⟨n, hn, hT, hne⟩ := number_takes h3
      exact Or.inl ⟨rfl, n, hn, covers_of_takes hs hT hne⟩
    · obtain ⟨v, h3, h4⟩ := pmap_ok_inv h1; cases h4
    · obtain ⟨v, h3, h4⟩ := pmap_ok_inv h1; cases h4

theorem tr_literal : Tr (textWorld text L) literal :=
  tr_choice3 (tr_pmap tr_string) tr_keyword tr_number

theorem tr_typeName : Tr (textWorld text L) typeName :=
  tr_pmap (tr_delimitedBy tr_ident (tr_just _) (tr_just _))

theorem tr_typeNameValue : Tr (textWorld text L) typeNameValue :=
  tr_pmap (tr_seq (tr_spanned tr_typeName) (tr_spanned tr_literal))

theorem tr_value : Tr (textWorld text L) value :=
  tr_orP tr_typeNameValue (tr_pmap (tr_spanned tr_literal))

theorem tr_optValue : Tr (textWorld text L) optValue := tr_orNot (tr_ignoreThen (tr_just _) tr_value)

/-- A literal that is no string. -/
theorem literal_other {O : Type} [Offset O] {eoi : Sp O} {s v alt} (h : (literal eoi s).out = .ok (v, alt))
    (hv : ∀ w, v ≠ .string w) :
    (∃ w ∈ keywords, Takes s w (literal eoi s).rest ∧ (v = .null ∨ ∃ b, v = .bool b)) ∨
    (∃ n : Num, n.Ok ∧ Takes s n.text (literal eoi s).rest ∧ n.text ≠ [] ∧ v = n.value) := by
  obtain ⟨p, hp, h1, h2, -⟩ := choice_ok_inv h
  unfold literal
  rw [h2]
  simp only [List.mem_cons, List.not_mem_nil, or_false] at hp
  rcases hp with rfl | rfl | rfl
  · obtain ⟨w, h3, h4⟩ := pmap_ok_inv h1; exact absurd h4 (hv w)
  · obtain ⟨l, -, hT, -, hk, hv'⟩ := keyword_sound (Quiet.ok quiet_keyword h1)
    exact Or.inl ⟨l.text, hk, hT, hv'⟩
  · obtain ⟨n, hn, hT, hv'⟩ := number_sound (Quiet.ok quiet_number h1)
    refine Or.inr ⟨n, hn, hT, ?_, hv'⟩
    intro hn
    have := eats_number eoi s _ h1
    have hl := hT.length
    rw [hn] at hl
    simp at hl; omega

theorem keyword_ne {w : Str} (h : w ∈ keywords) : w ≠ [] := by
  rintro rfl; revert h; decide

theorem num_value_cases (n : Num) : (∃ r s, n.value = .int r s) ∨ ∃ s, n.value = .decimal s := by
  cases n with
  | dec sg d ds frac exp =>
    simp only [Num.value]
    split
    · exact Or.inr ⟨_, rfl⟩
    · exact Or.inl ⟨_, _, rfl⟩
  | radix sg r d ds => exact Or.inl ⟨_, _, rfl⟩

/-- `literal=value`: the literal, and an equals sign after it. -/
theorem literalEq_inv {O : Type} [Offset O] {eoi : Sp O} {s : List (Tok O)} {x alt}
    (h : (seq (spanned literal) optValue eoi s).out = .ok (x, alt)) {v} (hx : x.2 = some v) :
    ∃ alt', (literal eoi s).out = .ok (x.1.value, alt') ∧ x.1.span = spanSince eoi s (literal eoi s).rest ∧
      ∃ sp t, (literal eoi s).rest = ('=', sp) :: t := by
  obtain ⟨a, alt1, alt2, h1, h2, -, -⟩ := bind_ok_inv h
  obtain ⟨l, h3, rfl⟩ := mapWithSpan_ok_inv h1
  obtain ⟨o, h4, rfl⟩ := pmap_ok_inv h2
  simp only at hx
  subst hx
  refine ⟨alt1, h3, rfl, ?_⟩
  have hrest : (spanned literal eoi s).rest = (literal eoi s).rest := rfl
  rw [hrest] at h4
  rcases orNot_inv (ignoreThen (just '=') value) eoi (literal eoi s).rest with ⟨a, alt, h5, -⟩ | ⟨e, h5, h6⟩
  · obtain ⟨_, _, _, h7, -⟩ := bind_ok_inv h5
    obtain ⟨sp, h8, -⟩ := ok_just.1 (Quiet.ok (quiet_just _) h7)
    exact ⟨sp, _, h8⟩
  · have h7 : (optValue eoi (literal eoi s).rest).out = .ok (none, some e) := by
      unfold optValue; rw [h6]
    rw [h7] at h4
    simp at h4

theorem tr_literalEntry : Tr (textWorld text L) (tryMap literalEntry (seq (spanned literal) optValue)) := by
  intro s hs
  refine trR_tryMap (tr_seq (tr_spanned tr_literal) tr_optValue s hs) ?_
  rintro ⟨⟨nameSpan, l⟩, o⟩ alt e ho h
  cases o with
  | none => cases l <;> simp [literalEntry] at h
  | some v =>
    obtain ⟨alt', h1, h2, sp, t, h3⟩ := literalEq_inv ho rfl
    simp only at h1 h2
    have h4 := fun hv => literal_other h1 hv
    have hkw : (∃ w ∈ keywords, Takes s w (literal (textWorld text L).eoi s).rest ∧ (l = .null ∨ ∃ b, l = .bool b)) →
        ∃ w ∈ keywords, CoversName text nameSpan w := by
      rintro ⟨w, hw, hT, -⟩
      refine ⟨w, hw, ?_⟩
      rw [h2]; exact coversName_of_takes hs hT h3 (keyword_ne hw)
    have hnum : (∃ n : Num, n.Ok ∧ Takes s n.text (literal (textWorld text L).eoi s).rest ∧ n.text ≠ [] ∧ l = n.value) →
        ∃ n : Num, n.Ok ∧ CoversName text nameSpan n.text := by
      rintro ⟨n, hn, hT, hne, -⟩
      refine ⟨n, hn, ?_⟩
      rw [h2]; exact coversName_of_takes hs hT h3 hne
    cases l with
    | string w => simp [literalEntry] at h
    | null =>
      simp only [literalEntry] at h
      injection h with h; subst h
      rcases h4 (by simp) with h5 | h5
      · exact Or.inr ⟨rfl, hkw h5⟩
      · obtain ⟨n, -, -, -, h6⟩ := h5
        rcases num_value_cases n with ⟨r, w, h7⟩ | ⟨w, h7⟩ <;> rw [h7] at h6 <;> cases h6
    | bool b =>
      simp only [literalEntry] at h
      injection h with h; subst h
      rcases h4 (by simp) with h5 | h5
      · exact Or.inr ⟨rfl, hkw h5⟩
      · obtain ⟨n, -, -, -, h6⟩ := h5
        rcases num_value_cases n with ⟨r, w, h7⟩ | ⟨w, h7⟩ <;> rw [h7] at h6 <;> cases h6
    | int r w =>
      simp only [literalEntry] at h
      injection h with h; subst h
      rcases h4 (by simp) with h5 | h5
      · obtain ⟨_, _, _, h6 | ⟨b, h6⟩⟩ := h5 <;> cases h6
      · exact ⟨rfl, Or.inl ⟨rfl, rfl, hnum h5⟩⟩
    | decimal w =>
      simp only [literalEntry] at h
      injection h with h; subst h
      rcases h4 (by simp) with h5 | h5
      · obtain ⟨_, _, _, h6 | ⟨b, h6⟩⟩ := h5 <;> cases h6
      · exact ⟨rfl, Or.inl ⟨rfl, rfl, hnum h5⟩⟩

theorem tr_identEntry : Tr (textWorld text L) (validate identEntryErrs (seq (spanned bareIdent) optValue)) := by
  intro s hs
  refine trR_validate (tr_seq (tr_spanned tr_bareIdent) tr_optValue s hs) ?_
  rintro ⟨⟨nameSpan, v⟩, o⟩ alt ho e he
  cases o with
  | some v => simp [identEntryErrs] at he
  | none =>
    simp only [identEntryErrs, List.mem_singleton] at he
    subst he
    obtain ⟨a, alt1, alt2, h1, h2, -, h5⟩ := bind_ok_inv ho
    obtain ⟨l, h3, rfl⟩ := mapWithSpan_ok_inv h1
    obtain ⟨o, h4, h6⟩ := pmap_ok_inv h2
    simp only [Prod.mk.injEq] at h6
    obtain ⟨-, rfl⟩ := h6
    -- nothing more has been consumed
    have hr : (seq (spanned bareIdent) optValue (textWorld text L).eoi s).rest = (bareIdent (textWorld text L).eoi s).rest := by
      have h7 : (seq (spanned bareIdent) optValue (textWorld text L).eoi s).rest =
        (optValue (textWorld text L).eoi (bareIdent (textWorld text L).eoi s).rest).rest := h5
      rw [h7]
      have h4' : (optValue (textWorld text L).eoi (bareIdent (textWorld text L).eoi s).rest).out = .ok (none, alt2) := h4
      rcases orNot_inv (ignoreThen (just '=') value) (textWorld text L).eoi (bareIdent (textWorld text L).eoi s).rest with
        ⟨a, alt, h5, h6⟩ | ⟨e, h5, h6⟩
      · unfold optValue at h4'; rw [h6] at h4'; simp at h4'
      · unfold optValue; rw [h6]
    rw [hr]
    obtain ⟨hb, hT, -⟩ := bareIdent_sound (Quiet.ok quiet_bareIdent h3)
    refine ⟨rfl, Or.inr ⟨rfl, rfl, l, hb, covers_of_takes hs hT ?_⟩⟩
    rintro rfl; exact hb.1

theorem tr_propOrArgInner : Tr (textWorld text L) propOrArgInner :=
  tr_choice3 tr_literalEntry (tr_pmap tr_identEntry) (tr_pmap tr_typeNameValue)

theorem tr_propOrArg : Tr (textWorld text L) propOrArg :=
  tr_orP (tr_pmap (tr_ignoreThen (tr_ignoreThen (tr_beginComment _) (tr_repeated tr_nodeSpace)) tr_propOrArgInner))
    tr_propOrArgInner

/-! ### Nodes -/

theorem tr_spaceEntry : Tr (textWorld text L) spaceEntry :=
  tr_ignoreThen (tr_repeatedB tr_nodeSpace) tr_propOrArg

/-- Braces, with enough depth for what comes after the opening one. -/
theorem tr_bracedNodes {n : Nat} (hin : Tr (textWorld text n) (nodesRec (n + 1))) :
    Tr (textWorld text (n + 1)) (bracedNodes (nodesRec (n + 1))) := by
  intro s hs
  refine trR_bind (tr_just _ s hs) ?_
  intro c alt ho
  obtain ⟨hT, rfl⟩ := ok_just_takes.1 (Quiet.ok (quiet_just _) ho)
  have hlt := eats_just (textWorld text (n + 1)).eoi s _ ho
  have hs1 : (textWorld text n).I (just '{' (textWorld text n).eoi s).rest :=
    ⟨((textWorld text (n + 1)).suf hs (tr_just '{' s hs).suf).1, by
      have := hs.2
      have h2 : (just '{' (textWorld text n).eoi s).rest.length + 1 ≤ s.length := hlt
      omega⟩
  have hin' := tr_thenIgnore hin (tr_just '}') _ hs1
  have hin2 : TrR (textWorld text (n + 1)) (just '{' (textWorld text (n + 1)).eoi s).rest
      (thenIgnore (nodesRec (n + 1)) (just '}') (textWorld text (n + 1)).eoi (just '{' (textWorld text (n + 1)).eoi s).rest) :=
    ⟨hin'.suf, hin'.errs, hin'.alt⟩
  refine trR_mapErrWithSpan hin2 ?_
  intro e he hq
  unfold bracesErr
  split
  · refine merge_unclosed_true hq (unclosed_before hs hT (by decide) hin'.suf ?_)
    intro after hafter
    refine .braces ?_
    intro b rest hb hr
    obtain ⟨k, hk⟩ : ∃ k, (just '{' (textWorld text n).eoi s).rest = (offsetToks 0 text).drop k := by
      obtain ⟨pre, hpre⟩ := hs1.1
      exact ⟨pre.length, by rw [← hpre]; simp⟩
    have hr' : chars (just '{' (textWorld text n).eoi s).rest = b.text ++ '}' :: rest := hafter.trans hr
    obtain ⟨t, hT2, ht⟩ := takes_of_chars hr'
    have hok := nodes_complete (eoi := offsetEoi text) (all := offsetToks 0 text) b (n := n) hs1.2 hk
      (by rw [ht]; exact hb) hT2 (Or.inr (by rw [ht]; rfl))
    obtain ⟨sp, t', ht'⟩ : ∃ sp t', t = ('}', sp) :: t' := toks_of_head (by rw [ht]; rfl)
    have hok2 : Ok (thenIgnore (nodesRec (n + 1)) (just '}')) (offsetEoi text) (just '{' (textWorld text n).eoi s).rest _ t' :=
      ok_thenIgnore.2 ⟨t, _, hok, ok_just.2 ⟨sp, ht', rfl⟩⟩
    exact hok2.not_fails ⟨e, he⟩
  · exact hq

theorem tr_optChildren {inner : P Nat (List (SpannedNode (Sp Nat)))} (h : Tr (textWorld text L) (bracedNodes inner)) :
    Tr (textWorld text L) (optChildren inner) :=
  tr_orNot (tr_seq (tr_ignoreThen (tr_repeated tr_nodeSpace) (tr_orNot (tr_thenIgnore (tr_beginComment _)
    (tr_repeated tr_nodeSpace)))) (tr_spanned h))

theorem tr_node {inner : P Nat (List (SpannedNode (Sp Nat)))} (h : Tr (textWorld text L) (bracedNodes inner)) :
    Tr (textWorld text L) (node inner) :=
  tr_pmap (tr_thenIgnore (tr_seq (tr_seq (tr_seq (tr_orNot (tr_spanned tr_typeName)) (tr_spanned tr_ident))
    (tr_repeated tr_spaceEntry)) (tr_optChildren h)) (tr_seq (tr_repeated tr_nodeSpace) tr_nodeTerminator))

theorem tr_nodeItem {inner : P Nat (List (SpannedNode (Sp Nat)))} (h : Tr (textWorld text L) (bracedNodes inner)) :
    Tr (textWorld text L) (nodeItem inner) :=
  tr_seq (tr_orNot (tr_thenIgnore (tr_beginComment _) (tr_repeated tr_nodeSpace))) (tr_spanned (tr_node h))

theorem tr_nodesRec : ∀ n, Tr (textWorld text n) (nodesRec (n + 1)) := by
  intro n
  induction n with
  | zero =>
    -- the text is at its end
    refine tr_pmap (tr_separatedBy (tr_nodeItem ?_) (tr_repeated tr_lineSpace))
    intro s hs
    unfold bracedNodes ignoreThen
    refine trR_bind (tr_just _ s hs) ?_
    intro c alt ho
    have hlt := eats_just (textWorld text 0).eoi s _ ho
    have := hs.2
    omega
  | succ n ih => exact tr_pmap (tr_separatedBy (tr_nodeItem (tr_bracedNodes ih)) (tr_repeated tr_lineSpace))

theorem parse_true {es : List (PErr Nat)} (h : parseAst text = some (.error es)) : ∀ e ∈ es, e.TrueOf text := by
  have hdoc : Tr (textWorld text text.length) document := by
    refine tr_pmap ?_
    intro s hs
    refine trR_bind ?_ ?_
    · exact (tr_nodesRec s.length s ⟨hs.1, Nat.le_refl _⟩ : TrR (textWorld text s.length) s _) |> fun h => ⟨h.suf, h.errs, h.alt⟩
    · intro a alt _
      have h2 : TrR (textWorld text s.length) s (nodesRec (s.length + 1) (offsetEoi text) s) :=
        tr_nodesRec s.length s ⟨hs.1, Nat.le_refl _⟩
      exact tr_pmap tr_endP _ ((textWorld text text.length).suf hs h2.suf)
  intro e he
  obtain ⟨_, h1⟩ := tr_runParser hdoc (s := offsetToks 0 text) ⟨List.suffix_rfl, by rw [offsetToks_len]; exact Nat.le_refl _⟩ h e he
  exact h1

end Knuffel
