import Verif.Theory.Ordered
/-!
# The order of the diagnostics: white space and strings
-/

set_option linter.unusedSimpArgs false
set_option linter.unusedSectionVars false
set_option linter.unusedVariables false

namespace Knuffel.Ordered
open Cst

variable {α β : Type} {text : Str}

/-- The text begins with this character. -/
def Hd (c : Char) (s : List (Tok Nat)) : Prop := (chars s).head? = some c

/-- A comment that begins with `/*`. -/
def Slash (s : List (Tok Nat)) : Prop := ['/', '*'] <+: chars s

/-- A comment that begins with `/*`, or a line that is continued. -/
def Wall (s : List (Tok Nat)) : Prop := Slash s ∨ Hd '\\' s

theorem Slash.hd {s} (h : Slash s) : Hd '/' s := by
  obtain ⟨r, h⟩ := h
  rw [Hd, ← h]; rfl

theorem fails_just_of_hd {c d : Char} {eoi : Sp Nat} {s} (h : Hd d s) (hc : d ≠ c) : Fails (just c) eoi s := by
  rw [fails_just_head, h]; simpa using hc

theorem hd_of_just {c : Char} {eoi : Sp Nat} {s x} (h : (just c eoi s).out = .ok x) : Hd c s := by
  by_cases hh : Hd c s
  · exact hh
  · obtain ⟨e, he⟩ := (fails_just_head (c := c) (eoi := eoi) (s := s)).2 hh
    rw [h] at he; cases he

theorem off_one {c : Char} {sp : Sp Nat} {t : List (Tok Nat)} (h : (c, sp) :: t <:+ offsetToks 0 text) :
    off text t = off text ((c, sp) :: t) + c.utf8Size := by
  have := byteLen_suf h
  rw [chars_offsetToks] at this
  unfold off
  simp only [chars_cons, byteLen] at this ⊢
  omega

/-! ### Comments -/

theorem first_merge_unclosed {e : PErr Nat} {name oa o ea c} :
    first ((e.merge (.unclosed name oa o ea c .eoi)).getD e) = first e ∨
    first ((e.merge (.unclosed name oa o ea c .eoi)).getD e) = oa.start := by
  cases e <;> first | exact Or.inl rfl | exact Or.inr rfl

theorem r_mlComment : R text No Slash mlComment := by
  intro s hs
  unfold mlComment
  have hfl : Fl text (mlCommentRec (s.length + 1)) := fun _ => tr_mlCommentRec _
  have h1 := hfl.r s hs
  refine Rd.mapErrWithSpan (F1 := No) h1 ?_
  intro e he
  have h2 := h1.err e he
  have hflat : Flat text e := h2.2.2.resolve_right id
  unfold mlCommentErr
  split
  · rename_i hc
    simp only [Bool.and_eq_true, decide_eq_true_eq] at hc
    have hstart := since_start (t := (mlCommentRec (s.length + 1) (offsetEoi text) s).rest) hs
    have hS : Slash s := by
      obtain ⟨pre, post, h3, rfl⟩ := offset_suffix hs
      rw [Nat.zero_add] at *
      by_cases hst : ['/', '*'] <+: post
      · show _ <+: chars _
        rwa [chars_offsetToks]
      · exfalso
        obtain ⟨p, q, h4, h5⟩ := offset_since (eoi := offsetEoi text) (by
          rw [offsetEoi, h3]; simp [byteLen_append, Nat.add_assoc]) h1.suf
        obtain ⟨e', h5', h6⟩ := beginComment_short (eoi := offsetEoi text) (k := byteLen pre) hst (by
          have hl := hc.2
          rw [h5] at hl
          simp [Sp.length, Offset.byte] at hl
          rw [h4, byteLen_append]; omega)
        have h7 : (mlCommentRec ((offsetToks (byteLen pre) post).length + 1) (offsetEoi text)
            (offsetToks (byteLen pre) post)).out = .error e' := by
          rw [mlCommentRec_succ]
          exact bind_error_left (bind_error_left h5')
        have h8 : e = e' := by
          have := he.symm.trans h7
          injection this
        rw [h8, h6] at hc
        exact absurd hc.1 (by simp)
    refine ⟨?_, Or.inr hS⟩
    rcases first_merge_unclosed (e := e.err) with h | h
    · rw [h]; exact h2.2.1
    · rw [h]
      exact Nat.le_of_eq hstart.symm
  · exact ⟨h2.2.1, Or.inl hflat⟩

theorem R.mapErr {B F : List (Tok Nat) → Prop} {f : PErr Nat → PErr Nat} {p : P Nat α} (h : R text B F p)
    (hf : ∀ e, first (f e) = first e) : R text B F (Knuffel.mapErr f p) := fun s hs => (h s hs).mapErr hf

/-- Two alternatives of which the first records nothing. -/
theorem R.orP {B F1 F2 F : List (Tok Nat) → Prop} {p q : P Nat α} (h1 : R text B F1 p) (h2 : R text B F2 q) (hq : Quiet p)
    (hqp : ∀ s x, (q (offsetEoi text) s).out = .ok x → ¬ F1 s) (hF1 : ∀ s, F1 s → F s) (hF2 : ∀ s, F2 s → F s) :
    R text B F (Knuffel.orP p q) := by
  intro s hs
  refine Rd.orP hs (h1 s hs) (h2 s hs) (fun x _ => Or.inl (hq _ _)) (hqp s) ?_
  rintro (h | h)
  · exact hF1 s h
  · exact hF2 s h

theorem r_ws : R text No Slash ws := by
  refine R.mapErr ?_ first_withExpectedKind
  refine R.orP (F1 := No) (Fl.any (fun _ => tr_ignored (tr_repeatedB (tr_ignored (tr_filter _))))) r_mlComment ?_ (fun _ _ _ h => h)
    (fun _ h => h.elim) (fun _ h => h)
  exact quiet_ignored (quiet_repeatedB (quiet_ignored (quiet_filter _)))

/-- A repetition of what has flat alternatives only. -/
theorem R.star {F F' : List (Tok Nat) → Prop} {p : P Nat α} (h : R text No F p) (hq : FailQuiet p) : R text F F' (Knuffel.repeated p) :=
  (R.repeated h (fun _ _ h => h.elim) (fun s e h => hq _ s e h)).weaken (fun _ h => h.resolve_left id) (fun _ => id)

theorem fails_beginComment_of {c : Char} {s} (h : ¬ ['/', c] <+: chars s) : Fails (beginComment c) (offsetEoi text) s := by
  refine fails_of_quiet (quiet_beginComment _) ?_
  intro a t hok
  obtain ⟨alt, ho⟩ := hok.2.1
  exact h (beginComment_ok_prefix ho)

theorem fails_comment_of {s} (h : ¬ ['/', '/'] <+: chars s) : Fails comment (offsetEoi text) s :=
  fails_pmap.2 (fails_seq_left (fails_beginComment_of h))

theorem Slash.no {s} (h : Slash s) {c : Char} (hc : c ≠ '*') : ¬ ['/', c] <+: chars s := by
  obtain ⟨r, h⟩ := h
  rintro ⟨r', h'⟩
  rw [← h] at h'
  simp only [List.cons_append, List.nil_append, List.cons.injEq] at h'
  exact hc h'.2.1

theorem Hd.no {s} {d : Char} (h : Hd d s) (hd : d ≠ '/') {c : Char} : ¬ ['/', c] <+: chars s := by
  rintro ⟨r', h'⟩
  rw [Hd, ← h'] at h
  simp at h
  exact hd h.symm

theorem fails_newline_of_hd {s} {d : Char} (h : Hd d s) (hd : d ∉ newlineChars) : Fails newline (offsetEoi text) s := by
  refine fails_newline_iff.2 ?_
  intro c hc
  rw [h] at hc
  injection hc with hc
  subst hc; exact hd

/-- A sequence: after an alternative that is not flat the second fails. -/
theorem R.bindF {B B1 F F1 F2 : List (Tok Nat) → Prop} {p : P Nat α} {f : α → P Nat β} (h1 : R text B1 F1 p) (h2 : ∀ a, R text B F2 (f a))
    (hB : ∀ a s, s <:+ offsetToks 0 text → B1 s → Fails (f a) (offsetEoi text) s) (hF1 : ∀ s, F1 s → F s)
    (hF2 : ∀ s a alt, (p (offsetEoi text) s).out = .ok (a, alt) →
      B1 (p (offsetEoi text) s).rest ∨ F2 (p (offsetEoi text) s).rest → F s) :
    R text B F (Knuffel.bind p f) := by
  intro s hs
  have hr := (h1 s hs).suf.trans hs
  exact Rd.bind hs (Nat.le_refl _) (off_mono (h1 s hs).suf) (h1 s hs) (fun a alt _ => h2 a _ hr)
    (fun a alt _ hb y hy => nok (hB a _ hr hb) hy) (hF1 s) (hF2 s)

theorem ignoreThen_ok {p : P Nat α} {q : P Nat β} {eoi s x} (h : (ignoreThen p q eoi s).out = .ok x) :
    ∃ y, (p eoi s).out = .ok y := by
  cases ho : (p eoi s).out with
  | ok y => exact ⟨y, rfl⟩
  | error e => simp [ignoreThen, Knuffel.bind, ho] at h

theorem fl_just {c} : Fl text (just c) := fun _ => tr_just _
theorem fl_comment : Fl text comment := fun _ => tr_comment
theorem fl_newline : Fl text newline := fun _ => tr_newline
theorem fl_beginComment {c} : Fl text (beginComment c) := fun _ => tr_beginComment _

theorem escLine_ok {s x} (h : (escLine (offsetEoi text) s).out = .ok x) : Hd '\\' s := by
  obtain ⟨y, h⟩ := ignoreThen_ok h
  obtain ⟨y, h⟩ := ignoreThen_ok h
  exact hd_of_just h

theorem r_wss {F} : R text Slash F (repeated ws) := R.star r_ws quiet_ws.failQuiet

theorem r_escLine : R text No (Hd '\\') escLine := by
  refine R.bindF (B1 := Slash) (F1 := Hd '\\') (F2 := No) ?_ (fun _ => Fl.any (fun _ => tr_orP tr_comment tr_newline)) ?_ (fun _ => id) ?_
  · refine R.bind0 (F2 := No) fl_just.any (fun _ => r_wss) (fun _ _ _ _ h => h.elim)
  · intro _ s hs h
    exact fails_orP.2 ⟨fails_comment_of (h.no (by decide)), fails_newline_of_hd h.hd (by decide)⟩
  · intro s a alt h _
    obtain ⟨y, h⟩ := ignoreThen_ok h
    exact hd_of_just h

theorem hd_unique {c d : Char} {s} (h : Hd c s) (h2 : Hd d s) : c = d := by
  rw [Hd, h] at h2; injection h2

theorem r_nodeSpace : R text No Wall nodeSpace :=
  R.orP r_ws r_escLine quiet_ws (fun s x h hs => absurd (hd_unique (escLine_ok h) hs.hd) (by decide))
    (fun _ h => Or.inl h) (fun _ h => Or.inr h)

theorem r_nodeSpaces {F} : R text Wall F (repeated nodeSpace) := R.star r_nodeSpace quiet_nodeSpace.failQuiet

theorem comment_ok {s x} (h : (comment (offsetEoi text) s).out = .ok x) : ['/', '/'] <+: chars s := by
  by_cases hp : ['/', '/'] <+: chars s
  · exact hp
  · exact nok (fails_comment_of hp) h

theorem r_lineSpace : R text No Slash lineSpace := by
  refine R.orP (F1 := Slash) (F2 := No) ?_ fl_comment.any (quiet_orP quiet_newline quiet_ws) ?_ (fun _ => id) (fun _ h => h.elim)
  · exact R.orP (F1 := No) fl_newline.any r_ws quiet_newline (fun _ _ _ h => h) (fun _ h => h.elim) (fun _ => id)
  · intro s x h hs
    exact hs.no (by decide) (comment_ok h)

theorem r_lineSpaces {F} : R text Slash F (repeated lineSpace) := R.star r_lineSpace quiet_lineSpace.failQuiet

/-! ### Raw strings -/

theorem Rd.lower {B F : List (Tok Nat) → Prop} {a0 a1 o o' : Nat} {g} {s} {r : PRes Nat α} (h : Rd text a0 g o B F s r) (ha : a1 ≤ a0) (ho : o' ≤ o) :
    Rd text a1 g o' B F s r :=
  ⟨h.suf, fun x hx => (h.steps x hx).mono ha (Nat.le_refl _), h.ok, fun e he => ⟨(h.err e he).1, Nat.le_trans ho (h.err e he).2.1, (h.err e he).2.2⟩⟩

/-- What is flat and records nothing, between any places. -/
theorem Fl.rd {B F : List (Tok Nat) → Prop} {a0 o : Nat} {g} {s} {p : P Nat α} (h : Fl text p) (hs : s <:+ offsetToks 0 text)
    (ha : ∀ x, (p (offsetEoi text) s).out = .ok x → a0 ≤ g (p (offsetEoi text) s).rest) (ho : o ≤ off text s) :
    Rd text a0 g o B F s (p (offsetEoi text) s) := by
  have h1 := h s.length s ⟨hs, Nat.le_refl _⟩
  have h2 := h.any (B := B) (F := F) s hs
  have hnil : (p (offsetEoi text) s).errs = [] := by
    cases hl : (p (offsetEoi text) s).errs with
    | nil => rfl
    | cons e l => exact (h1.errs e (by show e ∈ (p (offsetEoi text) s).errs; simp [hl])).elim
  exact ⟨h2.suf, fun x hx => by rw [hnil]; exact ha x hx, h2.ok,
    fun e he => ⟨(h2.err e he).1, Nat.le_trans ho (h2.err e he).2.1, (h2.err e he).2.2⟩⟩

theorem off_takes {s t : List (Tok Nat)} {w : Str} (hs : s <:+ offsetToks 0 text) (h : Takes s w t) : off text t = off text s + byteLen w := by
  have h1 := byteLen_suf hs
  rw [chars_offsetToks] at h1
  have h2 := h.chars
  unfold off
  rw [h2, byteLen_append] at h1 ⊢
  omega

theorem r_rawString : R text No (Hd 'r') rawString := by
  refine R.pmap ?_
  intro s hs
  have hfl : Fl text (thenIgnore (ignoreThen (just 'r') (pmap List.length (repeated (just '#')))) (just '"')) := fun _ =>
    tr_thenIgnore (tr_ignoreThen (tr_just _) (tr_pmap (tr_repeated (tr_just _)))) (tr_just _)
  have h1 := hfl.r s hs
  refine Rd.bind (F2 := fun _ => True) hs (Nat.le_refl _) (Nat.le_refl _) h1 ?_ (fun _ _ _ h => h.elim) (fun h => h.elim) ?_
  · intro n alt ho
    have hT := rawStart_takes (Quiet.ok quiet_rawStart ho)
    have hs1 := h1.suf.trans hs
    have hoff := off_takes hs hT
    rw [byteLen_rawOpen] at hoff
    have hin : Fl text (takeUntil (ignoreThen (just '"') (ignored (repeatedB n (some n) (just '#'))))) := fun _ =>
      tr_takeUntil (tr_ignoreThen (tr_just _) (tr_ignored (tr_repeatedB (tr_just _))))
    have h2 := hin.r _ hs1
    refine Rd.mapErrWithSpan (F1 := No) (h2.lower (Nat.le_refl _) (by omega)) ?_
    intro e he
    refine ⟨?_, Or.inr trivial⟩
    have h3 := h2.err e he
    have hst := since_start (t := (takeUntil (ignoreThen (just '"') (ignored (repeatedB n (some n) (just '#')))) (offsetEoi text)
      (thenIgnore (ignoreThen (just 'r') (pmap List.length (repeated (just '#')))) (just '"') (offsetEoi text) s).rest).rest) hs1
    unfold rawStringErr
    split
    · rcases first_merge_unclosed (e := e.err) with h | h
      · rw [h]; omega
      · rw [h]
        show _ ≤ Offset.back _ _
        simp only [Offset.back]
        rw [hst]; omega
    · omega
  · intro n alt ho _
    have hT := rawStart_takes (Quiet.ok quiet_rawStart ho)
    rw [Hd, hT.chars]; rfl

/-! ### Strings with escapes -/

/-- The error is about the first character of the text. -/
def Point (text : Str) (u : List (Tok Nat)) (e : PErr Nat) : Prop := e.place = ⟨off text u, off text u.tail⟩

theorem max_place {K : Sp Nat → Prop} {a b : Loc Nat} (ha : K a.err.place) (hb : K b.err.place) : K (a.max b).err.place := by
  unfold Loc.max
  split
  · exact ha
  · split
    · exact hb
    · split
      · rename_i e he
        cases hae : a.err <;> cases hbe : b.err <;> rw [hae, hbe] at he <;> rw [hae] at ha <;> rw [hbe] at hb <;>
          simp only [PErr.merge, Option.some.injEq, reduceCtorEq] at he <;> subst he
        all_goals first
          | exact ha
          | exact hb
      · exact ha

theorem just_point {c : Char} {s e} (hs : s <:+ offsetToks 0 text) (h : (just c (offsetEoi text) s).out = .error e) : Point text s e.err := by
  unfold just at h
  split at h
  · rename_i x sp t
    split at h
    · simp [pok] at h
    · simp only [pfail, Except.error.injEq] at h
      subst h
      have := head_span hs
      show (⟨sp.start, sp.stop⟩ : Sp Nat) = _
      rw [this.1, this.2]; rfl
  · simp only [pfail, Except.error.injEq] at h
    subst h
    show (offsetEoi text) = _
    simp [offsetEoi, off_nil]

theorem hexDigit_point {s e} (hs : s <:+ offsetToks 0 text) (h : (filterMap hexDigit (offsetEoi text) s).out = .error e) : Point text s e.err := by
  unfold filterMap at h
  split at h
  · rename_i x sp t
    split at h
    · simp [pok] at h
    · rename_i e' he'
      simp only [pfail, Except.error.injEq] at h
      subst h
      have := head_span hs
      unfold hexDigit at he'
      split at he'
      · cases he'
      · injection he' with he'
        subst he'
        show (⟨sp.start, sp.stop⟩ : Sp Nat) = _
        rw [this.1, this.2]; rfl
  · simp only [pfail, Except.error.injEq] at h
    subst h
    show (offsetEoi text) = _
    simp [offsetEoi, off_nil]

theorem hexDigit_ok {eoi : Sp Nat} {s a alt} (h : (filterMap hexDigit eoi s).out = .ok (a, alt)) : alt = none := by
  unfold filterMap at h
  split at h
  · split at h
    · simp [pok] at h; exact h.2.symm
    · simp [pfail] at h
  · simp [pfail] at h

theorem hexDigits_point : ∀ fuel {outs pan s}, s <:+ offsetToks 0 text → 
    (∀ e, (repGo (filterMap hexDigit) 1 (some 6) (offsetEoi text) fuel outs [] none pan s).out = .error e → outs = [] → Point text s e.err) ∧
    (∀ e, (repGo (filterMap hexDigit) 1 (some 6) (offsetEoi text) fuel outs [] none pan s).out = .error e → outs = []) ∧
    (∀ a l, (repGo (filterMap hexDigit) 1 (some 6) (offsetEoi text) fuel outs [] none pan s).out = .ok (a, some l) →
      Point text (repGo (filterMap hexDigit) 1 (some 6) (offsetEoi text) fuel outs [] none pan s).rest l.err) := by
  intro fuel
  induction fuel with
  | zero => intro outs pan s hs; simp [repGo]
  | succ fuel ih =>
    intro outs pan s hs
    unfold repGo
    split
    · simp
    · simp only
      have hq : (filterMap hexDigit (offsetEoi text) s).errs = [] := quiet_filterMap _ _ _
      cases ho : (filterMap hexDigit (offsetEoi text) s).out with
      | ok x =>
        obtain ⟨a, alt⟩ := x
        have := hexDigit_ok ho
        subst this
        simp only [hq, List.append_nil, mergeAlts]
        split
        · have hsuf : (filterMap hexDigit (offsetEoi text) s).rest <:+ s := suf_filterMap _ _
          obtain ⟨-, h2, h3⟩ := ih (outs := outs ++ [a]) (pan := pan || (filterMap hexDigit (offsetEoi text) s).panicked || clashAlts none none) (hsuf.trans hs)
          exact ⟨fun e he _ => by simpa using h2 e he, fun e he => by simpa using h2 e he, h3⟩
        · simp
      | error e =>
        have hp := hexDigit_point hs ho
        simp only [hq, List.head?_nil, mergeAlts]
        split
        · rename_i hlt
          have : outs = [] := by cases outs with
            | nil => rfl
            | cons _ _ => simp at hlt
          simp [this, hp]
        · simp [hp]

theorem skipTo_takes {u : List Char} {s t : List (Tok Nat)} {w : Str} (h : Takes s w t) (hw : ∀ c ∈ w, u.contains c = false) :
    skipTo u s = skipTo u t := by
  obtain ⟨pre, rfl, rfl⟩ := h
  induction pre with
  | nil => rfl
  | cons x pre ih =>
    have : u.contains x.1 = false := hw x.1 (by simp)
    simp only [List.cons_append, skipTo, this]
    exact ih (fun c hc => hw c (by simp at hc ⊢; exact Or.inr hc))

theorem tail_of_suf {s t : List (Tok Nat)} (h : t <:+ s) : t.tail <:+ s.tail := by
  cases s with
  | nil => have : t = [] := by simpa using h
           subst this; exact List.suffix_rfl
  | cons x s =>
    rcases List.suffix_cons_iff.1 h with rfl | h
    · exact List.suffix_rfl
    · exact (List.tail_suffix t).trans h

theorem off_tail_lt {u : List (Tok Nat)} (hu : u <:+ offsetToks 0 text) (hne : u ≠ []) : off text u < off text u.tail := by
  cases u with
  | nil => exact absurd rfl hne
  | cons x u =>
    have h1 := byteLen_suf hu
    rw [chars_offsetToks] at h1
    have h2 := x.1.utf8Size_pos
    have h3 : byteLen (chars (x :: u)) = x.1.utf8Size + byteLen (chars u) := rfl
    simp only [off, List.tail_cons]
    omega

theorem off_lt {s t : List (Tok Nat)} (hs : s <:+ offsetToks 0 text) (h : t <:+ s) (hlt : t.length < s.length) : off text s < off text t := by
  have hne : s ≠ [] := by rintro rfl; simp at hlt
  refine Nat.lt_of_lt_of_le (off_tail_lt hs hne) (off_mono ?_)
  cases s with
  | nil => exact absurd rfl hne
  | cons x s =>
    rcases List.suffix_cons_iff.1 h with rfl | h
    · simp at hlt
    · exact h

theorem skipTo_ne {u : List Char} {s t : List (Tok Nat)} (h : skipTo u s = some t) : t ≠ [] := by
  induction s with
  | nil => simp [skipTo] at h
  | cons x s ih =>
    simp only [skipTo] at h
    split at h
    · injection h with h; subst h; simp
    · exact ih h

theorem point_between {s u t : List (Tok Nat)} {e : PErr Nat} (hp : Point text u e) (hs : s <:+ offsetToks 0 text) (hu : u <:+ s)
    (ht : t <:+ u) (hne : t ≠ []) : off text s ≤ first e ∧ first e < last e ∧ last e ≤ off text t.tail := by
  have h1 : first e = off text u := by rw [first, hp]
  have h2 : last e = off text u.tail := by rw [last, hp]
  rw [h1, h2]
  refine ⟨off_mono hu, off_tail_lt (hu.trans hs) ?_, off_mono (tail_of_suf ht)⟩
  rintro rfl
  exact hne (by simpa using ht)

theorem hexDigit_plain : ∀ c ∈ hexDigits.map Prod.fst, (['}', '"', '\\'] : List Char).contains c = false := by decide

theorem hex_error {s t e} (hs : s <:+ offsetToks 0 text)
    (h : (tryMap hexToChar hexBraces (offsetEoi text) s).out = .error e) (ht : skipTo ['}', '"', '\\'] s = some t) :
    off text s ≤ first e.err ∧ first e.err < last e.err ∧ last e.err ≤ off text t.tail := by
  have hne := skipTo_ne ht
  cases ho : (hexBraces (offsetEoi text) s).out with
  | ok x =>
    obtain ⟨a, alt⟩ := x
    have hok := Quiet.ok quiet_hexBraces ho
    simp only [tryMap, ho] at h
    split at h
    · cases h
    · rename_i e' hc
      injection h with h
      unfold hexToChar at hc
      split at hc
      · cases hc
      injection hc with hc
      subst hc
      unfold hexBraces at hok
      obtain ⟨_, t1, _, t2, h1, h2, h3⟩ := ok_delimitedBy.1 hok
      obtain ⟨h1', -⟩ := ok_just_takes.1 h1
      obtain ⟨h3', -⟩ := ok_just_takes.1 h3
      obtain ⟨h2', h4⟩ := ok_repeatedB eats_hexDigit.consumes h2
      obtain ⟨h5, hd⟩ := reps_hexDigit.1 h2'
      have hT := h1'.trans h5
      rw [skipTo_takes hT (by
        intro c hc
        rcases List.mem_append.1 hc with hc | hc
        · simp at hc; subst hc; decide
        · exact hexDigit_plain c (hd c hc))] at ht
      obtain ⟨p, rfl, hp⟩ := h3'
      obtain ⟨y, rfl⟩ : ∃ y, p = [y] := by
        cases p with
        | nil => simp at hp
        | cons y p => cases p with
          | nil => exact ⟨y, rfl⟩
          | cons _ _ => simp at hp
      simp at hp
      simp only [List.cons_append, List.nil_append, skipTo, hp] at ht
      simp only [List.contains_cons, beq_self_eq_true, Bool.true_or, if_true, Option.some.injEq] at ht
      subst ht
      have hT2 := hT.trans (⟨[y], rfl, by simp [hp]⟩ : Takes ([y] ++ (delimitedBy (repeatedB 1 (some 6) (filterMap hexDigit)) (just '{') (just '}') (offsetEoi text) s).rest) ['}'] _)
      have hlen := hT2.length
      have hsuf : (hexBraces (offsetEoi text) s).rest <:+ s := by
        obtain ⟨q, hq, _⟩ := hT2
        exact ⟨q, hq.symm⟩
      have hst := since_start (t := (hexBraces (offsetEoi text) s).rest) hs
      have hsp := since_stop hs hsuf (by
        simp only [hexBraces]; simp at hlen ⊢; omega)
      subst h
      have h1 : first (PErr.message (some "invalid character code".toList) (spanSince (offsetEoi text) s (hexBraces (offsetEoi text) s).rest)
          "converted integer out of range for `char`".toList) = off text s := hst
      have h2 : last (PErr.message (some "invalid character code".toList) (spanSince (offsetEoi text) s (hexBraces (offsetEoi text) s).rest)
          "converted integer out of range for `char`".toList) = off text (hexBraces (offsetEoi text) s).rest := hsp
      exact ⟨Nat.le_of_eq h1.symm, by rw [h1, h2]; exact off_lt hs hsuf (by
        simp only [hexBraces]; simp at hlen ⊢; omega), Nat.le_of_eq h2⟩
  | error e' =>
    simp only [tryMap, ho, Except.error.injEq] at h
    subst h
    rcases bind_error_inv ho with ho | ⟨a, alt, e2, h1, h2, h3⟩
    · rcases bind_error_inv ho with ho | ⟨a, alt, e2, h1, h2, h3⟩
      · exact point_between (just_point hs ho) hs List.suffix_rfl (skipTo_suf ht) hne
      · obtain ⟨hT, -⟩ := ok_just_takes.1 (Quiet.ok (quiet_just _) h1)
        have hsuf : (just '{' (offsetEoi text) s).rest <:+ s := suf_just _ _
        have halt : alt = none := (just_ok_head h1).2.2
        subst halt
        have hp := ((hexDigits_point _ (hsuf.trans hs)).1 e2 h2 rfl)
        rw [skipTo_takes hT (by intro c hc; simp at hc; subst hc; decide)] at ht
        rw [h3]
        exact point_between hp hs hsuf (skipTo_suf ht) hne
    · have hsuf := suf_ignoreThen suf_just (suf_repeatedB suf_filterMap) (offsetEoi text) s (p := just '{') (q := repeatedB 1 (some 6) (filterMap hexDigit))
      have hok := Quiet.ok (quiet_ignoreThen (quiet_just _) (quiet_repeatedB (quiet_filterMap _))) h1
      obtain ⟨_, t1, h4, h5⟩ := ok_ignoreThen.1 hok
      obtain ⟨h4', -⟩ := ok_just_takes.1 h4
      obtain ⟨h5', -⟩ := ok_repeatedB eats_hexDigit.consumes h5
      obtain ⟨h6, hd⟩ := reps_hexDigit.1 h5'
      rw [skipTo_takes (h4'.trans h6) (by
        intro c hc
        rcases List.mem_append.1 hc with hc | hc
        · simp at hc; subst hc; decide
        · exact hexDigit_plain c (hd c hc))] at ht
      have hp2 := just_point (hsuf.trans hs) (pmap_error.1 h2)
      have hpt : Point text (ignoreThen (just '{') (repeatedB 1 (some 6) (filterMap hexDigit)) (offsetEoi text) s).rest e'.err := by
        rw [h3]
        cases alt with
        | none => exact hp2
        | some l =>
          refine max_place (K := fun p => p = _) hp2 ?_
          obtain ⟨b, alt1, alt2, h7, h8, h9, h10⟩ := bind_ok_inv h1
          have := (just_ok_head h7).2.2
          simp only at this
          subst this
          simp only [mergeAlts] at h9
          subst h9
          have hs1 : (just '{' (offsetEoi text) s).rest <:+ s := suf_just _ _
          have := (hexDigits_point _ (hs1.trans hs)).2.2 a l h8
          unfold ignoreThen
          rw [h10]
          exact this
      exact point_between hpt hs hsuf (skipTo_suf ht) hne

/-- The place after the first character. -/
def offTail (text : Str) (s : List (Tok Nat)) : Nat := off text s.tail

theorem Rd.any {F : List (Tok Nat) → Prop} {a0 o : Nat} {g} {s} {r : PRes Nat α} {B} (h : Rd text a0 g o B F s r) : Rd text a0 g o B (fun _ => True) s r :=
  h.weaken id (fun _ => trivial)

theorem rd_hex {s} (hs : s <:+ offsetToks 0 text) :
    Rd text (off text s) (offTail text) (off text s) No (fun _ => True) s
      (recoverSkipUntil ['}', '"', '\\'] '\x00' (tryMap hexToChar hexBraces) (offsetEoi text) s) := by
  have hfl : Fl text hexBraces := fun n => by
    refine tr_delimitedBy (tr_repeatedB (tr_filterMap ?_)) (tr_just _) (tr_just _)
    intro sp c t e hI h
    unfold hexDigit at h
    split at h
    · simp at h
    · injection h with h; subst h; exact (flatW text n).chQ hI
  have h0 := hfl.r s hs
  have h1 : Rd text (off text s) (off text) (off text s) No (fun _ => True) s (tryMap hexToChar hexBraces (offsetEoi text) s) := by
    refine Rd.tryMap h0.any ?_
    intro a alt e ho he
    refine ⟨?_, trivial⟩
    unfold hexToChar at he
    split at he
    · cases he
    · injection he with he
      subst he
      exact Nat.le_of_eq (since_start hs).symm
  have hq : (tryMap hexToChar hexBraces (offsetEoi text) s).errs = [] := quiet_tryMap quiet_hexBraces _ _
  unfold recoverSkipUntil
  simp only [hq, List.nil_append]
  cases ho : (tryMap hexToChar hexBraces (offsetEoi text) s).out with
  | ok x =>
    simp only
    refine ⟨h1.suf, fun _ _ => ?_, ?_, ?_⟩
    · exact Nat.le_trans (off_mono h1.suf) (off_mono (List.tail_suffix _))
    · intro a alt hx
      simp only [Except.ok.injEq] at hx
      exact h1.ok a alt (by rw [ho, hx])
    · intro e he; cases he
  | error e =>
    simp only
    cases hk : skipTo ['}', '"', '\\'] s with
    | some t =>
      simp only
      have := hex_error hs ho hk
      refine ⟨skipTo_suf hk, fun _ _ => ⟨this.1, this.2.1, this.2.2⟩, ?_, ?_⟩
      · intro a alt hx l hl
        simp only [Except.ok.injEq, Prod.mk.injEq] at hx
        rw [← hx.2] at hl; cases hl
      · intro e he; cases he
    | none =>
      simp only
      refine ⟨List.nil_suffix, ?_, ?_, ?_⟩
      · intro x hx; cases hx
      · intro a alt hx; cases hx
      · intro e' he'
        simp only [Except.error.injEq] at he'
        subst he'
        have := h1.err e ho
        exact ⟨this.1, this.2.1, Or.inr trivial⟩

theorem off_le_tail (s : List (Tok Nat)) : off text s ≤ offTail text s := off_mono (List.tail_suffix _)

theorem just_tail {c : Char} {s x} (h : (just c (offsetEoi text) s).out = .ok x) : (just c (offsetEoi text) s).rest = s.tail := by
  unfold just at h ⊢
  cases s with
  | nil => simp [pfail] at h
  | cons y t =>
    obtain ⟨d, sp⟩ := y
    simp only at h ⊢
    split
    · rfl
    · rename_i hn; simp [hn, pfail] at h

theorem rd_escChar {s} (hs : s <:+ offsetToks 0 text) :
    Rd text (off text s) (offTail text) (off text s) No (fun _ => True) s (escChar (offsetEoi text) s) := by
  have hfl : Fl text (filterMap escSimple) := fun n => by
    refine tr_filterMap ?_
    intro sp c t e hI h
    unfold escSimple at h
    repeat' split at h
    all_goals first | (simp at h; done) | (injection h with h; subst h; exact (flatW text n).chQ hI)
  refine Rd.orP (F1 := No) (F2 := fun _ => True) hs ?_ ?_ (fun _ _ => Or.inl (quiet_filterMap _ _ _)) (fun _ _ h => h) (fun _ => trivial)
  · exact hfl.rd hs (fun x hx => Nat.le_trans (off_mono (suf_filterMap _ _)) (off_le_tail _)) (Nat.le_refl _)
  · have hj : R text No No (just 'u') := fl_just.r
    refine Rd.bind hs (Nat.le_refl _) (off_mono (hj s hs).suf) (hj s hs) (fun a alt ho => rd_hex ((hj s hs).suf.trans hs)) (fun _ _ _ h => h.elim)
      (fun h => trivial) (fun _ _ _ _ => trivial)

theorem rg_strChar : RG text (offTail text) No (Hd '\\') strChar := by
  intro s hs
  have hfl : Fl text (filter fun c => c != '"' && c != '\\') := fun _ => tr_filter _
  refine Rd.orP (F1 := No) (F2 := Hd '\\') hs ?_ ?_ (fun _ _ => Or.inl (quiet_filter _ _ _)) (fun _ _ h => h) (fun h => h.resolve_left id)
  · exact hfl.rd hs (fun x hx => off_mono (tail_of_suf (hfl.r s hs).suf)) (Nat.le_refl _)
  · refine Rd.bind (B1 := No) (F1 := No) (g1 := off text) hs (Nat.le_refl _) (off_mono (suf_just _ _)) (fl_just.rd hs ?_ (Nat.le_refl _))
      (fun a alt ho => rd_escChar ((suf_just _ _).trans hs)) (fun _ _ _ h => h.elim) (fun h => h.elim) ?_
    · intro x hx; rw [just_tail hx]; exact Nat.le_refl _
    · intro a alt ho _
      exact hd_of_just ho

theorem r_escapedString : R text No (Hd '"') escapedString := by
  intro s hs
  refine Rd.bind (B1 := No) (F1 := No) (g1 := offTail text) (o2 := off text s) (F2 := fun _ => True) hs (Nat.le_refl _) (Nat.le_refl _) (fl_just.rd hs ?_ (Nat.le_refl _)) ?_ (fun _ _ _ h => h.elim)
    (fun h => h.elim) (fun a alt ho _ => hd_of_just ho)
  · intro x hx
    exact Nat.le_trans (off_mono (suf_just _ _)) (off_le_tail _)
  · intro a alt ho
    have hs1 : (just '"' (offsetEoi text) s).rest <:+ offsetToks 0 text := (suf_just _ _).trans hs
    have hT := ok_just_takes.1 (Quiet.ok (quiet_just _) ho)
    have hoff : off text (just '"' (offsetEoi text) s).rest = off text s + 1 := by
      rw [off_takes hs hT.1]; rfl
    have hst := RG.repeatedB (mn := 0) (by omega) rg_strChar (fun _ _ h => h.elim) (fun s e h => failQuiet_strChar _ s e h) _ hs1
    have h2 : Rd text (offTail text (just '"' (offsetEoi text) s).rest) (off text) (off text (just '"' (offsetEoi text) s).rest) No (fun _ => True) (just '"' (offsetEoi text) s).rest
        (thenIgnore (repeated strChar) (just '"') (offsetEoi text) (just '"' (offsetEoi text) s).rest) := by
      refine Rd.bind (F2 := No) hs1 (Nat.le_refl _) (off_mono hst.suf) hst ?_ ?_ (fun _ => trivial) (fun _ _ _ _ => trivial)
      · intro b alt2 ho2
        refine Rd.pmap (fl_just.rd (hst.suf.trans hs1) ?_ (Nat.le_refl _))
        intro x hx
        rw [just_tail hx]; exact Nat.le_refl _
      · intro b alt2 ho2 hb y hy
        rcases hb with hb | hb
        · exact hb.elim
        · exact nok (fails_pmap.2 (fails_just_of_hd hb (by decide))) hy
    refine Rd.mapErrWithSpan (F1 := fun _ => True) (h2.lower (Nat.le_refl _) (by omega)) ?_
    intro e he
    refine ⟨?_, Or.inr trivial⟩
    have h3 := h2.err e he
    have hst := since_start (t := (thenIgnore (repeated strChar) (just '"') (offsetEoi text) (just '"' (offsetEoi text) s).rest).rest) hs1
    unfold stringErr
    split
    · rcases first_merge_unclosed (e := e.err) with h | h
      · rw [h]; omega
      · rw [h]
        show _ ≤ Offset.back _ _
        simp only [Offset.back]
        rw [hst]; omega
    · omega

theorem r_string : R text No (fun s => Hd 'r' s ∨ Hd '"' s) string :=
  R.orP r_rawString r_escapedString quiet_rawString (by
    intro s x h hr
    obtain ⟨y, h⟩ := ignoreThen_ok h
    exact absurd (hd_unique hr (hd_of_just h)) (by decide)) (fun _ => Or.inl) (fun _ => Or.inr)

end Knuffel.Ordered
