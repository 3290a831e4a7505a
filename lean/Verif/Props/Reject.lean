import Verif.Theory.Reject
import Verif.Theory.Strict
import Verif.Props.Meaning
import Verif.Props.Total
/-!
# Rejected texts

C49 (what follows a legal beginning must fit), C09 (invalid escapes), C16 (bare
words are no values), C17 (numbers and keywords are no names), C19 (block
comments), C25 (bare property names), C26 (string literals as node names).
-/

namespace Knuffel
open Cst

/-- `parse_ast` returns an error. -/
def Rejected (text : Str) : Prop := ∃ errs, parseAst text = some (.error errs)

theorem rejected_of {text : Str} (h : ∀ d, parseAst text ≠ some (.ok d)) : Rejected text := by
  obtain ⟨r, hr⟩ := c01_parse_total text
  cases r with
  | ok d => exact absurd hr (h d)
  | error e => exact ⟨e, hr⟩

/-! ### C49 -/

/-- **C49.** If a text begins with a legal beginning `o`, and what follows (not
space) is not what is expected there, the text is rejected. -/
theorem c49_must_fit (o : Open) (w : Str) (ho : o.Ok w) (hb : Begins w) (hf : ¬ Fits w o.slot) :
    Rejected (o.text ++ w) := rejected_of (reject ho hb hf)

/-- The beginning `n 1 k=` of a text. -/
def openDemo (key : Option PropName) (vty : Option Name) : Open :=
  .after [] none (.mk none (.bare ['a']) [] .none [] .semicolon)
    (.inside [.newline .lf] none none (.quoted [.plain 'b']) [] [.ws (.char ' ')] none
      (.entry [] none none (.bare ['n']) [⟨[.ws (.char ' ')], none, .arg ⟨none, .num (.dec none '1' [] none none)⟩⟩]
        [.ws (.char ' ')] none key vty))

theorem openDemo_text : (openDemo none none).text = "a;\n\"b\" {n 1 ".toList := by decide

theorem ident1 {c : Char} (h : isIdSansDig c = true) (hk : [c] ∉ keywords) : BareIdent [c] :=
  ⟨Or.inr (Or.inr (isIdSansDig_iff.1 h)), hk⟩

theorem blank_ok {f : Str} : Space.Ok true f (.ws (.char ' ')) := by simp [Space.Ok, Ws.Ok, wsChars]

theorem openDemo_ok (key : Option PropName) (vty : Option Name) (w : Str) (hk : ∀ k, key = some k → k.Ok) (hv : TyOk vty) :
    (openDemo key vty).Ok w := by
  have ha : BareIdent ['a'] := ident1 (by decide) (by decide)
  have hn : BareIdent ['n'] := ident1 (by decide) (by decide)
  refine ⟨trivial, trivial, ⟨trivial, ha, by simp [NameStartOk], by simp [NameEndOk, itemsText, spacesText, ChildrenC.text, Term.text],
    trivial, trivial, trivial, trivial⟩,
    ⟨trivial, trivial⟩, trivial, trivial, ?_, trivial, trivial, trivial, ⟨blank_ok, trivial⟩, trivial,
    trivial, trivial, trivial, hn, by simp [NameStartOk], ?_, ⟨⟨by simp, ⟨blank_ok, trivial⟩, trivial, trivial, ?_⟩, trivial⟩,
    by simp, ⟨blank_ok, trivial⟩, trivial, hk, hv⟩
  · intro c hc; simp at hc; subst hc; exact ⟨by decide, by decide⟩
  · simp [NameEndOk, itemsText, Item.text, spacesText, Space.text, Ws.text]
  · refine ⟨Or.inl rfl, by decide, by simp [DigitsOk], by simp, by simp⟩

/-- `]` is no literal. -/
theorem no_bracket : ¬ Fits [']'] .literal := by
  rintro ⟨l, f, hl, h, -⟩
  cases l with
  | str sl =>
    rcases strLit_text_head sl with hh | ⟨m, w, hw⟩
    · obtain ⟨w, hw⟩ := head_eq_some.1 hh
      simp only [Lit.text] at h
      rw [hw] at h
      simp at h
    · simp only [Lit.text] at h
      rw [← hw] at h
      simp at h
  | null => simp [Lit.text] at h
  | bool b => cases b <;> simp [Lit.text] at h
  | num n =>
    obtain ⟨c, r, hc, hm⟩ := notStr_head (l := .num n) hl trivial
    rw [hc] at h
    simp at h
    rw [← h.1] at hm
    revert hm; decide

/-- `a;\n"b" {n 1 (t)]` is rejected. -/
example : Rejected ((openDemo none (some (.bare ['t']))).text ++ [']']) :=
  c49_must_fit _ _ (openDemo_ok none (some (.bare ['t'])) _ (by simp) (ident1 (by decide) (by decide)))
    ⟨']', [], rfl, by decide, by decide, by decide⟩ no_bracket

/-! ### C09 -/

theorem badString_begins {w : Str} (h : BadString w) : Begins w := by
  obtain ⟨good, bad, -, rfl, -⟩ := h
  exact ⟨'"', _, rfl, by decide, by decide, by decide⟩

theorem badString_quoted {w f : Str} {l : List StrChar} (h : BadString w) (hl : ∀ c ∈ l, c.Ok) : w ≠ quotedText l ++ f := by
  obtain ⟨good, bad, hg, rfl, hb⟩ := h
  intro h
  refine no_quoted hg hl hb (rest := f) ?_
  simpa [quotedText] using h

theorem badString_head {w : Str} (h : BadString w) : ∃ r, w = '"' :: r := by
  obtain ⟨good, bad, -, rfl, -⟩ := h
  exact ⟨_, rfl⟩

theorem badString_strLit {w f : Str} {sl : StrLit} (h : BadString w) (hl : sl.Ok) : w ≠ sl.text ++ f := by
  cases sl with
  | quoted l => exact badString_quoted h hl
  | raw n b =>
    obtain ⟨r, rfl⟩ := badString_head h
    simp [StrLit.text]

theorem badString_ident {w f v : Str} (h : BadString w) (hv : IdentShape v) : w ≠ v ++ f := by
  obtain ⟨r, rfl⟩ := badString_head h
  intro h
  cases v with
  | nil => exact hv
  | cons c v =>
    simp at h
    exact identShape_not_mem hv (c := '"') (by decide) (by rw [h.1]; simp)

theorem badString_lit {w f : Str} {l : Lit} (h : BadString w) (hl : l.Ok) : w ≠ l.text ++ f := by
  cases l with
  | str sl => exact badString_strLit h hl
  | _ =>
    obtain ⟨r, rfl⟩ := badString_head h
    intro h
    obtain ⟨c, r', hc, hm⟩ := notStr_head hl trivial
    rw [hc] at h
    simp at h
    rw [← h.1] at hm
    revert hm; decide

theorem badString_val {w f : Str} {v : Val} (h : BadString w) (hv : v.Ok) : w ≠ v.text ++ f := by
  obtain ⟨ty, l⟩ := v
  cases ty with
  | none => exact badString_lit h hv.2
  | some m =>
    obtain ⟨r, rfl⟩ := badString_head h
    simp [Val.text, tyText]

theorem badString_fits {w : Str} (h : BadString w) (s : Slot) : ¬ Fits w s := by
  cases s with
  | node =>
    rintro ⟨ty, n, f, h1, h2, h3, -⟩
    cases ty with
    | none =>
      cases n with
      | bare v => exact badString_ident h h2.1 (f := f) (by simpa [tyText, Name.text] using h3)
      | quoted l => exact badString_quoted h h2 (f := f) (by simpa [tyText, Name.text] using h3)
    | some m =>
      obtain ⟨r, rfl⟩ := badString_head h
      simp [tyText] at h3
  | entry =>
    rintro ⟨e, f, h1, h2, -⟩
    cases e with
    | arg v => exact badString_val h h1 h2
    | prop k v =>
      cases k with
      | bare k => exact badString_ident h h1.1.1.1 (f := '=' :: v.text ++ f) (by simpa [Entry.text, PropName.text] using h2)
      | str sl => exact badString_strLit h h1.1 (f := '=' :: v.text ++ f) (by simpa [Entry.text, PropName.text] using h2)
  | value =>
    rintro ⟨v, f, h1, h2, -⟩
    exact badString_val h h1 h2
  | literal =>
    rintro ⟨l, f, h1, h2, -⟩
    exact badString_lit h h1 h2

/-- **C09.** Wherever a string, a name, a value or an entry is expected: if the text
goes on with a quoted string that contains, after any legal characters, a backslash
which does not begin a legal escape, the text is rejected. -/
theorem c09_bad_escape (o : Open) (w : Str) (ho : o.Ok w) (hw : BadString w) : Rejected (o.text ++ w) :=
  c49_must_fit o w ho (badString_begins hw) (badString_fits hw _)

/-- **C09**, for a quoted type name (of a node, if a node is expected, otherwise of a
value). -/
theorem c09_bad_escape_type (o : Open) (w : Str) (ho : o.Ok ('(' :: w)) (hw : BadString w) :
    Rejected (o.text ++ '(' :: w) := by
  refine c49_must_fit o _ ho ⟨'(', w, rfl, by decide, by decide, by decide⟩ ?_
  have hty : ∀ (m : Name) f, m.Ok → '(' :: w ≠ tyText (some m) ++ f := by
    intro m f hm h
    cases m with
    | bare v => exact badString_ident hw hm.1 (f := ')' :: f) (by simpa [tyText, Name.text] using h)
    | quoted l => exact badString_quoted hw hm (f := ')' :: f) (by simpa [tyText, Name.text] using h)
  have hlit : ∀ (l : Lit) f, l.Ok → '(' :: w ≠ l.text ++ f := by
    intro l f hl h
    cases l with
    | str sl => cases sl <;> simp [Lit.text, StrLit.text, quotedText] at h
    | _ =>
      obtain ⟨c, r', hc, hm⟩ := notStr_head hl trivial
      rw [hc] at h
      simp at h
      rw [← h.1] at hm
      revert hm; decide
  have hval : ∀ (v : Val) f, v.Ok → '(' :: w ≠ v.text ++ f := by
    rintro ⟨ty, l⟩ f hv h
    cases ty with
    | none => exact hlit l f hv.2 h
    | some m => exact hty m (l.text ++ f) hv.1 (by simpa [Val.text] using h)
  have hid : ∀ v f, IdentShape v → '(' :: w ≠ v ++ f := by
    intro v f hv h
    cases v with
    | nil => exact hv
    | cons c v =>
      simp at h
      exact identShape_not_mem hv (c := '(') (by decide) (by rw [h.1]; simp)
  cases o.slot with
  | node =>
    rintro ⟨ty, n, f, h1, h2, h3, -⟩
    cases ty with
    | none =>
      cases n with
      | bare v => exact hid v f h2.1 (by simpa [tyText, Name.text] using h3)
      | quoted l => simp [tyText, Name.text, quotedText] at h3
    | some m => exact hty m (n.text ++ f) h1 (by simpa using h3)
  | entry =>
    rintro ⟨e, f, h1, h2, -⟩
    cases e with
    | arg v => exact hval v f h1 h2
    | prop k v =>
      cases k with
      | bare k => exact hid k ('=' :: v.text ++ f) h1.1.1.1 (by simpa [Entry.text, PropName.text] using h2)
      | str sl => cases sl <;> simp [Entry.text, PropName.text, StrLit.text, quotedText] at h2
  | value =>
    rintro ⟨v, f, h1, h2, -⟩
    exact hval v f h1 h2
  | literal =>
    rintro ⟨l, f, h1, h2, -⟩
    exact hlit l f h1 h2

/-- No legal escape: a backslash before a character that is neither a short escape
nor `u`. -/
theorem c09_short (c : Char) (r : Str) (hc : c ∉ escapes.map Prod.fst) (hu : c ≠ 'u') :
    ∀ e, StrChar.Ok e → ¬ e.text <+: '\\' :: c :: r := by
  rintro e he ⟨x, hx⟩
  cases e with
  | plain c' => simp [StrChar.text] at hx; exact he.2 hx.1
  | esc c' => simp [StrChar.text] at hx; rw [hx.1] at he; exact hc he
  | unicode h => simp [StrChar.text] at hx; exact hu hx.1.symm

example : ∀ e, StrChar.Ok e → ¬ e.text <+: "\\x41".toList := c09_short 'x' "41".toList (by decide) (by decide)

/-- No legal escape: `\u` without an opening brace. -/
theorem c09_no_brace (r : Str) (hr : r.head? ≠ some '{') : ∀ e, StrChar.Ok e → ¬ e.text <+: '\\' :: 'u' :: r := by
  rintro e he ⟨x, hx⟩
  cases e with
  | plain c' => simp [StrChar.text] at hx; exact he.2 hx.1
  | esc c' => simp [StrChar.text] at hx; rw [hx.1] at he; revert he; simp [StrChar.Ok, escapes]
  | unicode h =>
    simp [StrChar.text] at hx
    rw [← hx] at hr
    simp at hr

example : ∀ e, StrChar.Ok e → ¬ e.text <+: "\\u0041".toList := c09_no_brace "0041".toList (by decide)

/-- No legal escape: `\u{h}` with anything but one to six hexadecimal digits that
denote a Unicode scalar value (no surrogate, at most 10FFFF). -/
theorem c09_unicode (h r : Str) (hb : '}' ∉ h)
    (hbad : ¬ (1 ≤ h.length ∧ h.length ≤ 6 ∧ (∀ c ∈ h, c ∈ hexDigits.map Prod.fst) ∧ (hexNumber h).isValidChar)) :
    ∀ e, StrChar.Ok e → ¬ e.text <+: '\\' :: 'u' :: '{' :: h ++ '}' :: r := by
  rintro e he ⟨x, hx⟩
  cases e with
  | plain c' => simp [StrChar.text] at hx; exact he.2 hx.1
  | esc c' => simp [StrChar.text] at hx; rw [hx.1] at he; revert he; simp [StrChar.Ok, escapes]
  | unicode k =>
    have heq : k ++ '}' :: x = h ++ '}' :: r := by simpa [StrChar.text] using hx
    have hk : k = h := by
      have hx : ∀ c ∈ hexDigits.map Prod.fst, c ≠ '}' := by decide
      rcases List.append_eq_append_iff.1 heq with ⟨z, h1, h2⟩ | ⟨z, h1, h2⟩
      · cases z with
        | nil => simpa using h1.symm
        | cons c z => simp at h2; rw [h1, ← h2.1] at hb; simp at hb
      · cases z with
        | nil => simpa using h1
        | cons c z =>
          simp at h2
          exact absurd h2.1.symm (hx c (he.2.2.1 c (by rw [h1]; simp)))
    subst hk
    obtain ⟨h1, h2, h3, h4⟩ := he
    exact hbad ⟨h1, h2, h3, h4⟩

/-- Seven digits. -/
example : ∀ e, StrChar.Ok e → ¬ e.text <+: "\\u{0000041} ".toList := c09_unicode "0000041".toList " ".toList (by decide) (by simp)

/-- No legal escape: `\u{` that is never closed. -/
theorem c09_unclosed (r : Str) (hb : '}' ∉ r) : ∀ e, StrChar.Ok e → ¬ e.text <+: '\\' :: 'u' :: '{' :: r := by
  rintro e he ⟨x, hx⟩
  cases e with
  | plain c' => simp [StrChar.text] at hx; exact he.2 hx.1
  | esc c' => simp [StrChar.text] at hx; rw [hx.1] at he; revert he; simp [StrChar.Ok, escapes]
  | unicode k =>
    simp [StrChar.text] at hx
    rw [← hx] at hb
    simp at hb

example : ∀ e, StrChar.Ok e → ¬ e.text <+: "\\u{41\"".toList := c09_unclosed "41\"".toList (by decide)

/-- An unknown escape in the type of a node. -/
example : Rejected "(\"\\x\"".toList :=
  c09_bad_escape_type (.node [] none) "\"\\x\"".toList ⟨trivial, trivial⟩
    ⟨[], "x\"".toList, by simp, rfl, c09_short 'x' ['"'] (by decide) (by decide)⟩

/-- A surrogate in a property value. -/
example : Rejected ((openDemo (some (.bare ['k'])) none).text ++ "\"x\\n\\u{d800}y\"".toList) := by
  refine c09_bad_escape _ _ (openDemo_ok _ _ _ ?_ trivial) ⟨[.plain 'x', .esc 'n'], "u{d800}y\"".toList, ?_, by decide, ?_⟩
  · intro k hk
    injection hk with hk; subst hk
    exact ⟨ident1 (by decide) (by decide), by decide, by decide⟩
  · intro c hc
    simp at hc
    rcases hc with rfl | rfl
    · exact ⟨by decide, by decide⟩
    · unfold StrChar.Ok; decide
  · exact c09_unicode "d800".toList "y\"".toList (by decide) (by simp [hexNumber, hexVal, hexDigits, Nat.isValidChar, List.lookup])

/-! ### C16 -/

theorem word_begins {k f : Str} (hk : BareIdent k) (hf : '\uFEFF' ∉ k) : Begins (k ++ f) := by
  rw [begins_iff]
  have := header_solid (ty := none) (nm := .bare k) (f := f) hk (by
    intro h
    obtain ⟨w, rfl⟩ := head_eq_some.1 h
    exact hf (by simp))
  simpa [tyText, Name.text] using this

theorem word_sep {k : Str} (hk : BareIdent k) (hf : '\uFEFF' ∉ k) : ∀ x ∈ k, ¬ x ∈ sepChars := by
  intro x hx hs
  have := sep_not_ident hs (by rintro rfl; exact hf hx)
  rcases identShape_mem hk.1 hx with h | h
  · exact this.1 h
  · exact this.2 h

theorem word_raw {k f g : Str} {n : Nat} (hk : BareIdent k) (hf : WordEnd f) (hq : f.head? ≠ some '"') :
    k ++ f ≠ 'r' :: List.replicate n '#' ++ '"' :: g := by
  intro h
  obtain ⟨-, h2⟩ := cut_eq (B := fun c => ¬ IdentChar c ∧ c ≠ '!') (D := fun c => c = '"') h (identShape_ne_nil hk.1) hf
    (by intro x hx; simpa using hx.symm) (by rintro x hx rfl; exact identShape_not_mem hk.1 (c := '"') (by decide) hx)
    (by
      intro x hx
      simp at hx
      rw [hx.2]
      rintro ⟨h, -⟩
      exact h (by rw [← isIdChar_iff]; decide))
  rw [h2] at hq
  exact hq rfl

theorem word_lit {k f g : Str} {l : Lit} (hk : BareIdent k) (hb : '\uFEFF' ∉ k) (hf : WordEnd f) (hq : f.head? ≠ some '"')
    (hl : l.Ok) (hg : Sep g) : k ++ f ≠ l.text ++ g := by
  intro h
  cases l with
  | str sl =>
    cases sl with
    | quoted l =>
      cases k with
      | nil => exact hk.1
      | cons c k =>
        simp [Lit.text, StrLit.text, quotedText] at h
        exact identShape_not_mem hk.1 (c := '"') (by decide) (by rw [h.1]; simp)
    | raw n b => exact word_raw hk hf hq (g := b ++ rawClose n ++ g) (by simpa [Lit.text, StrLit.text] using h)
  | _ =>
    obtain ⟨h1, -⟩ := cut_eq (B := fun c => ¬ IdentChar c ∧ c ≠ '!') (D := fun c => c ∈ sepChars) h (identShape_ne_nil hk.1) hf hg
      (word_sep hk hb) (by
        intro x hx h
        exact h.1 (wordChars_ident x (notStr_chars hl trivial x (List.mem_of_mem_tail hx))))
    exact notStr_not_ident hl trivial hk h1.symm

/-- **C16.** A bare word where an entry, a value (after a property name) or a literal (after
a type) is expected: the text is rejected.  What follows the word must be no part of
it and no quote (`r"` and `r#"` begin raw strings); where an entry is expected it
must be no equals sign (the word would be a property name).  A byte order mark is
white space. -/
theorem c16_bare_word (o : Open) (k f : Str) (ho : o.Ok (k ++ f)) (hs : o.slot ≠ .node) (hk : BareIdent k)
    (hb : '\uFEFF' ∉ k) (hf : WordEnd f) (hq : f.head? ≠ some '"') (he : o.slot = .entry → f.head? ≠ some '=') :
    Rejected (o.text ++ (k ++ f)) := by
  refine c49_must_fit o _ ho (word_begins hk hb) ?_
  have hval : ∀ (v : Val) g, v.Ok → Sep g → k ++ f ≠ v.text ++ g := by
    rintro ⟨ty, l⟩ g hv hg h
    cases ty with
    | none => exact word_lit hk hb hf hq hv.2 hg h
    | some m =>
      cases k with
      | nil => exact hk.1
      | cons c k =>
        simp [Val.text, tyText] at h
        exact identShape_not_mem hk.1 (c := '(') (by decide) (by rw [h.1]; simp)
  cases hsl : o.slot with
  | node => exact absurd hsl hs
  | entry =>
    rintro ⟨e, g, h1, h2, hg⟩
    cases e with
    | arg v => exact hval v g h1 hg h2
    | prop p v =>
      cases p with
      | bare p =>
        have h2' : k ++ f = p ++ ('=' :: v.text ++ g) := by simpa [Entry.text, PropName.text] using h2
        obtain ⟨-, h3⟩ := cut_eq (B := fun c => ¬ IdentChar c ∧ c ≠ '!') (D := fun c => c = '=') h2' (identShape_ne_nil hk.1) hf
          (by intro x hx; simpa using hx.symm) (by rintro x hx rfl; exact identShape_not_mem hk.1 (c := '=') (by decide) hx)
          (by
            rintro x hx ⟨h3, h4⟩
            rcases identShape_mem h1.1.1.1 (List.mem_of_mem_tail hx) with h | h
            · exact h3 h
            · exact h4 h)
        exact he hsl (by rw [h3]; rfl)
      | str sl =>
        cases sl with
        | quoted l =>
          cases k with
          | nil => exact hk.1
          | cons c k =>
            simp [Entry.text, PropName.text, StrLit.text, quotedText] at h2
            exact identShape_not_mem hk.1 (c := '"') (by decide) (by rw [h2.1]; simp)
        | raw n b =>
          exact word_raw hk hf hq (g := b ++ rawClose n ++ '=' :: v.text ++ g)
            (by simpa [Entry.text, PropName.text, StrLit.text] using h2)
  | value =>
    rintro ⟨v, g, h1, h2, hg⟩
    exact hval v g h1 hg h2
  | literal =>
    rintro ⟨l, g, h1, h2, hg⟩
    exact word_lit hk hb hf hq h1 hg h2

/-- `a;\n"b" {n 1 t}` is rejected. -/
example : Rejected ((openDemo none none).text ++ ("t".toList ++ "}".toList)) := by
  refine c16_bare_word _ _ _ (openDemo_ok _ _ _ (by simp) trivial) (by decide) (ident1 (by decide) (by decide)) (by decide)
    ?_ (by decide) (by decide)
  intro c hc
  simp at hc
  subst hc
  rw [← isIdChar_iff]
  decide

/-! ### C17 -/

theorem word_ident {l : Lit} {f v g : Str} {D : Char → Prop} (hl : l.Ok) (hw : l.isWord) (hf : WordEnd f) (hv : BareIdent v)
    (hD : ∀ c ∈ wordChars, ¬ D c) (hg : ∀ c, g.head? = some c → D c) : l.text ++ f ≠ v ++ g := by
  intro h
  obtain ⟨h1, -⟩ := cut_eq (B := fun c => ¬ IdentChar c ∧ c ≠ '!') (D := D) h (notStr_ne_nil hl hw) hf hg
    (fun x hx => hD x (notStr_chars hl hw x hx))
    (by
      rintro x hx ⟨h3, h4⟩
      rcases identShape_mem hv.1 (List.mem_of_mem_tail hx) with h | h
      · exact h3 h
      · exact h4 h)
  exact notStr_not_ident hl hw hv h1

theorem word_head_ne {l : Lit} {f r : Str} {c : Char} (hl : l.Ok) (hw : l.isWord) (hc : c ∉ "0123456789+-tfn".toList) :
    l.text ++ f ≠ c :: r := by
  intro h
  obtain ⟨d, r', hd, hm⟩ := notStr_head hl hw
  rw [hd] at h
  simp at h
  rw [h.1] at hm
  exact hc hm

/-- **C17.** A number or keyword where a node is expected: rejected. -/
theorem c17_no_node_name (o : Open) (l : Lit) (f : Str) (ho : o.Ok (l.text ++ f)) (hs : o.slot = .node) (hl : l.Ok)
    (hw : l.isWord) (hf : WordEnd f) : Rejected (o.text ++ (l.text ++ f)) := by
  refine c49_must_fit o _ ho ?_ ?_
  · obtain ⟨c, r, hc, hm⟩ := notStr_head hl hw
    refine ⟨c, r ++ f, by rw [hc]; rfl, ?_⟩
    have hall : ∀ c ∈ "0123456789+-tfn".toList, c ∉ wsChars ∧ c ∉ newlineChars ∧ c ∉ ['/', '\\', '{', '}', ';', '='] := by decide
    exact hall c hm
  · rw [hs]
    rintro ⟨ty, n, g, h1, h2, h3, hg⟩
    cases ty with
    | some m => exact word_head_ne hl hw (c := '(') (by decide) (by simpa [tyText] using h3)
    | none =>
      cases n with
      | quoted q => exact word_head_ne hl hw (c := '"') (by decide) (by simpa [tyText, Name.text, quotedText] using h3)
      | bare v =>
        exact word_ident hl hw hf h2 (D := fun c => c ∈ sepChars) (by decide) hg (by simpa [tyText, Name.text] using h3)

/-- **C17.** A number or keyword as type name, of a node or of a value: rejected. -/
theorem c17_no_type_name (o : Open) (l : Lit) (f : Str) (ho : o.Ok ('(' :: l.text ++ f)) (hl : l.Ok)
    (hw : l.isWord) (hf : WordEnd f) : Rejected (o.text ++ ('(' :: l.text ++ f)) := by
  refine c49_must_fit o _ ho ⟨'(', l.text ++ f, rfl, by decide, by decide, by decide⟩ ?_
  have hty : ∀ (m : Name) g, m.Ok → '(' :: l.text ++ f ≠ tyText (some m) ++ g := by
    intro m g hm h
    cases m with
    | bare v =>
      exact word_ident hl hw hf hm (D := fun c => c = ')') (g := ')' :: g) (by decide) (by simp) (by simpa [tyText, Name.text] using h)
    | quoted q => exact word_head_ne hl hw (c := '"') (by decide) (f := f) (by simpa [tyText, Name.text, quotedText] using h)
  have hlit : ∀ (l' : Lit) g, l'.Ok → '(' :: l.text ++ f ≠ l'.text ++ g := by
    intro l' g hl' h
    cases l' with
    | str sl => cases sl <;> simp [Lit.text, StrLit.text, quotedText] at h
    | _ => exact word_head_ne hl' trivial (c := '(') (by decide) h.symm
  have hval : ∀ (v : Val) g, v.Ok → '(' :: l.text ++ f ≠ v.text ++ g := by
    rintro ⟨ty, l'⟩ g hv h
    cases ty with
    | none => exact hlit l' g hv.2 h
    | some m => exact hty m (l'.text ++ g) hv.1 (by simpa [Val.text] using h)
  have hid : ∀ v g, IdentShape v → '(' :: l.text ++ f ≠ v ++ g := by
    intro v g hv h
    cases v with
    | nil => exact hv
    | cons c v =>
      simp at h
      exact identShape_not_mem hv (c := '(') (by decide) (by rw [h.1]; simp)
  cases o.slot with
  | node =>
    rintro ⟨ty, n, g, h1, h2, h3, -⟩
    cases ty with
    | none =>
      cases n with
      | bare v => exact hid v g h2.1 (by simpa [tyText, Name.text] using h3)
      | quoted q => simp [tyText, Name.text, quotedText] at h3
    | some m => exact hty m (n.text ++ g) h1 (by simpa using h3)
  | entry =>
    rintro ⟨e, g, h1, h2, -⟩
    cases e with
    | arg v => exact hval v g h1 h2
    | prop k v =>
      cases k with
      | bare k => exact hid k ('=' :: v.text ++ g) h1.1.1.1 (by simpa [Entry.text, PropName.text] using h2)
      | str sl => cases sl <;> simp [Entry.text, PropName.text, StrLit.text, quotedText] at h2
  | value =>
    rintro ⟨v, g, h1, h2, -⟩
    exact hval v g h1 h2
  | literal =>
    rintro ⟨l', g, h1, h2, -⟩
    exact hlit l' g h1 h2

/-- **C17.** A number or keyword as unquoted property name: rejected, whatever the value. -/
theorem c17_no_key (o : Open) (l : Lit) (f : Str) (ho : o.Ok (l.text ++ '=' :: f)) (hs : o.slot ≠ .node) (hl : l.Ok)
    (hw : l.isWord) : Rejected (o.text ++ (l.text ++ '=' :: f)) := by
  have hcut : ∀ (l' : Lit) g, l'.Ok → Sep g → l.text ++ '=' :: f ≠ l'.text ++ g := by
    intro l' g hl' hg h
    cases l' with
    | str sl =>
      cases sl with
      | quoted q => exact word_head_ne hl hw (c := '"') (by decide) (by simpa [Lit.text, StrLit.text, quotedText] using h)
      | raw n b => exact word_head_ne hl hw (c := 'r') (by decide) (by simpa [Lit.text, StrLit.text] using h)
    | _ =>
      obtain ⟨-, h3⟩ := cut_eq (B := fun c => c = '=') (D := fun c => c ∈ sepChars) h (notStr_ne_nil hl hw)
        (by intro x hx; simpa using hx.symm) hg
        (by
          intro x hx
          have : ∀ c ∈ wordChars, ¬ c ∈ sepChars := by decide
          exact this x (notStr_chars hl hw x hx))
        (by
          rintro x hx rfl
          have := notStr_chars hl' trivial '=' (List.mem_of_mem_tail hx)
          revert this; decide)
      have := hg '=' (by rw [← h3]; rfl)
      revert this; decide
  have hval : ∀ (v : Val) g, v.Ok → Sep g → l.text ++ '=' :: f ≠ v.text ++ g := by
    rintro ⟨ty, l'⟩ g hv hg h
    cases ty with
    | none => exact hcut l' g hv.2 hg h
    | some m => exact word_head_ne hl hw (c := '(') (by decide) (by simpa [Val.text, tyText] using h)
  refine c49_must_fit o _ ho ?_ ?_
  · obtain ⟨c, r, hc, hm⟩ := notStr_head hl hw
    refine ⟨c, r ++ '=' :: f, by rw [hc]; rfl, ?_⟩
    have hall : ∀ c ∈ "0123456789+-tfn".toList, c ∉ wsChars ∧ c ∉ newlineChars ∧ c ∉ ['/', '\\', '{', '}', ';', '='] := by decide
    exact hall c hm
  · cases hsl : o.slot with
    | node => exact absurd hsl hs
    | entry =>
      rintro ⟨e, g, h1, h2, hg⟩
      cases e with
      | arg v => exact hval v g h1 hg h2
      | prop k v =>
        cases k with
        | bare k =>
          refine word_ident (f := '=' :: f) hl hw ?_ h1.1.1 (D := fun c => c = '=') (g := '=' :: v.text ++ g) (by decide) (by simp)
            (by simpa [Entry.text, PropName.text] using h2)
          intro c hc
          simp at hc; subst hc
          rw [← isIdChar_iff]; decide
        | str sl =>
          cases sl with
          | quoted q =>
            exact word_head_ne hl hw (c := '"') (by decide) (by simpa [Entry.text, PropName.text, StrLit.text, quotedText] using h2)
          | raw n b => exact word_head_ne hl hw (c := 'r') (by decide) (by simpa [Entry.text, PropName.text, StrLit.text] using h2)
    | value =>
      rintro ⟨v, g, h1, h2, hg⟩
      exact hval v g h1 hg h2
    | literal =>
      rintro ⟨l', g, h1, h2, hg⟩
      exact hcut l' g h1 hg h2

/-- **C17.** A text that begins with a digit (or sign and digit) where a node is expected:
rejected, whatever follows. -/
theorem c17_no_digit (o : Open) (w : Str) (ho : o.Ok w) (hs : o.slot = .node) (hw : DigitStart w) :
    Rejected (o.text ++ w) := by
  refine c49_must_fit o _ ho ?_ ?_
  · have hall : ∀ c ∈ '+' :: '-' :: decDigits, c ∉ wsChars ∧ c ∉ newlineChars ∧ c ∉ ['/', '\\', '{', '}', ';', '='] := by decide
    rcases hw with ⟨c, r, rfl, hc⟩ | ⟨s, c, r, rfl, hs, -⟩
    · exact ⟨c, r, rfl, hall c (by simp [hc])⟩
    · exact ⟨s, c :: r, rfl, hall s (by rcases hs with rfl | rfl <;> simp)⟩
  · rw [hs]
    rintro ⟨ty, n, g, h1, h2, h3, hg⟩
    have hhead : ∀ c r, c ∉ '+' :: '-' :: decDigits → w ≠ c :: r := by
      rintro c r hc rfl
      rcases hw with ⟨c', r', h, hc'⟩ | ⟨s, c', r', h, hs, -⟩
      · simp at h; rw [h.1] at hc; simp [hc'] at hc
      · simp at h; rw [h.1] at hc; rcases hs with rfl | rfl <;> simp at hc
    cases ty with
    | some m => exact hhead '(' _ (by decide) h3
    | none =>
      cases n with
      | quoted q => exact hhead '"' _ (by decide) h3
      | bare v =>
        have h3' : w = v ++ g := by simpa [tyText, Name.text] using h3
        rw [h3'] at hw
        obtain ⟨s, r, -, -, c, rfl, hc⟩ := ident_no_digit h2.1 hw
        have hall : ∀ c ∈ decDigits, c ∉ sepChars := by decide
        exact hall c hc (hg c rfl)

/-- `a;\n"b" {n 1 null=2` is rejected, and so is `(-1)x`. -/
example : Rejected ((openDemo none none).text ++ (Lit.null.text ++ '=' :: "2}".toList)) ∧
    Rejected ((Open.node [] none).text ++ ('(' :: (Lit.num (.dec (some '-') '1' [] none none)).text ++ ")x".toList)) := by
  constructor
  · exact c17_no_key _ _ _ (openDemo_ok _ _ _ (by simp) trivial) (by decide) trivial trivial
  · refine c17_no_type_name _ _ _ ⟨trivial, trivial⟩ ⟨Or.inr (Or.inr rfl), by decide, by simp [DigitsOk], by simp, by simp⟩ trivial ?_
    intro c hc
    simp at hc
    subst hc
    rw [← isIdChar_iff]
    decide

/-- `true 1` and `12x` are rejected. -/
example : Rejected ((Open.node [] none).text ++ ((Lit.bool true).text ++ " 1".toList)) ∧
    Rejected ((Open.node [] none).text ++ "12x".toList) := by
  constructor
  · refine c17_no_node_name _ _ _ ⟨trivial, trivial⟩ rfl trivial trivial ?_
    intro c hc
    simp at hc
    subst hc
    rw [← isIdChar_iff]
    decide
  · exact c17_no_digit _ _ ⟨trivial, trivial⟩ rfl (Or.inl ⟨'1', _, rfl, by decide⟩)

/-! ### C19 -/

theorem offsetToks_append (a b : Str) : ∀ n, offsetToks n (a ++ b) = offsetToks n a ++ offsetToks (n + byteLen a) b := by
  induction a with
  | nil => intro n; simp [offsetToks, byteLen]
  | cons c a ih => intro n; simp [offsetToks, byteLen, ih, Nat.add_assoc]

/-- **C04/C19.** Any legal lines (white space, newlines, line comments, block comments)
before any text are skipped: the text parses as it does without them, all spans
moved; and nothing else parses. -/
theorem c19_leading (l : List Line) (text : Str) (hl : LinesOk true text l) (d' : Document (Sp Nat)) :
    parseAst (linesText l ++ text) = some (.ok d') ↔
      ∃ d, parseAst text = some (.ok d) ∧
        d' = d.mapSpan (fun s => ⟨s.start + byteLen (linesText l), s.stop + byteLen (linesText l)⟩) := by
  obtain ⟨n, hn⟩ : ∃ n, n = byteLen (linesText l) := ⟨_, rfl⟩
  rw [← hn]
  have hr := Rel.run_document (R := shiftRel n (offsetEoi text)) (s := offsetToks 0 text)
    (s' := offsetToks n text) (by
      have := (offsetToks_shift n text 0).symm
      rw [Nat.zero_add] at this
      exact this)
  have he : (shiftRel n (offsetEoi text)).eoi' = offsetEoi (linesText l ++ text) := by
    show shiftSp n (offsetEoi text) = _
    simp only [shiftSp, offsetEoi, byteLen_append, ← hn, Nat.add_comm]
  rw [he] at hr
  have hd : parseAst (linesText l ++ text) = some (.ok d') ↔
      runParser document (offsetEoi (linesText l ++ text)) (offsetToks n text) = some (.ok d') := by
    rw [parseAst_ok_iff]
    have hT : Takes (offsetToks 0 (linesText l ++ text)) (linesText l) (offsetToks n text) := by
      refine ⟨offsetToks 0 (linesText l), ?_, chars_offsetToks _ _⟩
      rw [offsetToks_append, ← hn, Nat.zero_add]
    rw [document_lines (by rw [chars_offsetToks]; exact hl) hT, run_ok_iff]
  rw [hd]
  unfold parseAst
  rcases hr with ⟨d1, d2, h1, h2, h3⟩ | ⟨es, es', h1, h2, h3⟩ | ⟨h1, h2⟩
  · have h3' : d1.mapSpan (shiftSp n) = d2 := h3.trans (mapSpan_id d2)
    rw [show runParser document (offsetEoi text) (offsetToks 0 text) = some (.ok d1) from h1, h2, ← h3']
    simp only [Option.some.injEq, Except.ok.injEq]
    constructor
    · rintro rfl; exact ⟨_, rfl, rfl⟩
    · rintro ⟨_, rfl, rfl⟩; rfl
  · rw [show runParser document (offsetEoi text) (offsetToks 0 text) = some (.error es) from h1, h2]
    simp
  · rw [show runParser document (offsetEoi text) (offsetToks 0 text) = none from h1, h2]
    simp

/-- **C19.** A block comment is skipped, whatever it contains: before any text the
comment `/*b*/`, where `b` is any text in which nested comments are closed, changes
nothing but the positions. -/
theorem c19_comment_skipped (b : Block) (text : Str) (hb : b.Ok true) (d' : Document (Sp Nat)) :
    parseAst ((Ws.block b).text ++ text) = some (.ok d') ↔
      ∃ d, parseAst text = some (.ok d) ∧
        d' = d.mapSpan (fun s => ⟨s.start + byteLen (Ws.block b).text, s.stop + byteLen (Ws.block b).text⟩) := by
  have := c19_leading [.ws (.block b)] text ⟨hb, trivial⟩ d'
  simpa [linesText, Line.text] using this

theorem mapNodes_length {S T : Type} (g : S → T) (l : List (Spanned (Node S) S)) : (mapNodes g l).length = l.length := by
  induction l with
  | nil => rfl
  | cons a l ih => obtain ⟨sp, n⟩ := a; simp [mapNodes, ih]

/-- `/* a /* } */ * /* "*/ */` before `n 1`. -/
def blockDemo : Block :=
  .char ' ' (.char 'a' (.nested (.char '}' .nil) (.char '*' (.char ' ' (.nested (.char '"' .nil) .nil)))))

theorem blockDemo_ok : blockDemo.Ok true := by
  simp [blockDemo, Block.Ok, Block.text]

example : ∃ d, parseAst ((Ws.block blockDemo).text ++ "n 1".toList) = some (.ok d) ∧ d.nodes.length = 1 := by
  obtain ⟨d, h, hd⟩ := of_parse (text := "n 1".toList) (fun d => decide (d.nodes.length = 1)) (by decide +kernel)
  refine ⟨_, (c19_comment_skipped blockDemo "n 1".toList blockDemo_ok _).2 ⟨d, h, rfl⟩, ?_⟩
  show (mapNodes _ d.nodes).length = 1
  rw [mapNodes_length]
  exact of_decide_eq_true hd

/-- **C19**, in terms of the characters: read from left to right, with each `/*` one more
comment is open and with each `*/` one less, and the comment ends where none is open any more;
what comes after is parsed as if the comment were not there. -/
theorem c19_left_to_right (x rest : Str) (hx : afterComment 1 x = some rest) (d' : Document (Sp Nat)) :
    parseAst ('/' :: '*' :: x) = some (.ok d') ↔
      ∃ d, parseAst rest = some (.ok d) ∧
        d' = d.mapSpan (fun s => ⟨s.start + (byteLen ('/' :: '*' :: x) - byteLen rest),
          s.stop + (byteLen ('/' :: '*' :: x) - byteLen rest)⟩) := by
  obtain ⟨b, hb, rfl⟩ := afterComment_iff.1 hx
  have := c19_comment_skipped b rest hb d'
  have ht : (Ws.block b).text ++ rest = '/' :: '*' :: (b.text ++ '*' :: '/' :: rest) := by simp [Ws.text]
  have hlen : byteLen ('/' :: '*' :: (b.text ++ '*' :: '/' :: rest)) - byteLen rest = byteLen (Ws.block b).text := by
    rw [← ht, byteLen_append]; omega
  rw [hlen, ← ht]
  exact this

/-- `/* a /* } */ * /* "*/ */n 1`. -/
example : afterComment 1 " a /* } */ * /* \"*/ */n 1".toList = some "n 1".toList := by decide +kernel

/-- **C19**, second half: if between nodes (at any depth) a block comment is opened which,
read from left to right, does not end, the text is rejected; provided `/*/` does not occur in
what follows.  This is not all of the second half: see `c19_overlap_accepted`. -/
theorem c19_unclosed_partial (o : Open) (x : Str) (ho : o.Ok ('/' :: '*' :: x)) (hb : o.betweenNodes)
    (ht : NoTie x) (hx : afterComment 1 x = none) : Rejected (o.text ++ '/' :: '*' :: x) := by
  refine rejected_of ?_
  intro d h
  have h := parseAst_ok_iff.1 h
  unfold document at h
  obtain ⟨v, h', rfl⟩ := ok_pmap.1 h; clear h
  obtain ⟨t1, _, h1, h2⟩ := ok_thenIgnore.1 h'
  obtain ⟨rfl, -⟩ := ok_endP.1 h2
  have h3 := ok_nodes.1 h1
  obtain ⟨t, hT, hc⟩ := takes_of_chars (s := offsetToks 0 (o.text ++ '/' :: '*' :: x)) (a := o.text)
    (b := '/' :: '*' :: x) (by rw [chars_offsetToks])
  exact walk_open (Nat.le_refl _) hT (by rw [hc]; exact ho) h3 (Or.inl rfl) hb hc (no_block ht hx)

/-- After `a;` and a newline: `/* b /* c; */ d */` with one `*/` missing. -/
example : Rejected ((Open.after [] none (.mk none (.bare ['a']) [] .none [] .semicolon) (.node [.newline .lf] none)).text ++
    '/' :: '*' :: " b /* c; */ d".toList) := by
  refine c19_unclosed_partial _ _ ?_ rfl (by unfold NoTie; decide +kernel) (by decide +kernel)
  refine ⟨trivial, trivial, ⟨trivial, ident1 (by decide) (by decide), by simp [NameStartOk],
    by simp [NameEndOk, itemsText, spacesText, ChildrenC.text, Term.text], trivial, trivial, trivial, trivial⟩,
    ⟨trivial, trivial⟩, trivial⟩

/-- **C19 fails** in general: in `/*/*/` a comment is opened twice and, reading from
left to right, never closed, yet the text is accepted.  (The inner comment fails at the
end of the text; then its `/` is taken as an ordinary character, and the `*` that
belonged to the inner opening closes the outer comment.) -/
theorem c19_overlap_accepted : ∃ d, parseAst "/*/*/".toList = some (.ok d) ∧ d.nodes = [] := by
  obtain ⟨d, h, hd⟩ := of_parse (text := "/*/*/".toList) (fun d => d.nodes.isEmpty) (by decide +kernel)
  exact ⟨d, h, by simpa using hd⟩

/-! ### C25 -/

/-- The beginning `n ` of a node with an entry to come. -/
def openN : Open := .entry [] none none (.bare ['n']) [] [.ws (.char ' ')] none none none

theorem bareN : BareIdent ['n'] := ident1 (by decide) (by decide)

theorem openN_ok (w : Str) : openN.Ok w := by
  refine ⟨trivial, trivial, trivial, bareN, by simp [NameStartOk], ?_, trivial, by simp,
    ⟨blank_ok, trivial⟩, trivial, by simp, trivial⟩
  simp [NameEndOk, itemsText, spacesText, Space.text, Ws.text]

/-- A text with one entry. -/
theorem parse_entry (e : Entry) (he : e.Ok) :
    ∃ d, parseAst (openN.text ++ e.text) = some (.ok d) ∧
      d.erase = ⟨[⟨(), NodeC.meaning (.mk none (.bare ['n']) [⟨[.ws (.char ' ')], none, e⟩] .none [] .eof)⟩]⟩ := by
  obtain ⟨b, hb⟩ : ∃ b : BodyC, b = .cons [] none (.mk none (.bare ['n']) [⟨[.ws (.char ' ')], none, e⟩] .none [] .eof) (.nil []) :=
    ⟨_, rfl⟩
  have hok : b.Ok true [] := by
    rw [hb]
    refine ⟨trivial, trivial, ⟨trivial, bareN, by simp [NameStartOk], ?_, ⟨⟨by simp, ⟨blank_ok, trivial⟩, trivial, he⟩, trivial⟩,
      trivial, trivial, rfl⟩, trivial⟩
    simp [NameEndOk, itemsText, Item.text, spacesText, Space.text, Ws.text]
  have ht : b.text = openN.text ++ e.text := by
    rw [hb]
    simp [openN, Open.text, BodyC.text, NodeC.text, ChildrenC.text, Term.text, linesText, dashText, tyText, itemsText, Item.text,
      spacesText, Space.text, Ws.text, keyText]
  refine ⟨_, parse_complete b hok ht, ?_⟩
  refine (meaning_of_value hok).trans ?_
  rw [hb, BodyC.meaning]
  exact congrArg Document.mk (body_top 0 _)

/-- **C25**, for the bare identifiers for which it holds: no keyword is a prefix, and the
identifier does not begin with a byte order mark. -/
theorem c25_key_partial (k : Str) (v : Val) (hk : BareIdent k) (hp : ∀ w ∈ keywords, ¬ w <+: k)
    (hb : k.head? ≠ some '\uFEFF') (hv : v.Ok) :
    ∃ d, parseAst ("n ".toList ++ k ++ '=' :: v.text) = some (.ok d) ∧
      d.erase = ⟨[⟨(), .mk none ⟨(), ['n']⟩ [] [(⟨(), k⟩, v.meaning)] none⟩]⟩ := by
  obtain ⟨d, h1, h2⟩ := parse_entry (.prop (.bare k) v) ⟨⟨hk, hp, hb⟩, hv⟩
  refine ⟨d, by simpa [openN, Open.text, linesText, dashText, tyText, itemsText, Name.text, spacesText, Space.text, Ws.text,
    keyText, Entry.text, PropName.text] using h1, ?_⟩
  rw [h2, node_meaning]
  rfl

example : ∃ d, parseAst ("n ".toList ++ "k".toList ++ '=' :: "-1.5".toList) = some (.ok d) ∧
    d.erase = ⟨[⟨(), .mk none ⟨(), ['n']⟩ [] [(⟨(), ['k']⟩, ⟨none, ⟨(), .decimal "-1.5".toList⟩⟩)] none⟩]⟩ := by
  refine c25_key_partial "k".toList ⟨none, .num (.dec (some '-') '1' [] (some ('5', [])) none)⟩
    (ident1 (by decide) (by decide)) (by decide) (by decide) ⟨trivial, Or.inr (Or.inr rfl), by decide, by simp [DigitsOk], ?_, by simp⟩
  rintro d ds h
  simp at h
  obtain ⟨rfl, rfl⟩ := h
  exact ⟨by decide, by simp [DigitsOk]⟩

/-- **C25 fails** for every bare identifier (without byte order mark) that begins with
a keyword: whatever the value, the text is rejected. -/
theorem c25_keyword_prefix (k f : Str) (w : Str) (hw : w ∈ keywords) (hp : w <+: k) (hk : BareIdent k) (hb : '\uFEFF' ∉ k) :
    Rejected ("n ".toList ++ k ++ '=' :: f) := by
  have h := c49_must_fit openN (k ++ '=' :: f) (openN_ok _) (word_begins hk hb) ?_
  · simpa [openN, Open.text, linesText, dashText, tyText, itemsText, Name.text, spacesText, Space.text, Ws.text, keyText] using h
  · have hend : WordEnd ('=' :: f) := by
      intro c hc
      simp at hc; subst hc
      rw [← isIdChar_iff]; decide
    have hval : ∀ (v : Val) g, v.Ok → Sep g → k ++ '=' :: f ≠ v.text ++ g := by
      rintro ⟨ty, l⟩ g hv hg h
      cases ty with
      | none => exact word_lit hk hb hend (by simp) hv.2 hg h
      | some m =>
        cases k with
        | nil => exact hk.1
        | cons c k =>
          simp [Val.text, tyText] at h
          exact identShape_not_mem hk.1 (c := '(') (by decide) (by rw [h.1]; simp)
    rintro ⟨e, g, h1, h2, hg⟩
    cases e with
    | arg v => exact hval v g h1 hg h2
    | prop p v =>
      cases p with
      | bare p =>
        have h2' : k ++ '=' :: f = p ++ ('=' :: v.text ++ g) := by simpa [Entry.text, PropName.text] using h2
        obtain ⟨h3, -⟩ := cut_eq (B := fun c => ¬ IdentChar c ∧ c ≠ '!') (D := fun c => c = '=') h2' (identShape_ne_nil hk.1) hend
          (by intro x hx; simpa using hx.symm) (by rintro x hx rfl; exact identShape_not_mem hk.1 (c := '=') (by decide) hx)
          (by
            rintro x hx ⟨h3, h4⟩
            rcases identShape_mem h1.1.1.1 (List.mem_of_mem_tail hx) with h | h
            · exact h3 h
            · exact h4 h)
        subst h3
        exact h1.1.2.1 w hw hp
      | str sl =>
        cases sl with
        | quoted l =>
          cases k with
          | nil => exact hk.1
          | cons c k =>
            simp [Entry.text, PropName.text, StrLit.text, quotedText] at h2
            exact identShape_not_mem hk.1 (c := '"') (by decide) (by rw [h2.1]; simp)
        | raw n b =>
          exact word_raw hk hend (by simp) (g := b ++ rawClose n ++ '=' :: v.text ++ g)
            (by simpa [Entry.text, PropName.text, StrLit.text] using h2)

/-- The identifier `nullable` is legal, and `n nullable=1` is rejected. -/
theorem c25_fails : BareIdent "nullable".toList ∧ Rejected ("n ".toList ++ "nullable".toList ++ '=' :: "1".toList) := by
  have hk : BareIdent "nullable".toList := by
    refine ⟨⟨Or.inr ⟨by decide, by decide, ?_, ?_⟩, ?_⟩, by decide⟩
    · rw [← isIdSansDig_iff]; decide
    · rw [← isIdChar_iff]; decide
    · have : ∀ x ∈ "llable".toList, isIdChar x = true := by decide
      intro x hx
      rw [← isIdChar_iff]
      exact this x hx
  exact ⟨hk, c25_keyword_prefix _ _ "null".toList (by decide) (by decide) hk (by decide)⟩

/-! ### C26 -/

/-- **C26**, for quoted strings: any legal quoted string is a node name. -/
theorem c26_quoted_partial (l : List StrChar) (hl : ∀ c ∈ l, c.Ok) :
    ∃ d, parseAst (StrLit.quoted l).text = some (.ok d) ∧
      d.erase = ⟨[⟨(), .mk none ⟨(), (StrLit.quoted l).value⟩ [] [] none⟩]⟩ := by
  obtain ⟨b, hb⟩ : ∃ b : BodyC, b = .cons [] none (.mk none (.quoted l) [] .none [] .eof) (.nil []) := ⟨_, rfl⟩
  have hok : b.Ok true [] := by
    rw [hb]
    exact ⟨trivial, trivial, ⟨trivial, hl, trivial, trivial, trivial, trivial, trivial, rfl⟩, trivial⟩
  have ht : b.text = (StrLit.quoted l).text := by
    rw [hb]
    simp [BodyC.text, NodeC.text, ChildrenC.text, Term.text, linesText, dashText, tyText, itemsText, spacesText, Name.text, StrLit.text]
  refine ⟨_, parse_complete b hok ht, ?_⟩
  refine (meaning_of_value hok).trans ?_
  rw [hb, BodyC.meaning]
  refine (congrArg Document.mk (body_top 0 _)).trans ?_
  simp only [BodyC.top, List.map_cons, List.map_nil]
  rw [node_meaning]
  rfl

example : ∃ d, parseAst "\"a\\n\"".toList = some (.ok d) ∧ d.erase = ⟨[⟨(), .mk none ⟨(), ['a', '\n']⟩ [] [] none⟩]⟩ :=
  c26_quoted_partial [.plain 'a', .esc 'n'] (by
    intro c hc
    simp at hc
    rcases hc with rfl | rfl
    · exact ⟨by decide, by decide⟩
    · unfold StrChar.Ok; decide)

/-- **C26 fails** for every raw string, wherever a node is expected and whatever
follows: the text is rejected. -/
theorem c26_raw_rejected (o : Open) (n : Nat) (b f : Str) (ho : o.Ok ((StrLit.raw n b).text ++ f)) (hs : o.slot = .node) :
    Rejected (o.text ++ ((StrLit.raw n b).text ++ f)) := by
  refine c49_must_fit o _ ho ⟨'r', List.replicate n '#' ++ '"' :: b ++ rawClose n ++ f, rfl, by decide, by decide, by decide⟩ ?_
  rw [hs]
  rintro ⟨ty, m, g, h1, h2, h3, hg⟩
  cases ty with
  | some t => simp [StrLit.text, tyText] at h3
  | none =>
    cases m with
    | quoted l => simp [StrLit.text, tyText, Name.text, quotedText] at h3
    | bare v =>
      have h3' : v ++ g = 'r' :: List.replicate n '#' ++ '"' :: (b ++ rawClose n ++ f) := by
        simpa [StrLit.text, tyText, Name.text] using h3.symm
      obtain ⟨-, h4⟩ := cut_eq (B := fun c => c ∈ sepChars) (D := fun c => c = '"') h3' (identShape_ne_nil h2.1) hg
        (by intro x hx; simpa using hx.symm) (by rintro x hx rfl; exact identShape_not_mem h2.1 (c := '"') (by decide) hx)
        (by
          intro x hx
          simp at hx
          rw [hx.2]
          decide)
      have := hg '"' (by rw [h4]; rfl)
      revert this; decide

/-- `r"a"` is a legal string literal; as a node name it is rejected. -/
theorem c26_fails : (StrLit.raw 0 ['a']).Ok ∧ Rejected ((StrLit.raw 0 ['a']).text) := by
  refine ⟨?_, ?_⟩
  · unfold StrLit.Ok; decide
  · have := c26_raw_rejected (.node [] none) 0 ['a'] [] ⟨trivial, trivial⟩ rfl
    simpa [Open.text, linesText, dashText] using this

end Knuffel
