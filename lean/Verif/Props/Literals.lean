import Verif.Spec.Spelling
import Verif.Props.Reject
/-!
# Literals and identifiers

C07 (escaped strings), C08 (raw strings), C10 (integers), C11 (decimals), C15
(bare identifiers), C27 (type names).
-/

namespace Knuffel
open Cst

/-- The document with the one node `n` that has the given arguments and properties. -/
def nodeN (args : List (Value Unit)) (props : List (Spanned Str Unit × Value Unit)) : Document Unit :=
  ⟨[⟨(), .mk none ⟨(), ['n']⟩ args props none⟩]⟩

/-- The text `t` is read as the literal `v`: as an argument, as the value of a property,
and behind a type annotation. -/
def ReadAs (t : Str) (v : Literal) : Prop :=
  (∃ d, parseAst ("n ".toList ++ t) = some (.ok d) ∧ d.erase = nodeN [⟨none, ⟨(), v⟩⟩] []) ∧
  (∃ d, parseAst ("n k=".toList ++ t) = some (.ok d) ∧ d.erase = nodeN [] [(⟨(), ['k']⟩, ⟨none, ⟨(), v⟩⟩)]) ∧
  (∃ d, parseAst ("n (u8)".toList ++ t) = some (.ok d) ∧
    d.erase = nodeN [⟨some ⟨(), .builtin .u8⟩, ⟨(), v⟩⟩] [])

/-- The parser `p` reads `t` as `v` and stops in front of `f`, whatever the spans. -/
def Reads {α : Type} (p : {O : Type} → [Offset O] → P O α) (t : Str) (v : α) (f : Str) : Prop :=
  ∀ (O : Type) [Offset O] (eoi : Sp O) (s : List (Tok O)), chars s = t ++ f → ∃ r, Ok p eoi s v r ∧ chars r = f

theorem readAs_lit (l : Lit) (hl : l.Ok) : ReadAs l.text l.value := by
  refine ⟨?_, ?_, ?_⟩
  · obtain ⟨d, h1, h2⟩ := parse_entry (.arg ⟨none, l⟩) ⟨trivial, hl⟩
    refine ⟨d, by simpa [openN, Open.text, linesText, dashText, tyText, itemsText, Name.text, spacesText, Space.text, Ws.text,
      keyText, Entry.text, Val.text] using h1, ?_⟩
    rw [h2, node_meaning]
    rfl
  · obtain ⟨d, h1, h2⟩ := parse_entry (.prop (.bare ['k']) ⟨none, l⟩)
      ⟨⟨ident1 (by decide) (by decide), by decide, by decide⟩, trivial, hl⟩
    refine ⟨d, by simpa [openN, Open.text, linesText, dashText, tyText, itemsText, Name.text, spacesText, Space.text, Ws.text,
      keyText, Entry.text, Val.text, PropName.text] using h1, ?_⟩
    rw [h2, node_meaning]
    rfl
  · have hu : BareIdent "u8".toList := by
      refine ⟨⟨Or.inr ⟨by decide, by decide, ?_, ?_⟩, by simp⟩, by decide⟩
      · rw [← isIdSansDig_iff]; decide
      · rw [← isIdChar_iff]; decide
    obtain ⟨d, h1, h2⟩ := parse_entry (.arg ⟨some (.bare "u8".toList), l⟩) ⟨hu, hl⟩
    refine ⟨d, by simpa [openN, Open.text, linesText, dashText, tyText, itemsText, Name.text, spacesText, Space.text, Ws.text,
      keyText, Entry.text, Val.text] using h1, ?_⟩
    rw [h2, node_meaning]
    rfl

theorem reads_lit (l : Lit) (hl : l.Ok) (f : Str) (hf : NumEnd' f ∨ ∃ x, l = .str x) : Reads literal l.text l.value f := by
  intro O _ eoi s hs
  obtain ⟨t, hT, ht⟩ := takes_of_chars hs
  exact ⟨t, literal_complete hl hT (by rw [ht]; exact hf), ht⟩

/-! ### C07 -/

theorem spelling_strChar {c : Char} {t : Str} (h : Spelling c t) : ∃ x : StrChar, x.Ok ∧ x.text = t ∧ x.value = c := by
  cases h with
  | plain _ h1 h2 => exact ⟨.plain c, ⟨h1, h2⟩, rfl, rfl⟩
  | short e _ h =>
    refine ⟨.esc e, List.mem_map.2 ⟨_, h, rfl⟩, rfl, ?_⟩
    have : ∀ p ∈ escapes, (escapes.lookup p.1).getD p.1 = p.2 := by decide
    exact this _ h
  | hex _ ds h1 h2 h3 h4 =>
    refine ⟨.unicode ds, ⟨h1, h2, h3, ?_⟩, rfl, ?_⟩
    · rw [h4]
      rcases c.valid with h | h
      · exact Or.inl h
      · exact Or.inr h
    · simp [StrChar.value, h4]

theorem spelled_quoted {s t : Str} (h : Spelled s t) :
    ∃ l : List StrChar, (∀ c ∈ l, c.Ok) ∧ (StrLit.quoted l).text = '"' :: t ++ ['"'] ∧ l.map StrChar.value = s := by
  suffices hs : ∃ l : List StrChar, (∀ c ∈ l, c.Ok) ∧ l.flatMap StrChar.text = t ∧ l.map StrChar.value = s by
    obtain ⟨l, h1, h2, h3⟩ := hs
    exact ⟨l, h1, by simp [StrLit.text, quotedText, h2], h3⟩
  induction h with
  | nil => exact ⟨[], by simp, rfl, rfl⟩
  | cons h _ ih =>
    obtain ⟨x, h1, rfl, rfl⟩ := spelling_strChar h
    obtain ⟨l, h2, rfl, rfl⟩ := ih
    exact ⟨x :: l, by simpa using ⟨h1, h2⟩, by simp, by simp⟩

/-- **C07.** A string written between quotes, each character spelled in any of the ways
allowed, is read as exactly that string. -/
theorem c07_quoted (s t : Str) (h : Spelled s t) : ReadAs ('"' :: t ++ ['"']) (.string s) := by
  obtain ⟨l, h1, h2, h3⟩ := spelled_quoted h
  have := readAs_lit (.str (.quoted l)) h1
  simpa only [Lit.text, Lit.value, h2, StrLit.value, h3] using this

/-- **C07**, whatever follows the closing quote. -/
theorem c07_quoted_before (s t f : Str) (h : Spelled s t) : Reads literal ('"' :: t ++ ['"']) (.string s) f := by
  obtain ⟨l, h1, h2, h3⟩ := spelled_quoted h
  have := reads_lit (.str (.quoted l)) h1 f (Or.inr ⟨_, rfl⟩)
  simpa only [Lit.text, Lit.value, h2, StrLit.value, h3] using this

/-- **C07**: as a node name. -/
theorem c07_node_name (s t : Str) (h : Spelled s t) : ∃ d, parseAst ('"' :: t ++ ['"']) = some (.ok d) ∧
    d.erase = ⟨[⟨(), .mk none ⟨(), s⟩ [] [] none⟩]⟩ := by
  obtain ⟨l, h1, h2, h3⟩ := spelled_quoted h
  have := c26_quoted_partial l h1
  simpa only [h2, StrLit.value, h3] using this

/-- **C07**: as a property name. -/
theorem c07_key (s t : Str) (h : Spelled s t) (v : Val) (hv : v.Ok) :
    ∃ d, parseAst ("n ".toList ++ ('"' :: t ++ ['"']) ++ '=' :: v.text) = some (.ok d) ∧
      d.erase = nodeN [] [(⟨(), s⟩, v.meaning)] := by
  obtain ⟨l, h1, h2, h3⟩ := spelled_quoted h
  obtain ⟨d, h4, h5⟩ := parse_entry (.prop (.str (.quoted l)) v) ⟨h1, hv⟩
  refine ⟨d, ?_, ?_⟩
  · rw [Entry.text, PropName.text, h2] at h4
    simpa [openN, Open.text, linesText, dashText, tyText, itemsText, Name.text, spacesText, Space.text, Ws.text,
      keyText] using h4
  · rw [h5, node_meaning, ← h3]
    rfl

/-- Every string has a spelling. -/
theorem c07_exists (s : Str) : ∃ t, Spelled s t := by
  induction s with
  | nil => exact ⟨_, .nil⟩
  | cons c s ih =>
    obtain ⟨t, ht⟩ := ih
    by_cases h1 : c = '"'
    · subst h1; exact ⟨_, .cons (.short '"' '"' (by decide)) ht⟩
    · by_cases h2 : c = '\\'
      · subst h2; exact ⟨_, .cons (.short '\\' '\\' (by decide)) ht⟩
      · exact ⟨_, .cons (.plain c h1 h2) ht⟩

/-- `a`, newline, é, newline, as `a\n\u{e9}\u{00000A}`. -/
theorem spelledDemo : Spelled "a\né\n".toList "a\\n\\u{e9}\\u{00000A}".toList :=
  .cons (.plain 'a' (by decide) (by decide)) (.cons (.short 'n' '\n' (by decide))
    (.cons (.hex 'é' "e9".toList (by decide) (by decide) (by decide) (by decide))
      (.cons (.hex '\n' "00000A".toList (by decide) (by decide) (by decide) (by decide)) .nil)))

example : Reads literal "\"a\\n\\u{e9}\\u{00000A}\"".toList (.string "a\né\n".toList) "x".toList :=
  c07_quoted_before _ _ _ spelledDemo
example : ∃ d, parseAst "n \"a\\n\\u{e9}\\u{00000A}\"=null".toList = some (.ok d) ∧
    d.erase = nodeN [] [(⟨(), "a\né\n".toList⟩, Val.meaning ⟨none, .null⟩)] :=
  c07_key _ _ spelledDemo ⟨none, .null⟩ ⟨trivial, trivial⟩

example : ReadAs "\"a\\n\\u{e9}\\u{00000A}\"".toList (.string "a\né\n".toList) := c07_quoted _ _ spelledDemo

/-! ### C08 -/

/-- **C08.** A raw string stands for exactly the characters between its quotes. -/
theorem c08_raw (n : Nat) (s : Str) (h : ¬ ('"' :: List.replicate n '#') <:+: s) :
    ReadAs ('r' :: List.replicate n '#' ++ '"' :: s ++ '"' :: List.replicate n '#') (.string s) :=
  readAs_lit (.str (.raw n s)) h

/-- **C08**, whatever follows. -/
theorem c08_raw_before (n : Nat) (s f : Str) (h : ¬ ('"' :: List.replicate n '#') <:+: s) :
    Reads literal ('r' :: List.replicate n '#' ++ '"' :: s ++ '"' :: List.replicate n '#') (.string s) f :=
  reads_lit (.str (.raw n s)) h f (Or.inr ⟨_, rfl⟩)

example : ReadAs "r##\"\\n\"#\"##".toList (.string "\\n\"#".toList) :=
  c08_raw 2 "\\n\"#".toList (by decide +kernel)

/-! ### C10 and C11 -/

/-- What follows cannot be read as a part of a number. -/
def NumberEnd (f : Str) : Prop := ∀ c, f.head? = some c → c ∉ "0123456789abcdefABCDEF_.ox+-".toList

theorem NumberEnd.end {f : Str} (h : NumberEnd f) : NumEnd' f := by
  have key : ∀ c, c ∉ "0123456789abcdefABCDEF_.ox+-".toList →
      c ∉ Cst.radixDigits .hex ∧ c ≠ '_' ∧ c ≠ '.' ∧ c ≠ 'o' ∧ c ≠ 'x' ∧ c ≠ '+' ∧ c ≠ '-' := by
    intro c hc
    have e : "0123456789abcdefABCDEF_.ox+-".toList = Cst.radixDigits .hex ++ ['_', '.', 'o', 'x', '+', '-'] := by decide
    rw [e] at hc
    simp only [List.mem_append, List.mem_cons, List.not_mem_nil, or_false, not_or] at hc
    exact hc
  refine ⟨fun c hc => ?_, fun hc => ?_, fun hc => ?_⟩
  · obtain ⟨h1, h2, h3, h4, h5, -⟩ := key c (h c hc)
    exact ⟨h1, h2, h3, h4, h5⟩
  · exact (key _ (h _ hc)).2.2.2.2.2.1 rfl
  · exact (key _ (h _ hc)).2.2.2.2.2.2 rfl

/-- **C10**, decimal integers: the radix, the sign and the digits without underscores are
kept. -/
theorem c10_decimal (sign : Option Char) (d : Char) (ds : Str) (hs : SignOk sign) (hd : d ∈ "0123456789".toList)
    (hds : ∀ c ∈ ds, c ∈ "0123456789".toList ∨ c = '_') :
    ReadAs (sign.toList ++ d :: ds) (.int .dec (sign.toList ++ d :: ds.filter (· != '_'))) ∧
    ∀ f, NumberEnd f → Reads literal (sign.toList ++ d :: ds) (.int .dec (sign.toList ++ d :: ds.filter (· != '_'))) f := by
  have hl : (Lit.num (.dec sign d ds none none)).Ok := ⟨hs, hd, hds, by simp, by simp⟩
  have ht : (Lit.num (.dec sign d ds none none)).text = sign.toList ++ d :: ds := by simp [Lit.text, Num.text, fracText, expText]
  have hdu : d ≠ '_' := by rintro rfl; revert hd; decide
  have hv : (Lit.num (.dec sign d ds none none)).value = .int .dec (sign.toList ++ d :: ds.filter (· != '_')) := by
    rcases hs with rfl | rfl | rfl <;> simp [Lit.value, Num.value, strip, hdu]
  rw [← ht, ← hv]
  exact ⟨readAs_lit _ hl, fun f hf => reads_lit _ hl f (Or.inl hf.end)⟩

/-- **C10**, binary, octal and hexadecimal integers. -/
theorem c10_radix (sign : Option Char) (r : Radix) (mark : Char) (digits : Str)
    (hr : (r, mark, digits) ∈ [(Radix.bin, 'b', "01".toList), (.oct, 'o', "01234567".toList),
      (.hex, 'x', "0123456789abcdefABCDEF".toList)])
    (d : Char) (ds : Str) (hs : SignOk sign) (hd : d ∈ digits) (hds : ∀ c ∈ ds, c ∈ digits ∨ c = '_') :
    ReadAs (sign.toList ++ '0' :: mark :: d :: ds) (.int r (sign.toList ++ d :: ds.filter (· != '_'))) ∧
    ∀ f, NumberEnd f →
      Reads literal (sign.toList ++ '0' :: mark :: d :: ds) (.int r (sign.toList ++ d :: ds.filter (· != '_'))) f := by
  have e : mark = radixMark r ∧ digits = Cst.radixDigits r ∧ r ≠ .dec ∧ '_' ∉ digits := by
    simp only [List.mem_cons, Prod.mk.injEq, List.not_mem_nil, or_false] at hr
    rcases hr with ⟨rfl, rfl, rfl⟩ | ⟨rfl, rfl, rfl⟩ | ⟨rfl, rfl, rfl⟩ <;> decide
  obtain ⟨rfl, rfl, h0, h1⟩ := e
  have hl : (Lit.num (.radix sign r d ds)).Ok := ⟨hs, h0, hd, hds⟩
  have ht : (Lit.num (.radix sign r d ds)).text = sign.toList ++ '0' :: radixMark r :: d :: ds := rfl
  have hdu : d ≠ '_' := by rintro rfl; exact h1 hd
  have hv : (Lit.num (.radix sign r d ds)).value = .int r (sign.toList ++ d :: ds.filter (· != '_')) := by
    simp [Lit.value, Num.value, strip, hdu]
  rw [← hv, ← ht]
  clear hv ht
  exact ⟨readAs_lit _ hl, fun f hf => reads_lit _ hl f (Or.inl hf.end)⟩

example : ReadAs "-1_0__2".toList (.int .dec "-102".toList) :=
  (c10_decimal (some '-') '1' "_0__2".toList (Or.inr (Or.inr rfl)) (by decide) (by decide)).1
example : ReadAs "+0xfF_1".toList (.int .hex "+fF1".toList) :=
  (c10_radix (some '+') .hex 'x' "0123456789abcdefABCDEF".toList (by decide) 'f' "F_1".toList (Or.inr (Or.inl rfl)) (by decide) (by decide)).1

/-- The fraction: nothing, or a point and at least one digit. -/
inductive Fraction : Str → Prop where
  | none : Fraction []
  | some (d : Char) (ds : Str) (hd : d ∈ "0123456789".toList) (hds : ∀ c ∈ ds, c ∈ "0123456789".toList ∨ c = '_') :
      Fraction ('.' :: d :: ds)

/-- The exponent: nothing, or `e` or `E`, an optional sign and digits.  (knuffel also
accepts an exponent without digits.) -/
inductive Exponent : Str → Prop where
  | none : Exponent []
  | some (e : Char) (sign : Option Char) (ds : Str) (he : e = 'e' ∨ e = 'E') (hs : SignOk sign)
      (hds : ∀ c ∈ ds, c ∈ "0123456789".toList ∨ c = '_') : Exponent (e :: sign.toList ++ ds)

/-- **C11.** A number with a fraction or an exponent is read as a decimal; its text is
kept, without underscores. -/
theorem c11_decimal (sign : Option Char) (d : Char) (ds frac exp : Str) (hs : SignOk sign) (hd : d ∈ "0123456789".toList)
    (hds : ∀ c ∈ ds, c ∈ "0123456789".toList ∨ c = '_') (hf : Fraction frac) (he : Exponent exp) (hne : frac ++ exp ≠ []) :
    ReadAs (sign.toList ++ d :: ds ++ frac ++ exp) (.decimal ((sign.toList ++ d :: ds ++ frac ++ exp).filter (· != '_'))) ∧
    ∀ f, NumberEnd f → Reads literal (sign.toList ++ d :: ds ++ frac ++ exp)
      (.decimal ((sign.toList ++ d :: ds ++ frac ++ exp).filter (· != '_'))) f := by
  obtain ⟨fr, hfr, hfr'⟩ : ∃ fr, fracText fr = frac ∧ ∀ d' ds', fr = some (d', ds') → d' ∈ decDigits ∧ DigitsOk .dec ds' := by
    cases hf with
    | none => exact ⟨none, rfl, by simp⟩
    | some d ds h1 h2 =>
      refine ⟨some (d, ds), rfl, ?_⟩
      rintro _ _ h
      cases h
      exact ⟨h1, h2⟩
  obtain ⟨ex, hex, hex'⟩ : ∃ ex, expText ex = exp ∧
      ∀ e s' ds', ex = some (e, s', ds') → (e = 'e' ∨ e = 'E') ∧ SignOk s' ∧ DigitsOk .dec ds' := by
    cases he with
    | none => exact ⟨none, rfl, by simp⟩
    | some e sg ds h1 h2 h3 =>
      refine ⟨some (e, sg, ds), rfl, ?_⟩
      rintro _ _ _ h
      cases h
      exact ⟨h1, h2, h3⟩
  have hl : (Lit.num (.dec sign d ds fr ex)).Ok := ⟨hs, hd, hds, hfr', hex'⟩
  have ht : (Lit.num (.dec sign d ds fr ex)).text = sign.toList ++ d :: ds ++ frac ++ exp := by
    simp [Lit.text, Num.text, hfr, hex]
  have hv : (Lit.num (.dec sign d ds fr ex)).value = .decimal ((sign.toList ++ d :: ds ++ frac ++ exp).filter (· != '_')) := by
    have : fr.isSome ∨ ex.isSome := by
      cases fr with
      | some x => exact Or.inl rfl
      | none =>
        cases ex with
        | some x => exact Or.inr rfl
        | none => exact absurd (by rw [← hfr, ← hex]; rfl) hne
    simp only [Lit.value, Num.value, if_pos this, hfr, hex, strip]
  rw [← hv, ← ht]
  exact ⟨readAs_lit _ hl, fun f hf => reads_lit _ hl f (Or.inl hf.end)⟩

/-- **C11**, the other direction: in an accepted document, a value is a decimal only if a
number with a fraction or an exponent was written there, and an integer only if a number
with neither was written. -/
theorem c11_only (l : Lit) (hl : l.Ok) :
    (∀ t, l.value = .decimal t → t = l.text.filter (· != '_') ∧ ∃ c ∈ ['.', 'e', 'E'], c ∈ l.text) ∧
    (∀ t, l.value = .int .dec t → t = l.text.filter (· != '_') ∧ ∀ c ∈ ['.', 'e', 'E'], c ∉ l.text) := by
  cases l with
  | str s => simp [Lit.value]
  | null => simp [Lit.value]
  | bool b => simp [Lit.value]
  | num n =>
    cases n with
    | radix sg r d ds =>
      refine ⟨by simp [Lit.value, Num.value], ?_⟩
      intro t h
      simp only [Lit.value, Num.value, Literal.int.injEq] at h
      exact absurd h.1 hl.2.1
    | dec sg d ds fr ex =>
      obtain ⟨h1, h2, h3, h4, h5⟩ := hl
      simp only [Lit.value, Num.value, Lit.text, Num.text]
      by_cases hc : fr.isSome ∨ ex.isSome
      · simp only [if_pos hc]
        refine ⟨?_, by simp⟩
        intro t h
        simp only [Literal.decimal.injEq] at h
        refine ⟨h.symm, ?_⟩
        rcases hc with hc | hc
        · obtain ⟨⟨a, b⟩, rfl⟩ := Option.isSome_iff_exists.1 hc
          exact ⟨'.', by simp, by simp [fracText]⟩
        · obtain ⟨⟨a, b, c⟩, rfl⟩ := Option.isSome_iff_exists.1 hc
          rcases (h5 _ _ _ rfl).1 with rfl | rfl
          · exact ⟨'e', by simp, by simp [expText]⟩
          · exact ⟨'E', by simp, by simp [expText]⟩
      · simp only [if_neg hc]
        refine ⟨by simp, ?_⟩
        intro t h
        simp only [Literal.int.injEq, true_and] at h
        have hfr : fr = none := by cases fr with | none => rfl | some _ => simp at hc
        have hex : ex = none := by cases ex with | none => rfl | some _ => simp at hc
        subst hfr; subst hex
        simp only [fracText, expText, List.append_nil]
        refine ⟨by rw [← h]; rfl, ?_⟩
        intro c hc' hm
        have hall : ∀ c ∈ ['.', 'e', 'E'], c ∉ decDigits ∧ c ≠ '_' ∧ c ≠ '+' ∧ c ≠ '-' := by decide
        obtain ⟨a1, a2, a3, a4⟩ := hall c hc'
        simp only [List.mem_append, List.mem_cons] at hm
        rcases hm with hm | rfl | hm
        · rcases h1 with rfl | rfl | rfl <;> simp at hm
          · exact a3 hm
          · exact a4 hm
        · exact a1 h2
        · rcases h3 c hm with h | h
          · exact a1 h
          · exact a2 h

example : ReadAs "-1_0.2_5E+3".toList (.decimal "-10.25E+3".toList) :=
  (c11_decimal (some '-') '1' "_0".toList ".2_5".toList "E+3".toList (Or.inr (Or.inr rfl)) (by decide) (by decide)
    (.some '2' "_5".toList (by decide) (by decide)) (.some 'E' (some '+') ['3'] (Or.inr rfl) (Or.inr (Or.inl rfl)) (by decide))
    (by decide)).1

/-! ### C15 -/

/-- **C15.** A sequence of characters is read by `bare_ident` as one complete identifier
exactly if it is a legal identifier, and the identifier read is that sequence. -/
theorem c15_bare_ident (O : Type) (eoi : Sp O) (s : List (Tok O)) (v : Str) :
    Ok bareIdent eoi s v [] ↔ v = chars s ∧ BareIdent (chars s) := by
  constructor
  · intro h
    obtain ⟨h1, h2, -⟩ := bareIdent_sound h
    have := h2.chars
    simp at this
    rw [this]
    exact ⟨rfl, h1⟩
  · rintro ⟨rfl, h⟩
    obtain ⟨t, hT, ht⟩ := takes_of_chars (s := s) (a := chars s) (b := []) (by simp)
    rw [chars_eq_nil] at ht
    rw [ht] at hT
    exact bareIdent_complete h hT (by simp [IdentEnd])

/-- **C15**, in a document: an identifier (not beginning with a byte order mark, which is
white space) is a node name. -/
theorem c15_node_name (s : Str) (h : BareIdent s) (hb : s.head? ≠ some '\uFEFF') :
    ∃ d, parseAst s = some (.ok d) ∧ d.erase = ⟨[⟨(), .mk none ⟨(), s⟩ [] [] none⟩]⟩ := by
  obtain ⟨b, hb'⟩ : ∃ b : BodyC, b = .cons [] none (.mk none (.bare s) [] .none [] .eof) (.nil []) := ⟨_, rfl⟩
  have hok : b.Ok true [] := by
    rw [hb']
    exact ⟨trivial, trivial, ⟨trivial, h, hb, by simp [NameEndOk, itemsText, spacesText, ChildrenC.text, Term.text, BodyC.text, linesText],
      trivial, trivial, trivial, rfl⟩, trivial⟩
  have ht : b.text = s := by
    rw [hb']
    simp [BodyC.text, NodeC.text, ChildrenC.text, Term.text, linesText, dashText, tyText, itemsText, spacesText, Name.text]
  refine ⟨_, parse_complete b hok ht, ?_⟩
  refine (meaning_of_value hok).trans ?_
  rw [hb', BodyC.meaning]
  refine (congrArg Document.mk (body_top 0 _)).trans ?_
  simp only [BodyC.top, List.map_cons, List.map_nil]
  rw [node_meaning]
  rfl

/-- **C15**, the other direction: if the name of a node is written in all of the text, the
text is a bare identifier or a quoted string. -/
theorem c15_only (s : Str) (d : Document (Sp Nat)) (h : parseAst s = some (.ok d)) (n : SpannedNode (Sp Nat)) (hn : n ∈ d.nodes)
    (hs : n.value.nodeName.span = ⟨0, byteLen s⟩) :
    (BareIdent s ∧ n.value.nodeName.value = s) ∨ ∃ t, s = '"' :: t ++ ['"'] := by
  have hw := c16_c17_written s d h
  have key : ∀ l : List (SpannedNode (Sp Nat)), n ∈ l → WrittenNodes s l → n.value.Written s := by
    intro l
    induction l with
    | nil => intro h; simp at h
    | cons m l ih =>
      obtain ⟨sp, m⟩ := m
      intro h1 h2
      rcases List.mem_cons.1 h1 with rfl | h1
      · exact h2.1
      · exact ih h1 h2.2
  have hw := key _ hn hw
  obtain ⟨sp, n⟩ := n
  cases n with
  | mk ty name args props children =>
    obtain ⟨m, h1, ⟨u, w, h2, h3⟩, h4⟩ := hw.2.1
    simp only [Node.nodeName] at hs h4 ⊢
    rw [hs] at h3
    simp only [Sp.mk.injEq] at h3
    have hnil : ∀ x : Str, byteLen x = 0 → x = [] := by
      intro x hx
      cases x with
      | nil => rfl
      | cons c x =>
        exfalso
        have := Char.utf8Size_pos c
        simp [byteLen] at hx
        omega
    have hu := hnil u h3.1.symm
    subst hu
    have hw0 : w = [] := by
      apply hnil
      rw [h2, byteLen_append] at h3
      simp at h3
      omega
    subst hw0
    simp at h2
    cases m with
    | bare v =>
      simp only [Name.text] at h2
      subst h2
      exact Or.inl ⟨h1, h4⟩
    | quoted l => exact Or.inr ⟨l.flatMap StrChar.text, h2⟩

theorem bareDemo : BareIdent "-+a1".toList := by
  refine ⟨⟨Or.inl ⟨Or.inr rfl, ?_⟩, ?_⟩, by decide⟩
  · rw [← isIdSansDig_iff]; decide
  · have : ∀ x ∈ "a1".toList, isIdChar x = true := by decide
    intro x hx
    rw [← isIdChar_iff]
    exact this x hx

example : ∃ d, parseAst "-+a1".toList = some (.ok d) ∧ d.erase = ⟨[⟨(), .mk none ⟨(), "-+a1".toList⟩ [] [] none⟩]⟩ :=
  c15_node_name _ bareDemo (by decide)

/-! ### C27 -/

/-- The documented names of the built-in types. -/
def builtinNames : List (BuiltinType × Str) :=
  [(.u8, "u8".toList), (.i8, "i8".toList), (.u16, "u16".toList), (.i16, "i16".toList), (.u32, "u32".toList), (.i32, "i32".toList),
   (.u64, "u64".toList), (.i64, "i64".toList), (.usize, "usize".toList), (.isize, "isize".toList), (.f32, "f32".toList),
   (.f64, "f64".toList), (.base64, "base64".toList)]

theorem fromStr_some {s : Str} {b : BuiltinType} (h : BuiltinType.fromStr s = some b) : s = b.asStr := by
  unfold BuiltinType.fromStr at h
  have step : ∀ (p : Prop) [Decidable p] (x : BuiltinType) (r : Option BuiltinType), (if p then some x else r) = some b →
      (p ∧ x = b) ∨ r = some b := by
    intro p _ x r h
    by_cases hp : p
    · rw [if_pos hp] at h; exact Or.inl ⟨hp, Option.some.inj h⟩
    · rw [if_neg hp] at h; exact Or.inr h
  iterate 11
    rcases step _ _ _ h with ⟨h1, h2⟩ | h'
    · rw [← h2]; exact h1
    clear h
    have h := h'
    clear h'
  exact absurd h (by simp)

/-- **C27**, second half, for the names knuffel knows: a text is recognised as a built-in
type exactly if it is the documented name of that type. -/
theorem c27_recognised_partial (s : Str) (b : BuiltinType) (hb : b ≠ .usize ∧ b ≠ .isize) :
    TypeName.fromString s = .builtin b ↔ (b, s) ∈ builtinNames := by
  have h1 : TypeName.fromString s = .builtin b ↔ BuiltinType.fromStr s = some b := by
    unfold TypeName.fromString
    cases BuiltinType.fromStr s <;> simp
  have h2 : (b, s) ∈ builtinNames ↔ s = b.asStr := by
    have e : builtinNames = [BuiltinType.u8, .i8, .u16, .i16, .u32, .i32, .u64, .i64, .usize, .isize, .f32, .f64, .base64].map
        (fun b => (b, b.asStr)) := rfl
    rw [e, List.mem_map]
    constructor
    · rintro ⟨a, -, h⟩
      cases h
      rfl
    · rintro rfl
      exact ⟨b, by cases b <;> decide, rfl⟩
  rw [h1, h2]
  constructor
  · exact fromStr_some
  · rintro rfl
    revert hb
    cases b <;> decide

example : TypeName.fromString "f32".toList = .builtin .f32 :=
  (c27_recognised_partial _ .f32 (by decide)).2 (by decide)

/-- **C27**, first half: from a text to a type name and back. -/
theorem c27_text (s : Str) : (TypeName.fromString s).asStr = s := by
  unfold TypeName.fromString
  cases h : BuiltinType.fromStr s with
  | none => rfl
  | some b => exact (fromStr_some h).symm

/-- **C27**, first half, for all type names that can be made (from a text or from a
built-in type) except `usize` and `isize`: to a text and back. -/
theorem c27_roundtrip_partial (t : TypeName) (ht : (∃ s, t = TypeName.fromString s) ∨ ∃ b, t = BuiltinType.asType b)
    (h : t ≠ .builtin .usize ∧ t ≠ .builtin .isize) : TypeName.fromString t.asStr = t := by
  rcases ht with ⟨s, rfl⟩ | ⟨b, rfl⟩
  · rw [c27_text]
  · revert h
    cases b <;> decide

example : TypeName.fromString "u8".toList = .builtin .u8 ∧ (TypeName.fromString "date".toList).asStr = "date".toList := by decide

/-- **C27 fails**: the documented names `usize` and `isize` are not recognised. -/
theorem c27_fails : ∀ t ∈ [BuiltinType.usize, .isize],
    TypeName.fromString (TypeName.asStr (.builtin t)) = .custom (TypeName.asStr (.builtin t)) ∧
    TypeName.fromString (TypeName.asStr (.builtin t)) ≠ .builtin t := by decide

end Knuffel
