import Verif.Theory.FaultDoc
import Verif.Theory.Lines
import Verif.Props.Layout
/-!
# Faults that do not stop the parser

C80: a text that follows the grammar except for words where arguments should stand and wrong escapes
in quoted strings is rejected with one diagnostic for each of these, in the order of the text.
-/

namespace Knuffel

open Cst

/-- What is due, with the spans of the tokens or with those of the characters. -/
theorem says_of_due {O : Type} [Offset O] {eoi : Sp O} {all : List (Tok O)} {text : Str} {f : Nat → Nat → Sp O}
    (ht : chars all = text) (hf : ∀ i j, i < j → j ≤ text.length → spf eoi all i j = f i j) (a : Fault) (e : PErr O)
    (h : Due eoi all a e) : a.Says text f e := by
  subst ht
  have hl : (chars all).length = all.length := by simp [chars]
  rw [hl] at hf
  cases a with
  | word i j =>
    obtain ⟨⟨h1, h2⟩, h3⟩ := h
    have h3 : e = _ := h3
    show e = _
    rw [h3, hf i j h1 h2]
  | char i =>
    obtain ⟨h1, c, l, x, h2, h3⟩ := h
    exact ⟨c, l, x, h2, by rw [h3, hf i (i + 1) (by omega) h1]⟩
  | code i j =>
    obtain ⟨⟨h1, h2⟩, h3⟩ := h
    have h3 : e = _ := h3
    show e = _
    rw [h3, hf i j h1 h2]

/-- **C80**: the diagnostics of a text with faults of the two kinds are, one by one and in the
order of the text, what is due for its faults; and there is no other. -/
theorem c80_each_fault_once {text : Str} (b : BodyF) (hok : b.Ok []) (ht : b.text = text)
    (hf : b.faults 0 ≠ []) :
    ∃ es, parseAst text = some (.error es) ∧
      Matching (Fault.Says text (byteSpan text)) (b.faults 0) es := by
  have hc : chars (offsetToks 0 text) = text := chars_offsetToks 0 text
  obtain ⟨es, h1, h2⟩ := (run_faults (eoi := offsetEoi text) (all := offsetToks 0 text) b hok
    (by rw [hc, ht])).2 hf
  exact ⟨es, h1, matching_imp h2 (says_of_due hc (fun i j h h' => offset_spf h h'))⟩

/-- **C80**, with line spans. -/
theorem c80_each_fault_once_line {width : Char → Nat} {strWidth : Str → Nat} {text : Str} (b : BodyF)
    (hok : b.Ok []) (ht : b.text = text) (hf : b.faults 0 ≠ []) :
    ∃ es, parseAstLine width strWidth text = some (.error es) ∧
      Matching (Fault.Says text (lineSpan width text)) (b.faults 0) es := by
  have hc : chars (lineToks width .init text) = text := chars_lineToks width .init text
  obtain ⟨es, h1, h2⟩ := (run_faults (eoi := lineEoi strWidth text) (all := lineToks width .init text) b hok
    (by rw [hc, ht])).2 hf
  refine ⟨es, h1, matching_imp h2 (says_of_due hc (fun i j h h' => ?_))⟩
  have hl := lineToks_length width .init text
  rw [← trackSpan_eq]
  refine spf_of_get (pos := fun i => trackPos (trackAll width .init (text.take i))) ?_ h (by omega)
  intro k hk
  exact ⟨_, lineToks_get (by omega)⟩

/-- **C80**: as many diagnostics as faults. -/
theorem c80_count {text : Str} (b : BodyF) (hok : b.Ok []) (ht : b.text = text) {es : List (PErr Nat)}
    (h : parseAst text = some (.error es)) : es.length = (b.faults 0).length := by
  by_cases hf : b.faults 0 = []
  · have hc : chars (offsetToks 0 text) = text := chars_offsetToks 0 text
    obtain ⟨d, h1⟩ := (run_faults (eoi := offsetEoi text) (all := offsetToks 0 text) b hok
      (by rw [hc, ht])).1 hf
    have h : runParser document (offsetEoi text) (offsetToks 0 text) = _ := h
    rw [h1] at h
    simp at h
  · obtain ⟨es', h1, h2⟩ := c80_each_fault_once b hok ht hf
    rw [h1] at h
    simp only [Option.some.injEq, Except.error.injEq] at h
    subst h
    exact (Matching.length h2).symm

/-- **C80**: with no fault the text is accepted. -/
theorem c80_no_fault {text : Str} (b : BodyF) (hok : b.Ok []) (ht : b.text = text) :
    b.faults 0 = [] ↔ ∃ d, parseAst text = some (.ok d) := by
  have hc : chars (offsetToks 0 text) = text := chars_offsetToks 0 text
  constructor
  · exact (run_faults (eoi := offsetEoi text) (all := offsetToks 0 text) b hok (by rw [hc, ht])).1
  · rintro ⟨d, hd⟩
    by_cases hf : b.faults 0 = []
    · exact hf
    · obtain ⟨es, h1, -⟩ := c80_each_fault_once b hok ht hf
      rw [h1] at hd
      simp at hd

namespace FaultsDemo

/-- The tree of `text_eq`: a word, two wrong escapes, in the block a node that
is commented out with a word, and a property without a fault. -/
def tree : BodyF :=
  .cons [] none (.mk none (.bare ['a'])
    [⟨[.ws (.char ' ')], none, .word ['b']⟩,
     ⟨[.ws (.char ' ')], none, .arg ⟨none, .quoted
        [.bad ['{', '1', '1', '0', '0', '0', '0'], .good (.plain '}'), .bad ['q'], .good (.esc '"')]⟩⟩]
    (.some [.ws (.char ' ')] none
      (.cons [] (some []) (.mk none (.bare ['b']) [⟨[.ws (.char ' ')], none, .word ['a']⟩] .none [] .semicolon)
      (.cons [] none (.mk none (.bare ['a'])
        [⟨[.ws (.char ' ')], none, .prop (.good (.bare ['a'])) ⟨none, .quoted [.good (.unicode ['d', '8'])]⟩⟩]
          .none [] .semicolon)
      (.nil []))))
    [] .eof) (.nil [])

/-- Its text. -/
def text : Str := tree.text

theorem text_eq : text = "a b \"\\u{110000}\\uq\\\"\" {/-b a;a a=\"\\u{d8}\";}".toList := by decide +kernel

theorem faults_eq : tree.faults 0 = [.word 2 3, .code 7 15, .char 17, .word 27 28] := by decide +kernel

theorem word1 (c : Char) (h : BareIdent [c]) (hc : c ≠ '\ufeff') : (PropName.bare [c]).Ok := by
  refine ⟨h, ?_, ?_⟩
  · intro k hk
    simp only [keywords, List.mem_cons, List.not_mem_nil, or_false] at hk
    rcases hk with rfl | rfl | rfl <;> rintro ⟨t, ht⟩ <;> simp at ht
  · simpa using hc

theorem ok : tree.Ok [] := by
  have ha : BareIdent ['a'] := ident_demo 'a' (.inl rfl)
  have hb : BareIdent ['b'] := ident_demo 'b' (.inr rfl)
  have wa := word1 'a' ha (by decide)
  have wb := word1 'b' hb (by decide)
  simp [tree, BodyF.Ok, NodeF.Ok, LinesOk, DashOk, TyOkF, NameF.Ok, NameStartOkF, NameEndOkF, ItemsOkF, ItemF.Ok, SpacesOk,
    Space.Ok, Ws.Ok, EntryF.Ok, ValF.Ok, LitF.Ok, ChildrenF.Ok, Term.Ok, itemsTextF, ItemF.text, spacesText,
    Space.text, Ws.text, BodyF.text, NodeF.text, Term.text, ChildrenF.text, tyTextF, NameF.text, linesText, dashText,
    QuotedOk, PiecesOk, Piece.Ok, PropNameF.Ok, EntryF.text, ValF.text, LitF.text, quotedTextF, piecesText, Piece.text,
    StrChar.text, PropNameF.text, PropName.text, resume, ha, hb, wa, wb]
  refine ⟨⟨by decide, ?_, ?_, ?_⟩, by decide, ?_⟩ <;> unfold StrChar.Ok <;> decide

end FaultsDemo

/-- The text of `text_eq` has four diagnostics. -/
example : ∃ es, parseAst FaultsDemo.text = some (.error es) ∧ es.length = 4 := by
  obtain ⟨es, h1, h2⟩ := c80_each_fault_once FaultsDemo.tree FaultsDemo.ok rfl (by rw [FaultsDemo.faults_eq]; simp)
  exact ⟨es, h1, by rw [c80_count FaultsDemo.tree FaultsDemo.ok rfl h1, FaultsDemo.faults_eq]; rfl⟩

/-- The last of them, with lines and columns: the word in the node that is commented out. -/
example (width : Char → Nat) (strWidth : Str → Nat) :
    ∃ e1 e2 e3, parseAstLine width strWidth FaultsDemo.text = some (.error [e1, e2, e3,
      .messageWithHelp (some "unexpected identifier".toList) (lineSpan width FaultsDemo.text 27 28)
        "identifiers cannot be used as arguments".toList "consider enclosing in double quotes \"..\"".toList]) := by
  obtain ⟨es, h1, h2⟩ := c80_each_fault_once_line (width := width) (strWidth := strWidth) FaultsDemo.tree FaultsDemo.ok rfl
    (by rw [FaultsDemo.faults_eq]; simp)
  rw [FaultsDemo.faults_eq] at h2
  rcases h2 with _ | ⟨_, _ | ⟨_, _ | ⟨_, _ | ⟨h3, _ | _⟩⟩⟩⟩
  have h3 : _ = _ := h3
  subst h3
  exact ⟨_, _, _, h1⟩

/-- A text of the same shape without faults. -/
example : ∃ d, parseAst "a".toList = some (.ok d) :=
  (c80_no_fault (.cons [] none (.mk none (.bare ['a']) [] .none [] .eof) (.nil [])) (by
    have ha : BareIdent ['a'] := ident_demo 'a' (.inl rfl)
    simp [BodyF.Ok, NodeF.Ok, LinesOk, DashOk, TyOkF, NameF.Ok, NameStartOkF, NameEndOkF, ItemsOkF, SpacesOk,
      ChildrenF.Ok, Term.Ok, itemsTextF, ChildrenF.text, spacesText, Term.text, BodyF.text, linesText, ha]) (by decide +kernel)).1 rfl

end Knuffel
