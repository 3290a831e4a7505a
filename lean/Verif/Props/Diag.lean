import Verif.Theory.TruthDoc
import Verif.Theory.LineErrors
import Verif.Props.Spans
import Verif.Props.Total
/-!
# C54: what the diagnostics say is true of the text
-/

namespace Knuffel

open Cst

/-- **C54.** Every diagnostic of a text that does not parse is true of the text: what is said to
be found is what is at its span, what is said to be not closed is opened where the diagnostic
points and is not closed after that, a bad character code is one, a number used as a name
is a number before an equals sign, an identifier used as an argument is an identifier. -/
theorem c54_true (text : Str) (es : List (PErr Nat)) (h : parseAst text = some (.error es)) :
    ∀ e ∈ es, e.TrueOf text := parse_true h

/-- **C54**, for line spans. -/
theorem c54_true_line (width : Char → Nat) (strWidth : Str → Nat) (text : Str) (es : List (PErr LinePos))
    (h : parseAstLine width strWidth text = some (.error es)) :
    ∀ e ∈ es, (e.mapSpan LinePos.toOffsetSpan).TrueOf text := by
  rcases c21_line_agrees width strWidth text with ⟨d, h1, _⟩ | ⟨es', h1, h2⟩
  · rw [h] at h1; simp at h1
  · rw [h] at h1
    injection h1 with h1
    injection h1 with h1
    subst h1
    intro e he
    exact c54_true text _ h2 _ (List.mem_map_of_mem he)

/-- The errors of a text. -/
private def errorsOf (text : Str) : List (PErr Nat) :=
  match parseAst text with
  | some (.error es) => es
  | _ => []

private theorem errorsOf_spec {text : Str} {es : List (PErr Nat)} (h : decide (errorsOf text = es) = true) (hne : es ≠ []) :
    parseAst text = some (.error es) := by
  have h := of_decide_eq_true h
  unfold errorsOf at h
  split at h
  · rename_i hp; rw [hp, h]
  · exact absurd h.symm hne

/-- An unclosed string: opened at the `"`. -/
example : parseAst "n \"äb".toList = some (.error [.unclosed "string".toList ⟨2, 3⟩ (.char '"') ⟨6, 6⟩ (.char '"') .eoi]) :=
  errorsOf_spec (by decide +kernel) (by simp)

/-- An unclosed raw string. -/
example : parseAst "n (t)r#\"a\"".toList =
    some (.error [.unclosed "raw string".toList ⟨5, 8⟩ (.openRaw 1) ⟨10, 10⟩ (.closeRaw 1) .eoi]) :=
  errorsOf_spec (by decide +kernel) (by simp)

/-- An unclosed comment. -/
example : parseAst "n /* /* */".toList =
    some (.error [.unclosed "comment".toList ⟨2, 4⟩ (.token "/*".toList) ⟨10, 10⟩ (.token "*/".toList) .eoi]) :=
  errorsOf_spec (by decide +kernel) (by simp)

/-- Unclosed braces: the innermost. -/
example : parseAst "n { m { a; ".toList =
    some (.error [.unclosed "curly braces".toList ⟨6, 7⟩ (.char '{') ⟨11, 11⟩ (.char '}') .eoi]) :=
  errorsOf_spec (by decide +kernel) (by simp)

/-- A keyword, a number and an identifier where they must not be; a code that is not a character. -/
example :
    parseAst "n (true)1".toList =
      some (.error [.unexpected (some "keyword".toList) ⟨3, 7⟩ (.token "true".toList) [.kind "identifier".toList]]) ∧
    parseAst "n null=1".toList =
      some (.error [.unexpected (some "unexpected keyword".toList) ⟨2, 6⟩ (.kind "keyword".toList)
        [.kind "identifier".toList, .kind "string".toList]]) ∧
    parseAst "+12 a".toList =
      some (.error [.unexpected (some "unexpected number".toList) ⟨0, 3⟩ (.kind "number".toList) [.kind "identifier".toList]]) ∧
    parseAst "n 12=2".toList =
      some (.error [.messageWithHelp (some "unexpected number".toList) ⟨2, 4⟩ "numbers cannot be used as property names".toList
        "consider enclosing in double quotes \"..\"".toList]) ∧
    parseAst "n ab".toList =
      some (.error [.messageWithHelp (some "unexpected identifier".toList) ⟨2, 4⟩ "identifiers cannot be used as arguments".toList
        "consider enclosing in double quotes \"..\"".toList]) ∧
    parseAst "n \"\\u{d800}\"".toList =
      some (.error [.message (some "invalid character code".toList) ⟨5, 11⟩
        "converted integer out of range for `char`".toList]) :=
  ⟨errorsOf_spec (by decide +kernel) (by simp), errorsOf_spec (by decide +kernel) (by simp),
    errorsOf_spec (by decide +kernel) (by simp), errorsOf_spec (by decide +kernel) (by simp),
    errorsOf_spec (by decide +kernel) (by simp), errorsOf_spec (by decide +kernel) (by simp)⟩

/-- **C54**, a limit of the code: the place where the closing token is missed is not always the
end of the text, though the end of the text is what is said to be found.  In `n "abc\u` it is
before the `u`. -/
theorem c54_missed_at_end_fails :
    ∃ text es name openedAt opening expectedAt closing,
      parseAst text = some (.error es) ∧ .unclosed name openedAt opening expectedAt closing .eoi ∈ es ∧
      expectedAt ≠ ⟨byteLen text, byteLen text⟩ := by
  refine ⟨"n \"abc\\u".toList, _, "string".toList, ⟨2, 3⟩, .char '"', ⟨7, 7⟩, .char '"',
    errorsOf_spec (es := [.unclosed "string".toList ⟨2, 3⟩ (.char '"') ⟨7, 7⟩ (.char '"') .eoi]) (by decide +kernel) (by simp),
    by simp, by decide⟩

/-- **C54**, another limit of the code: the advice that identifiers cannot be used as arguments is
also given of a property name, if its value is not a value. -/
theorem c54_advice_fails :
    ∃ text es sp m help,
      parseAst text = some (.error es) ∧
      .messageWithHelp (some "unexpected identifier".toList) sp m help ∈ es ∧
      CoversName text sp "k".toList := by
  refine ⟨"n k=]".toList, _, ⟨2, 3⟩, "identifiers cannot be used as arguments".toList,
    "consider enclosing in double quotes \"..\"".toList, errorsOf_spec (es := errorsOf "n k=]".toList) (by decide +kernel) ?_,
    ?_, "n ".toList, "]".toList, by decide, by decide⟩
  · decide +kernel
  · decide +kernel

/-! ### C22 for diagnostics -/

/-- **C22, for diagnostics**: if the end of input is where it should be (C23: no tab in the last
line) and the characters of the opening tokens take one column each, every span of every
diagnostic is between two places of the text, in bytes, lines and columns. -/
theorem c22_errors (width : Char → Nat) (strWidth : Str → Nat) (text : Str) (es : List (PErr LinePos))
    (hw : ∀ c ∈ ['"', 'r', '#', '{', '/', '*'], width c = 1)
    (hs : SumWidth width strWidth) (ht : '\t' ∉ currentLine text)
    (h : parseAstLine width strWidth text = some (.error es)) :
    ∀ e ∈ es, ∀ sp ∈ e.spans, ∃ i j, i ≤ j ∧ j ≤ text.length ∧
      sp = ⟨linePos width (text.take i), linePos width (text.take j)⟩ := by
  refine errors_at_places hw ?_ h (c54_true_line width strWidth text es h)
  obtain ⟨p, h1, h2, h3, h4⟩ := c23_eoi_position_partial width strWidth text
  rw [h1]
  have : p = linePos width text := by
    have h4 := h4 hs ht
    cases p
    simp only at h2 h3 h4
    rw [h2, h3, h4]
  rw [this]

/-- **C22, for diagnostics**: whatever the widths, the bytes and the lines are those of places of
the text. -/
theorem c22_errors_lines (width : Char → Nat) (strWidth : Str → Nat) (text : Str) (es : List (PErr LinePos))
    (h : parseAstLine width strWidth text = some (.error es)) :
    ∀ e ∈ es, ∀ sp ∈ e.spans, ∃ i j, i ≤ j ∧ j ≤ text.length ∧
      sp.start.offset = byteLen (text.take i) ∧ sp.start.line = newlines (text.take i) ∧
      sp.stop.offset = byteLen (text.take j) ∧ sp.stop.line = newlines (text.take j) := by
  obtain ⟨es', h1, h2⟩ := errors_noCols (width' := fun _ => 1)
    (strWidth' := fun _ => (linePos (fun _ => 1) text).column) h
  intro e he sp hsp
  obtain ⟨e', h3, h4⟩ := h2 e he
  have hend : lineEoi (fun _ => (linePos (fun _ => 1) text).column) text =
      ⟨linePos (fun _ => 1) text, linePos (fun _ => 1) text⟩ := by
    obtain ⟨p, g1, g2, g3, _⟩ := c23_eoi_position_partial (fun _ => 1) (fun _ => (linePos (fun _ => 1) text).column) text
    have : p = linePos (fun _ => 1) text := by
      have g4 : p.column = (linePos (fun _ => 1) text).column := by
        have := congrArg (fun s => s.start.column) g1
        exact this.symm
      cases p
      simp only at g2 g3 g4
      rw [g2, g3, g4]
    rw [g1, this]
  have h5 := errors_at_places (fun _ _ => rfl) hend h1 (c54_true_line _ _ text es' h1) e' h3
  have h6 : noCols sp ∈ e'.spans.map noCols := by
    have : e'.spans.map noCols = e.spans.map noCols := by
      have hm : ∀ x : PErr LinePos, x.spans.map noCols = (x.mapSpan noCols).spans := by intro x; cases x <;> rfl
      rw [hm, hm, h4]
    rw [this]
    exact List.mem_map_of_mem hsp
  obtain ⟨sp', h7, h8⟩ := List.mem_map.1 h6
  obtain ⟨i, j, h9, h10, rfl⟩ := h5 sp' h7
  refine ⟨i, j, h9, h10, ?_⟩
  simp only [noCols, noCol, lineSpan, linePos, Sp.mk.injEq, LinePos.mk.injEq] at h8
  exact ⟨h8.1.1.symm, h8.1.2.1.symm, h8.2.1.symm, h8.2.2.1.symm⟩

/-- Widths as most terminals have them for the characters of the examples. -/
private def plainWidth (c : Char) : Nat := if c.toNat < 0x20 then 0 else 1

/-- The errors of a text, with line spans. -/
private def lineErrorsOf (text : Str) : List (PErr LinePos) :=
  match parseAstLine plainWidth (fun s => (s.map plainWidth).sum) text with
  | some (.error es) => es
  | _ => []

private theorem lineErrorsOf_spec {text : Str} {es : List (PErr LinePos)} (h : decide (lineErrorsOf text = es) = true)
    (hne : es ≠ []) : parseAstLine plainWidth (fun s => (s.map plainWidth).sum) text = some (.error es) := by
  have h := of_decide_eq_true h
  unfold lineErrorsOf at h
  split at h
  · rename_i hp; rw [hp, h]
  · exact absurd h.symm hne

private theorem plain_sum : SumWidth plainWidth (fun s => (s.map plainWidth).sum) :=
  ⟨fun _ => rfl, fun _ hc => if_pos hc⟩

/-- An unclosed comment in the second line, after a tab that is not in the last line. -/
example : (∀ c ∈ ['"', 'r', '#', '{', '/', '*'], plainWidth c = 1) ∧
    '\t' ∉ currentLine "\r\n\tn /* \n..".toList ∧
    parseAstLine plainWidth (fun s => (s.map plainWidth).sum) "\r\n\tn /* \n..".toList =
      some (.error [.unclosed "comment".toList ⟨⟨5, 1, 10⟩, ⟨7, 1, 12⟩⟩ (.token "/*".toList) ⟨⟨11, 2, 2⟩, ⟨11, 2, 2⟩⟩
        (.token "*/".toList) .eoi]) :=
  ⟨by decide, by decide, lineErrorsOf_spec (by decide +kernel) (by simp)⟩

/-- **C22, for diagnostics, a limit of the code**: after a tab in the last line the column of the
opening token of something unclosed may be wrong, if the text ends just after it. -/
theorem c22_errors_columns_fails : ¬ ∀ (width : Char → Nat) (strWidth : Str → Nat) (text : Str) (es : List (PErr LinePos)),
    (∀ c ∈ ['"', 'r', '#', '{', '/', '*'], width c = 1) → SumWidth width strWidth →
    parseAstLine width strWidth text = some (.error es) →
    ∀ name openedAt opening expectedAt closing found, .unclosed name openedAt opening expectedAt closing found ∈ es →
      ∃ i j, openedAt = ⟨linePos width (text.take i), linePos width (text.take j)⟩ := by
  intro h
  have h1 : parseAstLine plainWidth (fun s => (s.map plainWidth).sum) "\tn \"".toList =
      some (.error [.unclosed "string".toList ⟨⟨3, 0, 2⟩, ⟨4, 0, 3⟩⟩ (.char '"') ⟨⟨4, 0, 3⟩, ⟨4, 0, 3⟩⟩ (.char '"') .eoi]) :=
    lineErrorsOf_spec (by decide +kernel) (by simp)
  obtain ⟨i, j, h2⟩ := h _ _ _ _ (by decide) plain_sum h1 _ _ _ _ _ _ (List.mem_singleton.2 rfl)
  have h3 : ∀ k, (linePos plainWidth ("\tn \"".toList.take k)).column ≠ 2 := by
    intro k
    match k with
    | 0 => decide
    | 1 => decide
    | 2 => decide
    | 3 => decide
    | k + 4 =>
      rw [List.take_of_length_le (by simp)]
      decide
  exact h3 i (congrArg (fun s => s.start.column) h2).symm

end Knuffel
