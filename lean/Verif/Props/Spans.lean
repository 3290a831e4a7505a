import Verif.Theory.Lines
/-!
# Positions in parsed documents

C20 (byte spans), C22 (lines and columns), C23 (end of input).
-/

namespace Knuffel
open Cst

/-- `b` is a position between two characters (or at an end) of the text. -/
def Boundary (text : Str) (b : Nat) : Prop := ∃ u v, text = u ++ v ∧ b = byteLen u

/-- The span `inner` begins and ends at character boundaries of the text, is not
empty, and lies inside the span `outer`. -/
def Inside (text : Str) (inner outer : Sp Nat) : Prop :=
  Boundary text inner.start ∧ Boundary text inner.stop ∧ inner.start < inner.stop ∧
  outer.start ≤ inner.start ∧ inner.stop ≤ outer.stop

theorem boundary_take (text : Str) (i : Nat) : Boundary text (byteLen (text.take i)) :=
  ⟨text.take i, text.drop i, (List.take_append_drop i text).symm, rfl⟩

theorem byteLen_take_mono (text : Str) {i j : Nat} (h : i ≤ j) : byteLen (text.take i) ≤ byteLen (text.take j) := by
  have : text.take j = text.take i ++ (text.drop i).take (j - i) := by
    rw [show text.take j = text.take (i + (j - i)) by congr 1; omega, List.take_add]
  rw [this, byteLen_append]
  omega

theorem byteLen_take_lt (text : Str) {i j : Nat} (h : i < j) (hj : j ≤ text.length) :
    byteLen (text.take i) < byteLen (text.take j) := by
  have h1 := byteLen_take_mono text (show i + 1 ≤ j from h)
  have h2 : byteLen (text.take (i + 1)) = byteLen (text.take i) + text[i].utf8Size := by
    rw [List.take_succ_eq_append_getElem (by omega), byteLen_append]
    simp [byteLen]
  have h3 : 0 < text[i].utf8Size := text[i].utf8Size_pos
  omega

/-- **C20.** All spans of a parsed document lie inside the text (whose span is
`⟨0, byteLen text⟩`), are not empty and begin and end at character boundaries.
The spans of the parts of a node lie inside the span of the node, and those of
child nodes inside that of the children block. -/
theorem c20_spans_nest (text : Str) (d : Document (Sp Nat)) (h : parseAst text = some (.ok d)) :
    d.Nested (Inside text) ⟨0, byteLen text⟩ := by
  obtain ⟨b, hok, ht, hv⟩ := parse_sound h
  unfold Document.Nested
  rw [hv]
  have hm : Mono (Inside text) (byteSpan text) 0 text.length := by
    intro i j i' j' _ h1 h2 h3 h4
    exact ⟨boundary_take _ _, boundary_take _ _, byteLen_take_lt _ h2 (by omega), byteLen_take_mono _ h1,
      byteLen_take_mono _ h3⟩
  have := body_nested (i' := 0) (j' := text.length) (q := 0) b hm (Nat.le_refl _) (by omega) (Nat.le_refl _)
    (by rw [ht]; omega) hok
  have he : byteSpan text 0 text.length = ⟨0, byteLen text⟩ := by simp [byteSpan, byteLen]
  rwa [he] at this

/-- **C20**, for line spans: the same of the byte offsets. -/
theorem c20_spans_nest_line (width : Char → Nat) (strWidth : Str → Nat) (text : Str) (d : Document (Sp LinePos))
    (h : parseAstLine width strWidth text = some (.ok d)) :
    d.Nested (fun a b => Inside text (LinePos.toOffsetSpan a) (LinePos.toOffsetSpan b))
      ⟨linePos width [], linePos width text⟩ := by
  obtain ⟨b, hok, ht, hv⟩ := parse_sound_line h
  rw [trackSpan_eq] at hv
  unfold Document.Nested
  rw [hv]
  have hm : Mono (fun a b => Inside text (LinePos.toOffsetSpan a) (LinePos.toOffsetSpan b))
      (lineSpan width text) 0 text.length := by
    intro i j i' j' _ h1 h2 h3 h4
    exact ⟨boundary_take _ _, boundary_take _ _, byteLen_take_lt _ h2 (by omega), byteLen_take_mono _ h1,
      byteLen_take_mono _ h3⟩
  have := body_nested (i' := 0) (j' := text.length) (q := 0) b hm (Nat.le_refl _) (by omega) (Nat.le_refl _)
    (by rw [ht]; omega) hok
  have he : lineSpan width text 0 text.length = ⟨linePos width [], linePos width text⟩ := by simp [lineSpan]
  rwa [he] at this

/-- A document with nested nodes. -/
example : ∃ d, parseAst "a (t)1 k=\"ä\" { b; }".toList = some (.ok d) ∧
    d.nodes.map (·.span) = [⟨0, 20⟩] ∧
    d.nodes.flatMap (fun n => n.value.childNodes.map (·.span)) = [⟨16, 18⟩] := by
  have h : (match parseAst "a (t)1 k=\"ä\" { b; }".toList with
    | some (.ok d) => decide (d.nodes.map (·.span) = [⟨0, 20⟩] ∧
        d.nodes.flatMap (fun n => n.value.childNodes.map (·.span)) = [⟨16, 18⟩])
    | _ => false) = true := by decide +kernel
  split at h
  · exact ⟨_, ‹_›, of_decide_eq_true h⟩
  · simp at h

/-- **C22.** The positions in a document parsed with line spans are right: each
span is that of some characters `i .. j` of the text, and its ends have the line
and column of these places.  (The second argument of the relation, the outer
span, is not used.) -/
theorem c22_lines (width : Char → Nat) (strWidth : Str → Nat) (text : Str) (d : Document (Sp LinePos))
    (h : parseAstLine width strWidth text = some (.ok d)) :
    d.Nested (fun a _ => ∃ i j, i < j ∧ j ≤ text.length ∧
      a = ⟨linePos width (text.take i), linePos width (text.take j)⟩) ⟨linePos width [], linePos width text⟩ := by
  obtain ⟨b, hok, ht, hv⟩ := parse_sound_line h
  rw [trackSpan_eq] at hv
  unfold Document.Nested
  rw [hv]
  have hm : Mono (fun a _ => ∃ i j, i < j ∧ j ≤ text.length ∧
      a = ⟨linePos width (text.take i), linePos width (text.take j)⟩) (lineSpan width text) 0 text.length := by
    intro i j i' j' _ h1 h2 h3 h4
    exact ⟨i, j, h2, by omega, rfl⟩
  have := body_nested (i' := 0) (j' := text.length) (q := 0) b hm (Nat.le_refl _) (by omega) (Nat.le_refl _)
    (by rw [ht]; omega) hok
  have he : lineSpan width text 0 text.length = ⟨linePos width [], linePos width text⟩ := by simp [lineSpan]
  rwa [he] at this

/-- A document whose second node is on line 1, after CR LF and a tab. -/
example : ∃ d, parseAstLine (fun _ => 1) List.length "a\r\n\tb".toList = some (.ok d) ∧
    d.nodes.map (·.value.nodeName.span) = [⟨⟨0, 0, 0⟩, ⟨1, 0, 1⟩⟩, ⟨⟨4, 1, 8⟩, ⟨5, 1, 9⟩⟩] := by
  have h : (match parseAstLine (fun _ => 1) List.length "a\r\n\tb".toList with
    | some (.ok d) => decide (d.nodes.map (·.value.nodeName.span) = [⟨⟨0, 0, 0⟩, ⟨1, 0, 1⟩⟩, ⟨⟨4, 1, 8⟩, ⟨5, 1, 9⟩⟩])
    | _ => false) = true := by decide +kernel
  split at h
  · exact ⟨_, ‹_›, of_decide_eq_true h⟩
  · simp at h

/-- **C22**, for the tokens themselves: character number `i` of the text is given
the positions before and after it. -/
theorem c22_tokens (width : Char → Nat) (text : Str) (i : Nat) (h : i < text.length) :
    (lineToks width .init text)[i]? =
      some (text[i], ⟨linePos width (text.take i), linePos width (text.take (i + 1))⟩) := by
  rw [lineToks_get h, (trackAll_spec width _ _ rfl).1, (trackAll_spec width _ _ rfl).1]

/-- The width of a string as the `unicode-width` crate (0.1.9) computes it: the
sum of the widths of the characters, where control characters count nothing. -/
def SumWidth (width : Char → Nat) (strWidth : Str → Nat) : Prop :=
  (∀ s, strWidth s = (s.map width).sum) ∧ ∀ c, c.toNat < 0x20 → width c = 0

/-- **C23, refuted.**  It is not true that the position of the end of input is
always the position after the last character: a tab in the last line counts
eight columns for the characters after it, but nothing for the end of input. -/
theorem c23_eoi_position_fails : ¬ ∀ (width : Char → Nat) (strWidth : Str → Nat) (text : Str),
    SumWidth width strWidth → lineEoi strWidth text = ⟨linePos width text, linePos width text⟩ := by
  intro h
  have := h (fun c => if c.toNat < 0x20 then 0 else 1)
    (fun s => (s.map (fun c => if c.toNat < 0x20 then 0 else 1)).sum) ['\t']
    ⟨fun _ => rfl, fun c hc => if_pos hc⟩
  exact absurd this (by decide)

/-- **C23, partial**: the byte offset and the line of the end of input are always
those of the position after the last character; the column too, if there is no
tab in the last line.  Missing: texts with a tab in the last line (see
`c23_eoi_position_fails`). -/
theorem c23_eoi_position_partial (width : Char → Nat) (strWidth : Str → Nat) (text : Str) :
    ∃ p : LinePos, lineEoi strWidth text = ⟨p, p⟩ ∧
      p.offset = (linePos width text).offset ∧ p.line = (linePos width text).line ∧
      (SumWidth width strWidth → '\t' ∉ currentLine text → p.column = (linePos width text).column) := by
  refine ⟨_, rfl, rfl, ?_, ?_⟩
  · have := lastLine_spec text [] 0 text
    simp only [List.getLast?_nil, List.nil_append, newlines, Nat.add_zero, Nat.zero_add] at this
    exact this
  · rintro ⟨hw, hc⟩ ht
    have hcol : ((currentLine text).map (columns width)).sum = ((currentLine text).map width).sum := by
      congr 1
      refine List.map_congr_left fun c hc => ?_
      unfold columns
      rw [if_neg]
      rintro rfl
      exact ht hc
    show strWidth (lastLine false 0 text text).2 = ((currentLine text).map (columns width)).sum
    rw [hcol]
    rcases lastLine_last text false 0 text [] (by simp) (Or.inl (by simp)) (by simp) with h | h
    · rw [h, hw]; simp
    · rw [h, hw]
      have := hc '\n' (by decide)
      simp [this]

/-- A text for which all of C23 holds, with two lines and CR LF. -/
example : '\t' ∉ currentLine "a\tb\r\ncd".toList ∧ currentLine "a\tb\r\ncd".toList = "cd".toList := by decide

end Knuffel
