import Verif.Theory.SimInst
/-!
# Properties of `parse_ast` on arbitrary texts

C01 (no panic), C02 (`Ok`/`Err`), C21 (the two span types), C24 (byte order
mark), C46 (spans of diagnostics).

`parseAst text` models `parse_ast::<Span>`, `parseAstLine width strWidth text`
models `parse_ast::<LineSpan>`; the result `none` is a panic (or a repetition
that makes no progress, which chumsky turns into a panic).
-/

namespace Knuffel

/-- **C01.** `parse_ast` never panics, for either span type: it returns `Ok` of a
document or `Err` of a list of diagnostics. -/
theorem c01_parse_total (text : Str) : ∃ r, parseAst text = some r := by
  unfold parseAst runParser
  simp only [document_np, Bool.false_eq_true, if_false]
  split <;> (try split) <;> exact ⟨_, rfl⟩

/-- **C01**, for line spans, whatever the width functions. -/
theorem c01_parse_total_line (width : Char → Nat) (strWidth : Str → Nat) (text : Str) :
    ∃ r, parseAstLine width strWidth text = some r := by
  unfold parseAstLine runParser
  simp only [document_np, Bool.false_eq_true, if_false]
  split <;> (try split) <;> exact ⟨_, rfl⟩

/-- Both outcomes occur: C01 is not about a constant function. -/
example : (∃ d, parseAst "node 1 k=2 {}".toList = some (.ok d)) ∧ ∃ es, parseAst "node {".toList = some (.error es) := by
  have h1 : (match parseAst "node 1 k=2 {}".toList with | some (.ok _) => true | _ => false) = true := by decide +kernel
  have h2 : (match parseAst "node {".toList with | some (.error _) => true | _ => false) = true := by decide +kernel
  constructor
  · split at h1
    · exact ⟨_, ‹_›⟩
    · simp at h1
  · split at h2
    · exact ⟨_, ‹_›⟩
    · simp at h2

/-- Everything a run of a parser reports: the errors it recovered from, in order,
and the one that stopped it. -/
def reported {O α : Type} (r : PRes O α) : List (PErr O) :=
  r.errs.map (·.err) ++ match r.out with
    | .ok _ => []
    | .error e => [e.err]

/-- **C02.** `parse_ast` returns `Ok` exactly when nothing was reported. -/
theorem c02_ok_iff_nothing_reported (text : Str) :
    (∃ d, parseAst text = some (.ok d)) ↔ reported (document (offsetEoi text) (offsetToks 0 text)) = [] := by
  unfold parseAst runParser reported
  simp only [document_np, Bool.false_eq_true, if_false]
  cases h : (document (offsetEoi text) (offsetToks 0 text)).out with
  | error e => simp
  | ok a =>
    cases h2 : (document (offsetEoi text) (offsetToks 0 text)).errs with
    | nil => simp
    | cons => simp

/-- **C02.** `Err` carries exactly what was reported, and that is at least one
diagnostic. -/
theorem c02_err_carries_reported (text : Str) (es : List (PErr Nat)) :
    parseAst text = some (.error es) ↔
      es = reported (document (offsetEoi text) (offsetToks 0 text)) ∧ es ≠ [] := by
  unfold parseAst runParser reported
  simp only [document_np, Bool.false_eq_true, if_false]
  cases h : (document (offsetEoi text) (offsetToks 0 text)).out with
  | error e =>
    simp only [Option.some.injEq, Except.error.injEq, List.map_append, List.map_cons, List.map_nil]
    constructor
    · rintro rfl; simp
    · rintro ⟨rfl, _⟩; rfl
  | ok a =>
    cases h2 : (document (offsetEoi text) (offsetToks 0 text)).errs with
    | nil => simp
    | cons =>
      simp
      constructor
      · rintro rfl; simp
      · rintro ⟨rfl, _⟩; rfl

/-- **C02**, for line spans. -/
theorem c02_line (width : Char → Nat) (strWidth : Str → Nat) (text : Str) :
    ((∃ d, parseAstLine width strWidth text = some (.ok d)) ↔
      reported (document (lineEoi strWidth text) (lineToks width .init text)) = []) ∧
    ∀ es, parseAstLine width strWidth text = some (.error es) → es ≠ [] := by
  unfold parseAstLine runParser reported
  simp only [document_np, Bool.false_eq_true, if_false]
  cases h : (document (lineEoi strWidth text) (lineToks width .init text)).out with
  | error e => simp
  | ok a =>
    cases h2 : (document (lineEoi strWidth text) (lineToks width .init text)).errs with
    | nil => simp
    | cons => simp

/-- Something is reported: an unclosed string. -/
example : (reported (document (offsetEoi "n \"a".toList) (offsetToks 0 "n \"a".toList))).length = 1 := by
  decide +kernel

/-- **C21.** The two span types agree: both runs succeed and the byte offsets of
the line spans are the byte spans, or both fail with the same diagnostics, again
up to taking the byte offsets. -/
theorem c21_line_agrees (width : Char → Nat) (strWidth : Str → Nat) (text : Str) :
    (∃ d, parseAstLine width strWidth text = some (.ok d) ∧
      parseAst text = some (.ok (d.mapSpan LinePos.toOffsetSpan))) ∨
    (∃ es, parseAstLine width strWidth text = some (.error es) ∧
      parseAst text = some (.error (es.map (PErr.mapSpan LinePos.toOffsetSpan)))) := by
  have h := Rel.run_document (R := lineRel (lineEoi strWidth text)) (s := lineToks width .init text)
    (s' := offsetToks 0 text) (lineToks_map width text .init).symm
  rcases h with ⟨d, d', h1, h2, h3⟩ | ⟨es, es', h1, h2, h3⟩ | ⟨h1, _⟩
  · refine Or.inl ⟨d, h1, ?_⟩
    unfold parseAst
    have h3' : d.mapSpan LinePos.toOffsetSpan = d' := h3.trans (mapSpan_id d')
    rw [h3']
    exact h2
  · refine Or.inr ⟨es, h1, ?_⟩
    unfold parseAst
    rw [lrel_map_eq (f := PErr.mapSpan LinePos.toOffsetSpan) (fun _ _ h => er_line_map h) h3]
    exact h2
  · obtain ⟨r, hr⟩ := c01_parse_total_line width strWidth text
    rw [parseAstLine, show runParser document (lineEoi strWidth text) (lineToks width .init text) = none from h1] at hr
    simp at hr

/-- **C24.** A leading byte order mark is ignored: the rest parses as without it,
all spans moved by the three bytes of the mark; and nothing else parses. -/
theorem c24_bom (text : Str) (d' : Document (Sp Nat)) :
    parseAst ('\uFEFF' :: text) = some (.ok d') ↔
      ∃ d, parseAst text = some (.ok d) ∧ d' = d.mapSpan (fun s => ⟨s.start + 3, s.stop + 3⟩) := by
  have hr := Rel.run_document (R := shiftRel 3 (offsetEoi text)) (s := offsetToks 0 text)
    (s' := offsetToks 3 text) (offsetToks_shift 3 text 0).symm
  have he : (shiftRel 3 (offsetEoi text)).eoi' = offsetEoi ('\uFEFF' :: text) := by
    show shiftSp 3 (offsetEoi text) = _
    simp only [shiftSp, offsetEoi, byteLen, show '\uFEFF'.utf8Size = 3 from rfl, Nat.add_comm]
  rw [he] at hr
  have hd : parseAst ('\uFEFF' :: text) = some (.ok d') ↔
      runParser document (offsetEoi ('\uFEFF' :: text)) (offsetToks 3 text) = some (.ok d') := by
    rw [parseAst_ok_iff]
    have : offsetToks 0 ('\uFEFF' :: text) = ('\uFEFF', ⟨0, 3⟩) :: offsetToks 3 text := rfl
    rw [this, document_feff, run_ok_iff]
  rw [hd]
  unfold parseAst
  rcases hr with ⟨d1, d2, h1, h2, h3⟩ | ⟨es, es', h1, h2, h3⟩ | ⟨h1, h2⟩
  · have h3' : d1.mapSpan (shiftSp 3) = d2 := h3.trans (mapSpan_id d2)
    rw [show runParser document (offsetEoi text) (offsetToks 0 text) = some (.ok d1) from h1, h2, ← h3']
    simp only [Option.some.injEq, Except.ok.injEq]
    constructor
    · rintro rfl; exact ⟨_, rfl, rfl⟩
    · rintro ⟨_, rfl, rfl⟩; rfl
  · rw [show runParser document (offsetEoi text) (offsetToks 0 text) = some (.error es) from h1, h2]
    simp
  · rw [show runParser document (offsetEoi text) (offsetToks 0 text) = none from h1, h2]
    simp

/-- A text with a byte order mark that parses. -/
example : ∃ d, parseAst ('\uFEFF' :: "node 1".toList) = some (.ok d) ∧ d.nodes.length = 1 := by
  have h : (match parseAst ('\uFEFF' :: "node 1".toList) with | some (.ok d) => d.nodes.length | _ => 0) = 1 := by
    decide +kernel
  split at h
  · exact ⟨_, ‹_›, h⟩
  · simp at h

/-- **C46.** Every span of every diagnostic lies inside the text. -/
theorem c46_error_spans (text : Str) (es : List (PErr Nat)) (h : parseAst text = some (.error es)) :
    ∀ e ∈ es, ∀ sp ∈ e.spans, sp.start ≤ sp.stop ∧ sp.stop ≤ byteLen text := by
  have hr := Rel.run_document (R := boundRel (byteLen text)) (s := offsetToks 0 text)
    (s' := offsetToks 0 text) ⟨rfl, 0, cons_offsetToks text 0 (by omega)⟩
  have h0 : runParser document (boundRel (byteLen text)).eoi (offsetToks 0 text) = some (.error es) := h
  rcases hr with ⟨_, _, h1, _, _⟩ | ⟨es1, _, h1, _, h3⟩ | ⟨h1, _⟩
  · rw [h0] at h1; simp at h1
  · rw [h0] at h1
    injection h1 with h1
    injection h1 with h1
    subst h1
    intro e he
    obtain ⟨e', h4⟩ := lrel_mem h3 he
    exact er_bound h4
  · rw [h0] at h1; simp at h1

/-- **C46**, for line spans: the byte offsets of every span of every diagnostic
lie inside the text. -/
theorem c46_error_spans_line (width : Char → Nat) (strWidth : Str → Nat) (text : Str) (es : List (PErr LinePos))
    (h : parseAstLine width strWidth text = some (.error es)) :
    ∀ e ∈ es, ∀ sp ∈ e.spans, sp.start.offset ≤ sp.stop.offset ∧ sp.stop.offset ≤ byteLen text := by
  rcases c21_line_agrees width strWidth text with ⟨d, h1, _⟩ | ⟨es', h1, h2⟩
  · rw [h] at h1; simp at h1
  · rw [h] at h1
    injection h1 with h1
    injection h1 with h1
    subst h1
    intro e he sp hsp
    refine c46_error_spans text _ h2 _ (List.mem_map_of_mem he) (LinePos.toOffsetSpan sp) ?_
    cases e <;> simp only [PErr.spans, PErr.mapSpan, List.mem_cons, List.not_mem_nil, or_false] at hsp ⊢
    · rw [hsp]
    · rcases hsp with rfl | rfl
      · exact Or.inl rfl
      · exact Or.inr rfl
    · rw [hsp]
    · rw [hsp]

/-- A failing text with a diagnostic that has two spans (an unclosed string). -/
example : ∃ es, parseAst "n \"a".toList = some (.error es) ∧ ∃ e ∈ es, e.spans.length = 2 := by
  have h : (match parseAst "n \"a".toList with | some (.error [e]) => e.spans.length | _ => 0) = 2 := by decide +kernel
  split at h
  · exact ⟨_, ‹_›, _, List.mem_singleton.2 rfl, h⟩
  · simp at h

end Knuffel
