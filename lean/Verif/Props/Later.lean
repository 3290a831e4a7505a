import Verif.Theory.Later
import Verif.Props.After
/-!
# Lines before a text move its positions down

C77: with line spans, complete nodes and lines put before a text move the positions of
everything that follows by the bytes and by the lines, and leave the columns as they are.
-/

namespace Knuffel
open Cst

theorem lineSpan_append (width : Char → Nat) (a w : Str) {i j : Nat} (hi : i ≤ j) (hj : j ≤ a.length) :
    lineSpan width (a ++ w) i j = lineSpan width a i j := by
  unfold lineSpan
  rw [List.take_append_of_le_length (by omega), List.take_append_of_le_length hj]

theorem value_line_prefix {width : Char → Nat} {strWidth : Str → Nat} {str : Bool} {a : BodyC} {w fol : Str} (hok : a.Ok str fol) :
    a.value (spf (lineEoi strWidth (a.text ++ w)) (lineToks width .init (a.text ++ w))) 0 = a.value (lineSpan width a.text) 0 := by
  rw [← mapNodes_id (a.value (spf _ _) 0)]
  refine body_map (n := a.text.length) a ?_ (Nat.le_refl _) hok
  intro i j i' j' _ h1 h2 h3 h4
  have : i' = i := by omega
  have : j' = j := by omega
  subst i' j'
  have hl := lineToks_length width .init (a.text ++ w)
  have := spf_of_get (eoi := lineEoi strWidth (a.text ++ w)) (all := lineToks width .init (a.text ++ w)) (i := i) (j := j)
    (pos := fun i => trackPos (trackAll width .init ((a.text ++ w).take i)))
    (fun k hk => ⟨_, lineToks_get (by omega)⟩) h1 (by rw [hl]; simp only [List.length_append]; omega)
  rw [id, this]
  simp only [(trackAll_spec width _ _ rfl).1]
  exact lineSpan_append width _ _ (by omega) (by omega)

theorem lineToks_takes (width : Char → Nat) {pre : Str} (h : EndsLine pre) (w : Str) :
    Takes (lineToks width .init (pre ++ w)) pre (lineToks width ⟨byteLen pre, false, newlines pre, 0⟩ w) := by
  refine ⟨lineToks width .init pre, ?_, chars_lineToks _ _ _⟩
  rw [lineToks_append, trackAll_endsLine width h]

theorem later_run (width : Char → Nat) (strWidth : Str → Nat) {pre : Str} (h : EndsLine pre) (w : Str) :
    (∃ d, parseAstLine width strWidth w = some (.ok d) ∧
      runParser document (lineEoi strWidth (pre ++ w)) (lineToks width ⟨byteLen pre, false, newlines pre, 0⟩ w) =
        some (.ok (d.later (byteLen pre) (newlines pre)))) ∨
    (∃ es es', parseAstLine width strWidth w = some (.error es) ∧
      runParser document (lineEoi strWidth (pre ++ w)) (lineToks width ⟨byteLen pre, false, newlines pre, 0⟩ w) =
        some (.error es') ∧ LRel (laterRel (byteLen pre) (newlines pre) (lineEoi strWidth w)).er es es') := by
  have hr := Rel.run_document (R := laterRel (byteLen pre) (newlines pre) (lineEoi strWidth w))
    (s := lineToks width .init w) (s' := lineToks width ⟨byteLen pre, false, newlines pre, 0⟩ w) (by
      have := (lineToks_later width (byteLen pre) (newlines pre) w 0 0 false 0).symm
      rw [Nat.zero_add, Nat.zero_add] at this
      exact this)
  rw [show (laterRel (byteLen pre) (newlines pre) (lineEoi strWidth w)).eoi' = lineEoi strWidth (pre ++ w) from
    (lineEoi_later strWidth h w).symm] at hr
  rcases hr with ⟨d1, d2, h1, h2, h3⟩ | ⟨es, es', h1, h2, h3⟩ | ⟨h1, h2⟩
  · exact .inl ⟨d1, h1, h2.trans (by rw [← mapSpan_id d2]; exact congrArg _ (congrArg _ h3.symm))⟩
  · exact .inr ⟨es, es', h1, h2, h3⟩
  · have h1 : parseAstLine width strWidth w = none := h1
    rcases c21_line_agrees width strWidth w with ⟨d, h, _⟩ | ⟨es, h, _⟩ <;> rw [h] at h1 <;> simp at h1

theorem er_later {n k : Nat} {eoi : Sp LinePos} {e e' : PErr LinePos} {text text' : Str} (h : (laterRel n k eoi).er e e')
    (ht : (e.mapSpan LinePos.toOffsetSpan).TrueOf text) (ht' : (e'.mapSpan LinePos.toOffsetSpan).TrueOf text') : e.later n k = e' := by
  cases e <;> cases e' <;> simp only [Rel.er] at h <;> simp only [PErr.later, PErr.mapSpan]
  · obtain ⟨rfl, h, rfl, rfl, _⟩ := h; cases h; rfl
  · rename_i l oa o ea ex f l' oa' o' ea' ex' f'
    obtain ⟨rfl, ⟨h1, h2, h3⟩, rfl, h', rfl, rfl⟩ := h
    cases h'
    obtain ⟨_, pre, w, after, _, g, _, hn⟩ := ht
    obtain ⟨_, pre', w', after', _, g', _, hn'⟩ := ht'
    have := notClosed_opening hn hn'
    subst this
    obtain ⟨⟨a1, a2, a3⟩, a4⟩ := oa
    obtain ⟨⟨b1, b2, b3⟩, b4⟩ := oa'
    simp only at h1 h2 h3
    subst h1 h2 h3
    simp only [LinePos.toOffsetSpan, Sp.mk.injEq, LinePos.later] at g g'
    have : a1 + n = b1 := by omega
    subst this
    rfl
  · obtain ⟨rfl, h, rfl⟩ := h; cases h; rfl
  · obtain ⟨rfl, h, rfl, rfl⟩ := h; cases h; rfl

theorem lrel_er_later {n k : Nat} {eoi : Sp LinePos} {text text' : Str} : ∀ {l m}, LRel (laterRel n k eoi).er l m →
    (∀ e ∈ l, (e.mapSpan LinePos.toOffsetSpan).TrueOf text) → (∀ e ∈ m, (e.mapSpan LinePos.toOffsetSpan).TrueOf text') →
    m = l.map (PErr.later n k) := by
  intro l
  induction l with
  | nil => intro m h _ _; cases m with
    | nil => rfl
    | cons => exact h.elim
  | cons a l ih => intro m h h1 h2; cases m with
    | nil => exact h.elim
    | cons b m =>
      rw [List.map_cons, er_later h.1 (h1 a (by simp)) (h2 b (by simp)),
        ih h.2 (fun e he => h1 e (by simp [he])) (fun e he => h2 e (by simp [he]))]

/-- **C77, for documents.** A text begins with the legal nodes `a`, which end with a complete
line, and goes on with any text `w`: it parses if and only if `w` does, and the result is the nodes
of `a`, at their places in `a`, and then the nodes of `w`, further down by the bytes and the lines of
`a`, in the same columns. -/
theorem c77_document (width : Char → Nat) (strWidth : Str → Nat) (a : BodyC) (w : Str) (ha : a.Ok true w)
    (he : EndsLine a.text) (d : Document (Sp LinePos)) :
    parseAstLine width strWidth (a.text ++ w) = some (.ok d) ↔
      ∃ dw, parseAstLine width strWidth w = some (.ok dw) ∧
        d.nodes = a.value (lineSpan width a.text) 0 ++ (dw.later (byteLen a.text) (newlines a.text)).nodes := by
  have hd : parseAstLine width strWidth (a.text ++ w) = some (.ok d) ↔
      ∃ d', runParser document (lineEoi strWidth (a.text ++ w)) (lineToks width ⟨byteLen a.text, false, newlines a.text, 0⟩ w) =
        some (.ok d') ∧ d.nodes = a.value (lineSpan width a.text) 0 ++ d'.nodes := by
    unfold parseAstLine
    rw [run_ok_iff, document_body a (by rw [chars_lineToks]; exact ha) (lineToks_takes width he w)]
    simp only [run_ok_iff, value_line_prefix ha]
  rw [hd]
  rcases later_run width strWidth he w with ⟨d1, h1, h2⟩ | ⟨es, es', h1, h2, _⟩
  · rw [h1, h2]
    simp only [Option.some.injEq, Except.ok.injEq]
    constructor
    · rintro ⟨_, rfl, h⟩; exact ⟨_, rfl, h⟩
    · rintro ⟨_, rfl, h⟩; exact ⟨_, rfl, h⟩
  · rw [h1, h2]
    simp

/-- **C77, for diagnostics.** A text begins with the complete legal nodes `a`, then there is a line
feed and then any text `w`: the text is rejected if and only if `w` alone is, and with the same
diagnostics, further down by the bytes and the lines before `w`, in the same columns. -/
theorem c77_errors (width : Char → Nat) (strWidth : Str → Nat) (a : BodyC) (w : Str) (ha : a.Ok true ('\n' :: w))
    (hr : a.text.getLast? ≠ some '\r') (es : List (PErr LinePos)) :
    parseAstLine width strWidth (a.text ++ '\n' :: w) = some (.error es) ↔
      ∃ es0, parseAstLine width strWidth w = some (.error es0) ∧
        es = es0.map (PErr.later (byteLen a.text + 1) (newlines (a.text ++ ['\n']))) := by
  have he : EndsLine (a.text ++ ['\n']) := ⟨_, rfl, hr⟩
  have hlen : byteLen (a.text ++ ['\n']) = byteLen a.text + 1 := by
    rw [byteLen_append]; simp [byteLen]; decide
  have happ : a.text ++ '\n' :: w = (a.text ++ ['\n']) ++ w := by simp
  have hT := lineToks_takes width he w
  have hd := document_after (eoi := lineEoi strWidth (a.text ++ '\n' :: w)) a (by rw [chars_lineToks]; exact ha) hT
  have hl := later_run width strWidth he w
  rw [← happ] at hd hl
  rw [hlen] at hd hl
  have key : ∀ es, parseAstLine width strWidth (a.text ++ '\n' :: w) = some (.error es) ↔
      runParser document (lineEoi strWidth (a.text ++ '\n' :: w))
        (lineToks width ⟨byteLen a.text + 1, false, newlines (a.text ++ ['\n']), 0⟩ w) = some (.error es) := by
    intro es
    unfold parseAstLine
    generalize runParser document (lineEoi strWidth (a.text ++ '\n' :: w))
        (lineToks width ⟨byteLen a.text + 1, false, newlines (a.text ++ ['\n']), 0⟩ w) = r2 at hd ⊢
    generalize runParser document (lineEoi strWidth (a.text ++ '\n' :: w)) (lineToks width .init (a.text ++ '\n' :: w)) = r1 at hd ⊢
    match r1, r2 with
    | none, none => simp
    | none, some (.ok _) => simp
    | some (.ok _), none => simp
    | some (.ok _), some (.ok _) => simp
    | some (.error _), some (.error _) => simp only [errorsOf, Option.some.injEq] at hd; subst hd; exact Iff.rfl
    | none, some (.error _) => simp [errorsOf] at hd
    | some (.ok _), some (.error _) => simp [errorsOf] at hd
    | some (.error _), none => simp [errorsOf] at hd
    | some (.error _), some (.ok _) => simp [errorsOf] at hd
  rw [key]
  rcases hl with ⟨d1, h1, h2⟩ | ⟨es1, es2, h1, h2, h3⟩
  · rw [h1, h2]
    simp
  · have := lrel_er_later h3 (c54_true_line width strWidth w es1 h1) (c54_true_line width strWidth _ es2 ((key es2).2 h2))
    rw [h1, h2, this]
    simp only [Option.some.injEq, Except.error.injEq]
    constructor
    · rintro rfl; exact ⟨_, rfl, rfl⟩
    · rintro ⟨_, rfl, rfl⟩; rfl

/-- What remains of a node when the end of its span is forgotten. -/
def openEndLine (n : SpannedNode (Sp LinePos)) : LinePos × Node (Sp LinePos) := (n.span.start, n.value)

/-- The document of two texts put together: the nodes of the first, as they were (only the end of
a node may have moved), and then the nodes of the second, further down. -/
def JoinedLater (bytes lines : Nat) (da dw d : Document (Sp LinePos)) : Prop :=
  ∃ ns, d.nodes = ns ++ (dw.later bytes lines).nodes ∧ ns.map openEndLine = da.nodes.map openEndLine

theorem line_exact {width : Char → Nat} {strWidth : Str → Nat} {a : Str} {da : Document (Sp LinePos)}
    (ha : parseAstLine width strWidth a = some (.ok da)) (ht : NoTie a) :
    ∃ b : BodyC, b.Ok true [] ∧ b.text = a ∧ da.nodes = b.value (lineSpan width a) 0 := by
  have hp : ∃ d, parseAst a = some (.ok d) := by
    rcases c21_line_agrees width strWidth a with ⟨d, h1, h2⟩ | ⟨es, h1, _⟩
    · exact ⟨_, h2⟩
    · rw [h1] at ha; simp at ha
  obtain ⟨d, hd⟩ := hp
  obtain ⟨b, hb, h1, _⟩ := (c06_exact a ht d).1 hd
  have := parse_complete_line (width := width) (strWidth := strWidth) b hb h1
  rw [ha] at this
  injection this with this
  injection this with this
  exact ⟨b, hb, h1, by rw [this, trackSpan_eq]⟩

theorem byteLen_lf (K : Nat) : byteLen (List.replicate K '\n') = K := by
  induction K with
  | zero => rfl
  | succ K ih => rw [List.replicate_succ]; simp only [byteLen]; rw [ih, show ('\n').utf8Size = 1 by decide]; omega

theorem endsLine_lf (a : Str) (K : Nat) (hK : 1 ≤ K) (hr : K = 1 → a.getLast? ≠ some '\r') : EndsLine (a ++ List.replicate K '\n') := by
  match K, hK with
  | 1, _ => exact ⟨a, rfl, hr rfl⟩
  | K + 2, _ =>
    refine ⟨a ++ List.replicate (K + 1) '\n', by rw [List.append_assoc, ← List.replicate_succ'], ?_⟩
    rw [List.replicate_succ', ← List.append_assoc, List.getLast?_append]
    simp

theorem concat_line {width : Char → Nat} {strWidth : Str → Nat} {a : Str} {da : Document (Sp LinePos)}
    (ha : parseAstLine width strWidth a = some (.ok da)) (ht : NoTie a) (K : Nat) (hK : 1 ≤ K)
    (hK' : K = 1 → '\\' ∉ a ∧ a.getLast? ≠ some '\r') (w : Str) (dw : Document (Sp LinePos))
    (hw : parseAstLine width strWidth w = some (.ok dw)) :
    ∃ d, parseAstLine width strWidth (a ++ List.replicate K '\n' ++ w) = some (.ok d) ∧
      JoinedLater (byteLen a + K) (newlines (a ++ List.replicate K '\n')) da dw d := by
  obtain ⟨b, hb, rfl, hv⟩ := line_exact ha ht
  obtain ⟨b', h1, h2, h3⟩ := ext_body b hb K hK (fun h => (hK' h).1)
  have he : EndsLine b'.text := by rw [h1]; exact endsLine_lf _ K hK (fun h => (hK' h).2)
  have hlen : byteLen b'.text = byteLen b.text + K := by rw [h1, byteLen_append, byteLen_lf]
  have hp := (c77_document width strWidth b' w (h2 w) he ⟨_⟩).2 ⟨dw, hw, rfl⟩
  rw [hlen, h1] at hp
  refine ⟨_, hp, _, rfl, ?_⟩
  have := h3 (lineSpan width b'.text) Sp.start (fun _ _ _ => rfl) 0
  rw [hv]
  rw [h1] at this
  refine this.trans ?_
  congr 1
  rw [← mapNodes_id (b.value (lineSpan width (b.text ++ _)) 0)]
  refine body_map b (n := b.text.length) ?_ (Nat.le_refl _) hb
  intro i j i' j' _ g1 g2 g3 g4
  have : i' = i := by omega
  have : j' = j := by omega
  subst i' j'
  exact lineSpan_append _ _ _ (by omega) (by omega)

/-- **C77, for documents**, after any text that parses and two line feeds. -/
theorem c77_two_newlines (width : Char → Nat) (strWidth : Str → Nat) (a w : Str) (da dw : Document (Sp LinePos))
    (ha : parseAstLine width strWidth a = some (.ok da)) (ht : NoTie a)
    (hw : parseAstLine width strWidth w = some (.ok dw)) :
    ∃ d, parseAstLine width strWidth (a ++ ['\n', '\n'] ++ w) = some (.ok d) ∧
      JoinedLater (byteLen a + 2) (newlines (a ++ ['\n', '\n'])) da dw d :=
  concat_line ha ht 2 (by decide) (fun h => absurd h (by decide)) w dw hw

/-- **C77, for documents**: one line feed is enough if `a` contains no backslash and does not end
with a carriage return. -/
theorem c77_one_newline (width : Char → Nat) (strWidth : Str → Nat) (a w : Str) (da dw : Document (Sp LinePos))
    (ha : parseAstLine width strWidth a = some (.ok da)) (ht : NoTie a) (hb : '\\' ∉ a) (hr : a.getLast? ≠ some '\r')
    (hw : parseAstLine width strWidth w = some (.ok dw)) :
    ∃ d, parseAstLine width strWidth (a ++ ['\n'] ++ w) = some (.ok d) ∧
      JoinedLater (byteLen a + 1) (newlines (a ++ ['\n'])) da dw d :=
  concat_line ha ht 1 (by decide) (fun _ => ⟨hb, hr⟩) w dw hw

theorem errors_line {width : Char → Nat} {strWidth : Str → Nat} {a : Str} {da : Document (Sp LinePos)}
    (ha : parseAstLine width strWidth a = some (.ok da)) (ht : NoTie a)
    (K : Nat) (hK : 1 ≤ K) (hK' : K = 1 → '\\' ∉ a) (w : Str) (es : List (PErr LinePos)) :
    parseAstLine width strWidth (a ++ List.replicate (K + 1) '\n' ++ w) = some (.error es) ↔
      ∃ es0, parseAstLine width strWidth w = some (.error es0) ∧
        es = es0.map (PErr.later (byteLen a + (K + 1)) (newlines (a ++ List.replicate (K + 1) '\n'))) := by
  obtain ⟨b, hb, rfl, _⟩ := line_exact ha ht
  obtain ⟨b', h1, h2, _⟩ := ext_body b hb K hK hK'
  have hlen : byteLen b'.text = byteLen b.text + K := by rw [h1, byteLen_append, byteLen_lf]
  have hr : b'.text.getLast? ≠ some '\r' := by
    rw [h1, show K = (K - 1) + 1 by omega, List.replicate_succ', ← List.append_assoc, List.getLast?_append]
    simp
  have := c77_errors width strWidth b' w (h2 _) hr es
  rw [hlen, h1] at this
  rw [List.replicate_succ']
  simpa [Nat.add_assoc] using this

/-- **C77, for diagnostics**, after any text that parses and three line feeds. -/
theorem c77_errors_three_newlines (width : Char → Nat) (strWidth : Str → Nat) (a w : Str) (da : Document (Sp LinePos))
    (ha : parseAstLine width strWidth a = some (.ok da)) (ht : NoTie a) (es : List (PErr LinePos)) :
    parseAstLine width strWidth (a ++ ['\n', '\n', '\n'] ++ w) = some (.error es) ↔
      ∃ es0, parseAstLine width strWidth w = some (.error es0) ∧
        es = es0.map (PErr.later (byteLen a + 3) (newlines (a ++ ['\n', '\n', '\n']))) :=
  errors_line ha ht 2 (by omega) (by omega) w es

/-- **C77, for diagnostics**: two line feeds are enough if `a` contains no backslash. -/
theorem c77_errors_two_newlines (width : Char → Nat) (strWidth : Str → Nat) (a w : Str) (da : Document (Sp LinePos))
    (ha : parseAstLine width strWidth a = some (.ok da)) (ht : NoTie a) (hb : '\\' ∉ a) (es : List (PErr LinePos)) :
    parseAstLine width strWidth (a ++ ['\n', '\n'] ++ w) = some (.error es) ↔
      ∃ es0, parseAstLine width strWidth w = some (.error es0) ∧
        es = es0.map (PErr.later (byteLen a + 2) (newlines (a ++ ['\n', '\n']))) :=
  errors_line ha ht 1 (by omega) (fun _ => hb) w es

private def lineErrs (text : Str) : List (PErr LinePos) :=
  match parseAstLine (fun _ => 1) List.length text with
  | some (.error es) => es
  | _ => []

private theorem lineErrs_spec {text : Str} {es : List (PErr LinePos)} (h : decide (lineErrs text = es) = true) (hne : es ≠ []) :
    parseAstLine (fun _ => 1) List.length text = some (.error es) := by
  have h := of_decide_eq_true h
  unfold lineErrs at h
  split at h
  · rename_i hp; rw [hp, h]
  · exact absurd h.symm hne

private theorem line_of_parse {text : Str} (p : Document (Sp LinePos) → Bool)
    (h : (match parseAstLine (fun _ => 1) List.length text with | some (.ok d) => p d | _ => false) = true) :
    ∃ d, parseAstLine (fun _ => 1) List.length text = some (.ok d) ∧ p d = true := by
  split at h
  · exact ⟨_, ‹_›, h⟩
  · simp at h

/-- `n { m "ä" // x⏎}`, an empty line, and then ` k "b`: the string is reported as opened in column
3 of line 3. -/
example : parseAstLine (fun _ => 1) List.length ("n { m \"ä\" // x\n}".toList ++ ['\n', '\n'] ++ " k \"b".toList) =
    some (.error [.unclosed "string".toList ⟨⟨22, 3, 3⟩, ⟨23, 3, 4⟩⟩ (.char '"') ⟨⟨24, 3, 5⟩, ⟨24, 3, 5⟩⟩ (.char '"') .eoi]) := by
  obtain ⟨da, ha, _⟩ := line_of_parse (text := "n { m \"ä\" // x\n}".toList) (fun d => decide (d.nodes.length = 1)) (by decide +kernel)
  rw [c77_errors_two_newlines _ _ _ _ da ha (by unfold NoTie; decide +kernel) (by decide +kernel)]
  refine ⟨[.unclosed "string".toList ⟨⟨3, 0, 3⟩, ⟨4, 0, 4⟩⟩ (.char '"') ⟨⟨5, 0, 5⟩, ⟨5, 0, 5⟩⟩ (.char '"') .eoi],
    lineErrs_spec (by decide +kernel) (by simp), ?_⟩
  decide +kernel

/-- `n { m // x⏎} // y`, a line feed, and then `(u8)a 1`: the node `a` is in line 2. -/
example : ∃ da dw d, parseAstLine (fun _ => 1) List.length "n { m // x\n} // y".toList = some (.ok da) ∧
    parseAstLine (fun _ => 1) List.length "(u8)a 1".toList = some (.ok dw) ∧
    parseAstLine (fun _ => 1) List.length ("n { m // x\n} // y".toList ++ ['\n'] ++ "(u8)a 1".toList) = some (.ok d) ∧
    JoinedLater 18 2 da dw d ∧ da.nodes.length = 1 ∧ dw.nodes.length = 1 := by
  obtain ⟨da, ha, hla⟩ := line_of_parse (text := "n { m // x\n} // y".toList) (fun d => decide (d.nodes.length = 1)) (by decide +kernel)
  obtain ⟨dw, hw, hlw⟩ := line_of_parse (text := "(u8)a 1".toList) (fun d => decide (d.nodes.length = 1)) (by decide +kernel)
  obtain ⟨d, hd, hj⟩ := c77_one_newline _ _ _ "(u8)a 1".toList da dw ha (by unfold NoTie; decide +kernel) (by decide +kernel) (by decide +kernel) hw
  rw [show byteLen "n { m // x\n} // y".toList + 1 = 18 by decide +kernel,
    show newlines ("n { m // x\n} // y".toList ++ ['\n']) = 2 by decide +kernel] at hj
  exact ⟨da, dw, d, ha, hw, hd, hj, of_decide_eq_true hla, of_decide_eq_true hlw⟩

/-- After `a{b;};` one line feed is enough. -/
example : parseAstLine (fun _ => 1) List.length (afterDemo.text ++ '\n' :: "m x".toList) =
    some (.error ((lineErrs "m x".toList).map (PErr.later 7 1))) := by
  have ha : BareIdent ['a'] := ident1 (by decide) (by decide)
  have hb : BareIdent ['b'] := ident1 (by decide) (by decide)
  refine (c77_errors _ _ afterDemo "m x".toList ?_ (by decide +kernel) _).2
    ⟨_, lineErrs_spec (es := lineErrs "m x".toList) (by decide +kernel) (by decide +kernel), by
      rw [show byteLen afterDemo.text + 1 = 7 by decide +kernel, show newlines (afterDemo.text ++ ['\n']) = 1 by decide +kernel]⟩
  simp [afterDemo, BodyC.Ok, NodeC.Ok, ChildrenC.Ok, LinesOk, DashOk, TyOk, Name.Ok, NameStartOk, NameEndOk, ItemsOk, SpacesOk, Term.Ok, itemsText, ChildrenC.text, spacesText, Term.text, ha, hb, dashText, BodyC.text, NodeC.text, tyText, Name.text, linesText]

/-- `a;⏎`. -/
def laterDemo : BodyC := .cons [] none (.mk none (.bare ['a']) [] .none [] .semicolon) (.nil [.newline .lf])

/-- `a;`, a line feed and then `m 1`: the node `a`, and `m` in line 1. -/
example : ∃ d dw, parseAstLine (fun _ => 1) List.length "m 1".toList = some (.ok dw) ∧ dw.nodes.length = 1 ∧
    parseAstLine (fun _ => 1) List.length (laterDemo.text ++ "m 1".toList) = some (.ok d) ∧
    d.nodes = laterDemo.value (lineSpan (fun _ => 1) laterDemo.text) 0 ++ (dw.later 3 1).nodes := by
  have ha : BareIdent ['a'] := ident1 (by decide) (by decide)
  obtain ⟨dw, hw, hlw⟩ := line_of_parse (text := "m 1".toList) (fun d => decide (d.nodes.length = 1)) (by decide +kernel)
  have hok : laterDemo.Ok true "m 1".toList := by
    simp [laterDemo, BodyC.Ok, NodeC.Ok, ChildrenC.Ok, LinesOk, DashOk, TyOk, Name.Ok, NameStartOk, NameEndOk, ItemsOk, SpacesOk, Term.Ok, itemsText, ChildrenC.text, spacesText, Term.text, ha, BodyC.text, linesText, Line.Ok, Newline.Ok, Line.text]
  refine ⟨⟨_⟩, dw, hw, of_decide_eq_true hlw, (c77_document _ _ laterDemo "m 1".toList hok ⟨['a', ';'], rfl, by decide⟩ ⟨_⟩).2 ⟨dw, hw, rfl⟩, ?_⟩
  rw [show byteLen laterDemo.text = 3 by decide +kernel, show newlines laterDemo.text = 1 by decide +kernel]

end Knuffel
