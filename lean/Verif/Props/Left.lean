import Verif.Theory.LeftBraces
import Verif.Theory.TruthDoc
import Verif.Props.After
/-!
# What is left open is reported as left open

C71: a text that ends inside a string, a block comment or a children block is rejected with exactly
one diagnostic, which says what has been left open and where.
-/

namespace Knuffel
open Cst

/-- The span from a place to the end of the text. -/
theorem since_end (k : Nat) (w : Str) :
    spanSince ⟨k + byteLen w, k + byteLen w⟩ (offsetToks k w) [] = ⟨k, k + byteLen w⟩ := by
  cases w with
  | nil => simp [spanSince, offsetToks, byteLen]
  | cons c w =>
    have := offset_since_takes (eoi := ⟨k + byteLen (c :: w), k + byteLen (c :: w)⟩) (k := k) (w := c :: w) (post := []) (by simp)
    simpa [offsetToks] using this

theorem takes_offset (k : Nat) (a w : Str) : Takes (offsetToks k (a ++ w)) a (offsetToks (k + byteLen a) w) :=
  ⟨offsetToks k a, offsetToks_append .., chars_offsetToks _ _⟩

/-- **C71 (strings).** A text ends inside a quoted string that stands where a node or an entry is
expected: the only diagnostic is that the string is not closed; it was opened at its quote. -/
theorem c71_string (o : Open) (l : List StrChar) (hl : ∀ c ∈ l, c.Ok) (hs : o.slot = .node ∨ o.slot = .entry)
    (ho : o.Ok ('"' :: l.flatMap StrChar.text)) (text : Str) (ht : text = o.text ++ '"' :: l.flatMap StrChar.text) :
    parseAst text = some (.error [.unclosed "string".toList ⟨byteLen o.text, byteLen o.text + 1⟩ (.char '"')
      ⟨byteLen text, byteLen text⟩ (.char '"') .eoi]) := by
  obtain ⟨W, hW⟩ : ∃ W, W = l.flatMap StrChar.text := ⟨_, rfl⟩
  rw [← hW] at ho ht
  have hN : byteLen text = byteLen o.text + 1 + byteLen W := by
    rw [ht, byteLen_append, byteLen]
    have : '"'.utf8Size = 1 := by decide
    omega
  have hT : Takes (offsetToks 0 text) o.text (offsetToks (byteLen o.text) ('"' :: W)) := by
    have := takes_offset 0 o.text ('"' :: W)
    rw [Nat.zero_add] at this
    rw [ht]; exact this
  have hT' : Takes (offsetToks (byteLen o.text) ('"' :: W)) ('"' :: l.flatMap StrChar.text) [] := by
    rw [← hW]
    have := takes_offset (byteLen o.text) ('"' :: W) []
    simpa [offsetToks] using this
  have h := hits_escapedString (eoi := offsetEoi text) hl hT'
  have h2 := hitN_string (n := (offsetToks 0 text).length) rfl o hs (Nat.le_refl _) hT (by rw [chars_offsetToks]; exact ho) (by rw [chars_offsetToks]; rfl) h
  have h3 := document_hit rfl h2
  unfold parseAst
  rw [h3]
  have hd : (offsetToks (byteLen o.text) ('"' :: W)).drop 1 = offsetToks (byteLen o.text + 1) W := by
    simp only [offsetToks, List.drop_succ_cons, List.drop_zero]
    rw [show byteLen o.text + '"'.utf8Size = byteLen o.text + 1 from rfl]
  have he : offsetEoi text = ⟨byteLen o.text + 1 + byteLen W, byteLen o.text + 1 + byteLen W⟩ := by
    rw [offsetEoi, hN]
  rw [hd, he, since_end, hN]
  simp [openString, Sp.beforeStart, Sp.atEnd, Offset.back]

/-- After `a;⏎"b" {n 1 ` the string `"xä\n`. -/
example : parseAst "a;\n\"b\" {n 1 \"xä\\n".toList =
    some (.error [.unclosed "string".toList ⟨12, 13⟩ (.char '"') ⟨18, 18⟩ (.char '"') .eoi]) := by
  have := c71_string (openDemo none none) [.plain 'x', .plain 'ä', .esc 'n'] (by simp [StrChar.Ok, escapes]) (Or.inr rfl)
    (openDemo_ok none none _ (by simp) trivial) "a;\n\"b\" {n 1 \"xä\\n".toList (by decide +kernel)
  rw [show byteLen (openDemo none none).text = 12 by decide +kernel, show byteLen "a;\n\"b\" {n 1 \"xä\\n".toList = 18 by decide +kernel] at this
  exact this

/-- **C71 (comments).** A text ends inside a block comment that stands where a node or an entry is
expected: read from left to right, the comment does not end.  The only diagnostic is that the
comment is not closed; it was opened at its `/*`.  (Something must follow the `/*`, and not `/*/`.) -/
theorem c71_comment (o : Open) (w : Str) (hw : w ≠ []) (hn : NoTie w) (hx : afterComment 1 w = none)
    (hs : o.slot = .node ∨ o.slot = .entry) (ho : o.Ok ('/' :: '*' :: w)) (text : Str) (ht : text = o.text ++ '/' :: '*' :: w) :
    parseAst text = some (.error [.unclosed "comment".toList ⟨byteLen o.text, byteLen o.text + 2⟩ (.token "/*".toList)
      ⟨byteLen text, byteLen text⟩ (.token "*/".toList) .eoi]) := by
  have hl : byteLen ('/' :: '*' :: w) = 2 + byteLen w := by
    simp only [byteLen]
    have h1 : '/'.utf8Size = 1 := by decide
    have h2 : '*'.utf8Size = 1 := by decide
    omega
  have hN : byteLen text = byteLen o.text + byteLen ('/' :: '*' :: w) := by rw [ht, byteLen_append]
  have hT : Takes (offsetToks 0 text) o.text (offsetToks (byteLen o.text) ('/' :: '*' :: w)) := by
    have := takes_offset 0 o.text ('/' :: '*' :: w)
    rw [Nat.zero_add] at this
    rw [ht]; exact this
  have hT' := takes_offset (byteLen o.text) ['/', '*'] w
  have he : offsetEoi text = ⟨byteLen o.text + byteLen ('/' :: '*' :: w), byteLen o.text + byteLen ('/' :: '*' :: w)⟩ := by
    rw [offsetEoi, hN]
  have hsp : spanSince (offsetEoi text) (offsetToks (byteLen o.text) ('/' :: '*' :: w)) [] =
      ⟨byteLen o.text, byteLen o.text + byteLen ('/' :: '*' :: w)⟩ := by rw [he, since_end]
  have hpos : 0 < byteLen w := by
    cases w with
    | nil => exact absurd rfl hw
    | cons c w => have := Char.utf8Size_pos c; simp only [byteLen]; omega
  have h := hits_mlComment (eoi := offsetEoi text) hT' (chars_offsetToks _ _) hn hx (by
    rw [show ['/', '*'] ++ w = '/' :: '*' :: w from rfl, hsp]
    simp only [Sp.length, Offset.byte]; omega)
  rw [show ['/', '*'] ++ w = '/' :: '*' :: w from rfl, hsp] at h
  have h2 := hitN_comment (n := (offsetToks 0 text).length) rfl o hs (Nat.le_refl _) hT (by rw [chars_offsetToks]; exact ho)
    (by rw [chars_offsetToks]; exact ⟨w, rfl⟩) h
  have h3 := document_hit rfl h2
  unfold parseAst
  rw [h3, hN]
  simp [openComment, Sp.atStart, Sp.atEnd, Offset.fwd]

/-- After `a;⏎"b" {n 1 ` the comment `/* x /* */ y`: the inner one is closed, the outer one is not. -/
example : parseAst "a;\n\"b\" {n 1 /* x /* */ y".toList =
    some (.error [.unclosed "comment".toList ⟨12, 14⟩ (.token "/*".toList) ⟨24, 24⟩ (.token "*/".toList) .eoi]) := by
  have := c71_comment (openDemo none none) " x /* */ y".toList (by decide) (by unfold NoTie; decide +kernel) (by decide +kernel) (Or.inr rfl)
    (openDemo_ok none none _ (by simp) trivial) "a;\n\"b\" {n 1 /* x /* */ y".toList (by decide +kernel)
  rw [show byteLen (openDemo none none).text = 12 by decide +kernel, show byteLen "a;\n\"b\" {n 1 /* x /* */ y".toList = 24 by decide +kernel] at this
  exact this

/-- The beginning of a node, up to the brace that opens its children block. -/
structure Head where
  ty : Option Name
  name : Name
  items : List Item
  space : List Cst.Space
  dash : Option (List Cst.Space)

/-- Its characters, without the brace. -/
def Head.text (h : Head) : Str :=
  tyText h.ty ++ h.name.text ++ itemsText h.items ++ spacesText h.space ++ dashText h.dash

/-- Legality, if the text `w` follows the brace. -/
def Head.Ok (h : Head) (w : Str) : Prop :=
  TyOk h.ty ∧ h.name.Ok ∧ NameStartOk h.ty h.name ∧
  NameEndOk (itemsText h.items ++ (spacesText h.space ++ dashText h.dash ++ '{' :: w)) h.name ∧
  ItemsOk true (spacesText h.space ++ dashText h.dash ++ '{' :: w) h.items ∧
  SpacesOk true (dashText h.dash ++ '{' :: w) h.space ∧ DashOk true ('{' :: w) h.dash

/-- **C71 (braces).** A text ends inside a children block, after complete nodes and a line feed: the
only diagnostic is that the (innermost) braces are not closed; they were opened at the `{`. -/
theorem c71_braces (o : Open) (h : Head) (b : BodyC) (hs : o.slot = .node) (hb : b.Ok true ['\n']) (hh : h.Ok (b.text ++ ['\n']))
    (ho : o.Ok (h.text ++ '{' :: (b.text ++ ['\n']))) (text : Str) (ht : text = o.text ++ h.text ++ '{' :: (b.text ++ ['\n'])) :
    parseAst text = some (.error [.unclosed "curly braces".toList
      ⟨byteLen (o.text ++ h.text), byteLen (o.text ++ h.text) + 1⟩ (.char '{')
      ⟨byteLen text, byteLen text⟩ (.char '}') .eoi]) := by
  obtain ⟨W, hW⟩ : ∃ W, W = b.text ++ ['\n'] := ⟨_, rfl⟩
  obtain ⟨lines, dash, hl⟩ : ∃ lines dash, openLeaf o = .node lines dash := by
    have hc := openLeaf_cases o
    rcases hc with h | ⟨_, _, _, _, _, _, _, key, vty, h⟩
    · exact h
    · rw [← openLeaf_slot, h] at hs
      cases key <;> cases vty <;> simp [Open.slot] at hs
  have hN : byteLen text = byteLen (o.text ++ h.text) + 1 + byteLen W := by
    rw [ht, ← hW, byteLen_append, byteLen]
    have : '{'.utf8Size = 1 := by decide
    omega
  rw [← hW] at ho hh ht
  have hT : Takes (offsetToks 0 text) o.text (offsetToks (byteLen o.text) (h.text ++ '{' :: W)) := by
    have := takes_offset 0 o.text (h.text ++ '{' :: W)
    rw [Nat.zero_add, ← List.append_assoc] at this
    rw [ht]; exact this
  have hT1 : Takes (offsetToks (byteLen o.text) (h.text ++ '{' :: W)) (h.text ++ ['{']) (offsetToks (byteLen (o.text ++ h.text) + 1) W) := by
    have := takes_offset (byteLen o.text) (h.text ++ ['{']) W
    rw [List.append_assoc, show byteLen o.text + byteLen (h.text ++ ['{']) = byteLen (o.text ++ h.text) + 1 by
      rw [byteLen_append, byteLen_append, show byteLen ['{'] = 1 by decide]; omega] at this
    exact this
  have hT2 : Takes (offsetToks (byteLen (o.text ++ h.text) + 1) W) (b.text ++ ['\n']) [] := by
    rw [← hW]
    have := takes_offset (byteLen (o.text ++ h.text) + 1) W []
    simpa [offsetToks] using this
  obtain ⟨h1, h2, h3, h4, h5, h6, h7⟩ := hh
  have key := hitN_braces (eoi := offsetEoi text) (by simp [Sp.length, offsetEoi]) b o (Nat.le_refl (offsetToks 0 text).length) hT
    (by rw [chars_offsetToks]; exact ho) hl hT1 hT2 h1 h2 h3 (by rw [chars_offsetToks]; exact h4) (by rw [chars_offsetToks]; exact h5)
    (by rw [chars_offsetToks]; exact h6) (by rw [chars_offsetToks]; exact h7) hb
  have he : offsetEoi text = ⟨byteLen (o.text ++ h.text) + 1 + byteLen W, byteLen (o.text ++ h.text) + 1 + byteLen W⟩ := by
    rw [offsetEoi, hN]
  have h8 := document_hit rfl key
  unfold parseAst
  rw [h8, he, since_end, hN]
  simp [openBraces, Sp.beforeStart, Sp.atEnd, Offset.back]

/-- `a {⏎ n 1 {⏎b;⏎`: the brace after `n 1` is the one reported. -/
example : parseAst "a {\n n 1 {\nb;\n".toList =
    some (.error [.unclosed "curly braces".toList ⟨9, 10⟩ (.char '{') ⟨14, 14⟩ (.char '}') .eoi]) := by
  have ha : BareIdent ['a'] := ident1 (by decide) (by decide)
  have hb : BareIdent ['b'] := ident1 (by decide) (by decide)
  have := c71_braces (.inside [] none none (.bare ['a']) [] [.ws (.char ' ')] none (.node [.newline .lf, .ws (.char ' ')] none))
    ⟨none, .bare ['n'], [⟨[.ws (.char ' ')], none, .arg ⟨none, .num (.dec none '1' [] none none)⟩⟩], [.ws (.char ' ')], none⟩
    (.cons [.newline .lf] none (.mk none (.bare ['b']) [] .none [] .semicolon) (.nil [])) rfl ?_ ?_ ?_
    "a {\n n 1 {\nb;\n".toList (by decide +kernel)
  · rw [show byteLen "a {\n n 1 {\nb;\n".toList = 14 by decide +kernel] at this
    exact this
  · simp [BodyC.Ok, NodeC.Ok, ChildrenC.Ok, LinesOk, Line.Ok, Newline.Ok, DashOk, TyOk, Name.Ok, NameStartOk, NameEndOk, ItemsOk, SpacesOk, Term.Ok,
      itemsText, ChildrenC.text, spacesText, Term.text, hb]
  · exact ⟨trivial, bareN, by simp [NameStartOk], by simp [NameEndOk, itemsText, Item.text, spacesText, Space.text, Ws.text],
      ⟨⟨by simp, ⟨blank_ok, trivial⟩, trivial, ⟨trivial, Or.inl rfl, by decide, by simp [DigitsOk], by simp, by simp⟩⟩, trivial⟩, ⟨blank_ok, trivial⟩, trivial⟩
  · refine ⟨trivial, trivial, trivial, ha, by simp [NameStartOk], by simp [NameEndOk, itemsText, spacesText, Space.text, Ws.text],
      trivial, ⟨blank_ok, trivial⟩, trivial, ⟨trivial, ?_⟩, trivial⟩
    simp [LinesOk, Line.Ok, Ws.Ok, wsChars]

private def errs (text : Str) : List (PErr Nat) :=
  match parseAst text with
  | some (.error es) => es
  | _ => []

private theorem errs_spec {text : Str} {es : List (PErr Nat)} (h : decide (errs text = es) = true) (hne : es ≠ []) :
    parseAst text = some (.error es) := by
  have h := of_decide_eq_true h
  unfold errs at h
  split at h
  · rename_i hp; rw [hp, h]
  · exact absurd h.symm hne

/-- **C71 fails** for the value of a property: after `n a="b` a second diagnostic complains about the
name of the property, as if it were an argument. -/
theorem c71_value_witness : parseAst "n a=\"b".toList = some (.error [.messageWithHelp (some "unexpected identifier".toList) ⟨2, 3⟩
    "identifiers cannot be used as arguments".toList "consider enclosing in double quotes \"..\"".toList,
    .unclosed "string".toList ⟨4, 5⟩ (.char '"') ⟨6, 6⟩ (.char '"') .eoi]) :=
  errs_spec (by decide +kernel) (by simp)

private theorem no_unclosed {text : Str} (h : (decide (errs text ≠ []) && (errs text).all (fun e => !e.open?)) = true) :
    ∃ es, parseAst text = some (.error es) ∧ ∀ name a b c d f, .unclosed name a b c d f ∉ es := by
  simp only [Bool.and_eq_true, decide_eq_true_eq, List.all_eq_true] at h
  refine ⟨errs text, errs_spec (by simp) h.1, fun name a b c d f hm => ?_⟩
  have := h.2 _ hm
  simp [PErr.open?] at this

/-- **C71 fails** for a raw string in the place of an entry: nothing is said about a string. -/
theorem c71_raw_witness : ∃ es, parseAst "n r\"b".toList = some (.error es) ∧ ∀ name a b c d f, .unclosed name a b c d f ∉ es :=
  no_unclosed (by decide +kernel)

/-- **C71 fails** for a comment with nothing after its `/*`: the text is said to end where a comment
could be. -/
theorem c71_comment_witness : ∃ es, parseAst "n /*".toList = some (.error es) ∧ ∀ name a b c d f, .unclosed name a b c d f ∉ es :=
  no_unclosed (by decide +kernel)

end Knuffel
