import Verif.Theory.Layout
/-!
# Layout, slash-dash and newlines

C04, C05, C18.  The trees and the operations on them are in `Spec/Cst.lean` and
`Spec/Layout.lean`.
-/

namespace Knuffel
open Cst

theorem body_erase {text : Str} {b : BodyC} (hok : b.Ok true []) (ht : b.text = text) :
    ∃ d, parseAst text = some (.ok d) ∧ d.erase = b.meaning :=
  ⟨_, parse_complete b hok ht, meaning_of_value hok⟩

theorem sound_erase {text : Str} {d : Document (Sp Nat)} (h : parseAst text = some (.ok d)) :
    ∃ b : BodyC, b.Ok false [] ∧ b.text = text ∧ d.erase = b.meaning := by
  obtain ⟨b, h1, h2, h3⟩ := parse_sound h
  refine ⟨b, h1, h2, ?_⟩
  cases d with
  | mk ns => simp only at h3; rw [h3]; exact meaning_of_value h1

theorem meaning_plain (b : BodyC) : b.plain.meaning = b.meaning := congrArg Document.mk (body_plain 0 0 b)
theorem meaning_undash (b : BodyC) : b.undash.meaning = b.meaning := congrArg Document.mk (body_undash 0 0 b)
theorem meaning_newline (f) (b : BodyC) : (b.mapNewline f).meaning = b.meaning := congrArg Document.mk (body_newline f 0 0 b)

/-- Trees used in the examples below. -/
def demo1 : BodyC :=
  .cons [] none (.mk none (.bare "a".toList)
      [⟨[.ws (.char ' ')], none, .arg ⟨none, .bool true⟩⟩] .none [] (.newline .crlf))
    (.cons [] none (.mk none (.bare "b".toList) [] .none [] .eof) (.nil []))

/-- The same with other white space. -/
def demo2 : BodyC :=
  .cons [.ws (.block (.char 'x' .nil)), .comment ⟨"hi".toList, some .lf⟩] none (.mk none (.bare "a".toList)
      [⟨[.esc [] (.newline .lf), .ws (.char '\t')], none, .arg ⟨none, .bool true⟩⟩] .none [] .semicolon)
    (.cons [] none (.mk none (.bare "b".toList) [] .none [.ws (.char ' ')] (.newline .nel)) (.nil []))

/-- The same with more elements, all commented out. -/
def demo3 : BodyC :=
  .cons [] none (.mk none (.bare "a".toList)
      [⟨[.ws (.char ' ')], some [], .arg ⟨none, .null⟩⟩, ⟨[.ws (.char ' ')], none, .arg ⟨none, .bool true⟩⟩]
      (.some [] (some [.ws (.char ' ')]) (.nil [])) [] (.newline .crlf))
    (.cons [] (some []) (.mk none (.quoted []) [] .none [] (.newline .lf))
    (.cons [] none (.mk none (.bare "b".toList) [] .none [] .eof) (.nil [])))

theorem ident_demo (c : Char) (h : c.toNat = 0x61 ∨ c.toNat = 0x62) : BareIdent [c] := by
  have : c = 'a' ∨ c = 'b' := by
    rcases h with h | h
    · exact .inl (Char.ext (UInt32.toNat_inj.1 h))
    · exact .inr (Char.ext (UInt32.toNat_inj.1 h))
  rcases this with rfl | rfl <;>
    exact ⟨.inr (.inr ⟨.inl ⟨by decide, by decide, by decide, by decide⟩, by decide⟩), by decide⟩

theorem demo1_ok : demo1.Ok true [] := by
  simp [demo1, BodyC.Ok, NodeC.Ok, LinesOk, DashOk, TyOk, Name.Ok, NameStartOk, NameEndOk, ItemsOk, Item.Ok, SpacesOk,
    Space.Ok, Ws.Ok, Entry.Ok, Val.Ok, Lit.Ok, ChildrenC.Ok, Term.Ok, Newline.Ok, itemsText, Item.text, spacesText,
    Space.text, Ws.text, BodyC.text, NodeC.text, Term.text, ChildrenC.text, tyText, Name.text, linesText, dashText]
  exact ⟨⟨ident_demo 'a' (.inl rfl), by decide⟩, ident_demo 'b' (.inr rfl)⟩

theorem demo2_safe : demo2.Safe := by
  simp [demo2, BodyC.Safe, NodeC.Safe, Line.Safe, DashSafe, Item.Safe, Space.Safe, Ws.Safe, Block.Ok, EscEnd.Safe,
    Newline.Safe, Term.Safe, ChildrenC.Safe, LineComment.Safe]
  decide

theorem demo3_ok : demo3.Ok true [] := by
  simp [demo3, BodyC.Ok, NodeC.Ok, LinesOk, DashOk, TyOk, Name.Ok, NameStartOk, NameEndOk, ItemsOk, Item.Ok, SpacesOk,
    Space.Ok, Ws.Ok, Entry.Ok, Val.Ok, Lit.Ok, ChildrenC.Ok, Term.Ok, Newline.Ok, itemsText, Item.text, spacesText,
    Space.text, Ws.text, BodyC.text, NodeC.text, Term.text, ChildrenC.text, tyText, Name.text, linesText, dashText]
  exact ⟨⟨ident_demo 'a' (.inl rfl), by decide⟩, ident_demo 'b' (.inr rfl)⟩

/-! ### C04 -/

/-- **C04.** Two legal texts that differ only in white space, comments, line
continuations and terminators are both accepted, with the same document (up to
spans). -/
theorem c04_layout (b1 b2 : BodyC) (h1 : b1.Ok true []) (h2 : b2.Ok true []) (h : b1.plain = b2.plain) :
    ∃ d1 d2, parseAst b1.text = some (.ok d1) ∧ parseAst b2.text = some (.ok d2) ∧ d1.erase = d2.erase := by
  obtain ⟨d1, g1, e1⟩ := body_erase h1 rfl
  obtain ⟨d2, g2, e2⟩ := body_erase h2 rfl
  exact ⟨d1, d2, g1, g2, by rw [e1, e2, ← meaning_plain b1, h, meaning_plain]⟩

/-- **C04.** In an accepted text, the separators and terminators can be replaced by
any others (that are legal everywhere, see `Spec/Layout.lean`): the result is
accepted and gives the same document (up to spans). -/
theorem c04_any_layout (text : Str) (d : Document (Sp Nat)) (h : parseAst text = some (.ok d)) :
    ∃ b1 : BodyC, b1.text = text ∧
      ∀ b2 : BodyC, b2.Safe → b2.plain = b1.plain →
        ∃ d2, parseAst b2.text = some (.ok d2) ∧ d2.erase = d.erase := by
  obtain ⟨b1, h1, h2, h3⟩ := sound_erase h
  refine ⟨b1, h2, fun b2 hs he => ?_⟩
  obtain ⟨d2, g2, e2⟩ := body_erase (body_safe_ok b1 b2 h1 he hs []) rfl
  exact ⟨d2, g2, by rw [e2, h3, ← meaning_plain b2, he, meaning_plain]⟩

example : demo1.text = "a true\r\nb".toList ∧ demo2.text = "/*x*///hi\na\\\n\ttrue;b \u0085".toList ∧
    demo1.Ok true [] ∧ demo2.Safe ∧ demo2.plain = demo1.plain :=
  ⟨by decide, by decide, demo1_ok, demo2_safe, rfl⟩

/-! ### C05 -/

/-- **C05.** Two legal texts that are the same (up to layout) after everything
commented out by a slash-dash is left out are both accepted, with the same
document (up to spans). -/
theorem c05_slashdash (b1 b2 : BodyC) (h1 : b1.Ok true []) (h2 : b2.Ok true []) (h : b1.undash.plain = b2.undash.plain) :
    ∃ d1 d2, parseAst b1.text = some (.ok d1) ∧ parseAst b2.text = some (.ok d2) ∧ d1.erase = d2.erase := by
  obtain ⟨d1, g1, e1⟩ := body_erase h1 rfl
  obtain ⟨d2, g2, e2⟩ := body_erase h2 rfl
  refine ⟨d1, d2, g1, g2, ?_⟩
  rw [e1, e2, ← meaning_undash b1, ← meaning_plain b1.undash, h, meaning_plain, meaning_undash]

/-- **C05.** From an accepted text all commented-out elements can be left out: the
result (in any layout that is legal everywhere) is accepted and gives the same
document (up to spans). -/
theorem c05_leave_out (text : Str) (d : Document (Sp Nat)) (h : parseAst text = some (.ok d)) :
    ∃ b1 : BodyC, b1.text = text ∧
      ∀ b2 : BodyC, b2.Safe → b2.plain = b1.undash.plain →
        ∃ d2, parseAst b2.text = some (.ok d2) ∧ d2.erase = d.erase := by
  obtain ⟨b1, h1, h2, h3⟩ := sound_erase h
  refine ⟨b1, h2, fun b2 hs he => ?_⟩
  obtain ⟨d2, g2, e2⟩ := body_erase (body_undash_ok b1 b2 h1 he hs []) rfl
  exact ⟨d2, g2, by rw [e2, h3, ← meaning_plain b2, he, meaning_plain, meaning_undash]⟩

example : demo3.text = "a /-null true/- {}\r\n/-\"\"\nb".toList ∧ demo1.text = "a true\r\nb".toList ∧
    demo3.Ok true [] ∧ demo3.undash.plain = demo1.undash.plain :=
  ⟨by decide, by decide, demo3_ok, rfl⟩

/-! ### C18 -/

/-- **C18.** In a legal text every newline can be replaced by another kind of
newline: the result is accepted, with the same document (up to spans). -/
theorem c18_newlines (b : BodyC) (h : b.Ok true []) (f : Newline → Newline) (hf : ∀ n, f n ≠ .cr) :
    ∃ d1 d2, parseAst b.text = some (.ok d1) ∧ parseAst (b.mapNewline f).text = some (.ok d2) ∧ d1.erase = d2.erase := by
  obtain ⟨d1, g1, e1⟩ := body_erase h rfl
  obtain ⟨d2, g2, e2⟩ := body_erase (body_newline_ok hf b (.refl _) h) rfl
  exact ⟨d1, d2, g1, g2, by rw [e1, e2, meaning_newline]⟩

/-- **C18**, for a bare carriage return too (where it is not followed by a line
feed, with which it would be one newline), and with a different choice at every
line end. -/
theorem c18_any_newlines (b1 b2 : BodyC) (h1 : b1.Ok true []) (h2 : b2.Ok true [])
    (h : b1.mapNewline (fun _ => .lf) = b2.mapNewline (fun _ => .lf)) :
    ∃ d1 d2, parseAst b1.text = some (.ok d1) ∧ parseAst b2.text = some (.ok d2) ∧ d1.erase = d2.erase := by
  obtain ⟨d1, g1, e1⟩ := body_erase h1 rfl
  obtain ⟨d2, g2, e2⟩ := body_erase h2 rfl
  refine ⟨d1, d2, g1, g2, ?_⟩
  rw [e1, e2, ← meaning_newline (fun _ => .lf) b1, h, meaning_newline]

example : demo1.Ok true [] ∧ (demo1.mapNewline (fun _ => .ps)).text = "a true\u2029b".toList := ⟨demo1_ok, by decide⟩

end Knuffel
