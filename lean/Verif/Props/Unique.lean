import Verif.Theory.UniqueDoc
import Verif.Props.Meaning
/-!
# C86: a text can be read in one way only

The concrete syntax trees of `Spec/Cst.lean` say of every character of a text what it is for: which white space,
newlines and comments there are, where names, values and nodes begin and end, how strings are escaped and numbers written.
-/

namespace Knuffel
open Cst

/-- **C86** A text is that of at most one legal tree. -/
theorem c86_one_tree (a b : BodyC) (ha : a.Ok true []) (hb : b.Ok true []) (h : a.text = b.text) : a = b :=
  (uniq_body a b (f := []) (g := []) ha hb (Or.inl rfl) (Or.inl rfl) (by rw [h])).1

theorem c86Demo_ok : c06Demo.Ok true [] := by
  refine ⟨trivial, trivial, ⟨trivial, ⟨Or.inr (Or.inr (isIdSansDig_iff.1 (by decide))), by decide⟩, ?_, ?_, ?_, trivial, trivial, rfl⟩, trivial⟩
  · simp [NameStartOk]
  · simp [NameEndOk, itemsText, Item.text, spacesText, Space.text, Ws.text]
  · refine ⟨⟨by simp, ?_, trivial, trivial, ⟨Or.inl rfl, by decide, by simp [DigitsOk], by simp, by simp⟩⟩, trivial⟩
    simp [SpacesOk, Space.Ok, Ws.Ok, Block.Ok, wsChars]

/-- A tree with a block comment and an argument is legal, its text is `n /* {*/ 1`, and no other legal tree has this text. -/
example : c06Demo.text = "n /* {*/ 1".toList ∧
    ∀ b : BodyC, b.Ok true [] → b.text = "n /* {*/ 1".toList → b = c06Demo := by
  have ht : c06Demo.text = "n /* {*/ 1".toList := by decide +kernel
  exact ⟨ht, fun b hb h => c86_one_tree b c06Demo hb c86Demo_ok (h.trans ht.symm)⟩

/-- **C86** A text in which `/*/` does not occur is accepted exactly if it is that of a legal tree, and then of one only;
the document is what this tree means. -/
theorem c86_accepted (text : Str) (ht : NoTie text) (d : Document (Sp Nat)) :
    parseAst text = some (.ok d) ↔
      ∃ b : BodyC, b.Ok true [] ∧ b.text = text ∧ d = ⟨b.value (byteSpan text) 0⟩ ∧
        ∀ b' : BodyC, b'.Ok true [] → b'.text = text → b' = b := by
  rw [c06_exact text ht d]
  constructor
  · rintro ⟨b, h1, h2, h3⟩
    exact ⟨b, h1, h2, h3, fun b' h4 h5 => c86_one_tree b' b h4 h1 (h5.trans h2.symm)⟩
  · rintro ⟨b, h1, h2, h3, _⟩
    exact ⟨b, h1, h2, h3⟩

/-- The text of that tree does not contain `/*/` and is accepted. -/
example : NoTie c06Demo.text ∧ parseAst c06Demo.text = some (.ok ⟨c06Demo.value (byteSpan c06Demo.text) 0⟩) := by
  have ht : NoTie c06Demo.text := by unfold NoTie; decide +kernel
  exact ⟨ht, (c86_accepted _ ht _).2 ⟨c06Demo, c86Demo_ok, rfl, rfl,
    fun b' h1 h2 => c86_one_tree b' c06Demo h1 c86Demo_ok h2⟩⟩

/-- **C86** Whatever comes behind them: of two legal nodes at the beginning of a text neither goes further than the other. -/
theorem c86_node (a b : NodeC) (f g : Str) (ha : a.Ok true f) (hb : b.Ok true g) (h : a.text ++ f = b.text ++ g) :
    a = b ∧ f = g := uniq_node a b ha hb h

/-- `n;` before `m` and before ` m2` is a legal node, and the text is not to be cut anywhere else. -/
example : ∃ a : NodeC, a.text = "n;".toList ∧ a.Ok true "m".toList ∧ a.Ok true " m2".toList := by
  refine ⟨.mk none (.bare ['n']) [] .none [] .semicolon, by decide, ?_, ?_⟩ <;>
  · refine ⟨trivial, ⟨Or.inr (Or.inr (isIdSansDig_iff.1 (by decide))), by decide⟩, ?_, ?_, trivial, trivial, trivial, trivial⟩
    · simp [NameStartOk]
    · simp [NameEndOk, itemsText, ChildrenC.text, spacesText, Term.text]

/-- The same for an entry of a node, with the space before it. -/
theorem c86_entry (i j : Item) (f g : Str) (hi : i.Ok true f) (hj : j.Ok true g)
    (hf : ∀ c, f.head? = some c → c ∈ wsChars ++ newlineChars ++ ['/', '\\', '{', ';'])
    (hg : ∀ c, g.head? = some c → c ∈ wsChars ++ newlineChars ++ ['/', '\\', '{', ';'])
    (h : i.text ++ f = j.text ++ g) : i = j ∧ f = g := uniq_item hi hj hf hg h

/-- The item ` 1` before a `;`. -/
example : ∃ i : Item, i.text = " 1".toList ∧ i.Ok true ";".toList ∧
    ∀ c, (";".toList : Str).head? = some c → c ∈ wsChars ++ newlineChars ++ ['/', '\\', '{', ';'] := by
  refine ⟨⟨[.ws (.char ' ')], none, .arg ⟨none, .num (.dec none '1' [] none none)⟩⟩, by decide, ?_, by simp⟩
  refine ⟨by simp, ?_, trivial, trivial, ⟨Or.inl rfl, by decide, by simp [DigitsOk], by simp, by simp⟩⟩
  simp [SpacesOk, Space.Ok, Ws.Ok, wsChars]

/-- The same for a block comment. -/
theorem c86_comment (a b : Block) (f g : Str) (ha : a.Ok true) (hb : b.Ok true)
    (h : (Ws.block a).text ++ f = (Ws.block b).text ++ g) : a = b ∧ f = g := by
  have := uniq_ws (v := .block a) (w := .block b) ha hb h
  simpa using this

/-- A comment in a comment. -/
example : (Block.nested (.char 'a' .nil) (.char ' ' .nil)).Ok true ∧
    (Ws.block (.nested (.char 'a' .nil) (.char ' ' .nil))).text = "/*/*a*/ */".toList := by
  refine ⟨by simp [Block.Ok], by decide⟩

/-- The tree of `/*/*/// */ */ n` with a block comment of one character and a line comment to the end. -/
def c86Short : BodyC := .nil [.ws (.block (.char '/' .nil)), .comment ⟨" */ */ n".toList, none⟩]

/-- The tree of the same text with a comment in a comment, and a node behind it. -/
def c86Long : BodyC :=
  .cons [.ws (.block (.nested (.char '/' (.char '/' (.char '/' (.char ' ' .nil)))) (.char ' ' .nil))), .ws (.char ' ')] none
    (.mk none (.bare ['n']) [] .none [] .eof) (.nil [])

/-- **C86** That `/*/` at the beginning of a comment is not legal there (the strict trees) is needed: a text has two trees
that are legal otherwise; the first means no node, the second, legal in
the strict sense too, a node.  (`parse_ast` reads the second: `c06_accepted`.) -/
theorem c86_tie : c86Short.text = c86Long.text ∧ c86Short.Ok false [] ∧ c86Long.Ok true [] ∧ c86Short ≠ c86Long ∧
    c86Short.value (byteSpan c86Short.text) 0 = [] ∧ c86Long.value (byteSpan c86Long.text) 0 ≠ [] := by
  refine ⟨by decide +kernel, ?_, ?_, by simp [c86Short, c86Long], by rfl, ?_⟩
  · simp [c86Short, BodyC.Ok, LinesOk, Line.Ok, Ws.Ok, Block.Ok, LineComment.Ok, linesText, newlineChars]
  · refine ⟨?_, trivial, ⟨trivial, ⟨Or.inr (Or.inr (isIdSansDig_iff.1 (by decide))), by decide⟩, ?_, ?_, trivial, trivial, trivial, rfl⟩, trivial⟩
    · simp [LinesOk, Line.Ok, Ws.Ok, Block.Ok, Block.text, wsChars]
    · simp [NameStartOk]
    · simp [NameEndOk, itemsText, ChildrenC.text, spacesText, Term.text, BodyC.text, linesText]
  · simp [c86Long, BodyC.value]

end Knuffel
