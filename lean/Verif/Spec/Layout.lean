import Verif.Spec.Written
/-!
# Specification: layout

Operations on concrete syntax trees that should not change the meaning of a
text.  Nothing here models code, and nothing refers to the parser.
-/

namespace Knuffel.Cst

/-! ### White space, comments, line continuations, terminators -/

/-- Forget how an entry was separated from what is before it. -/
def Item.plain (i : Item) : Item := ⟨[.ws (.char ' ')], i.dash.map (fun _ => []), i.entry⟩

mutual
/-- Forget all white space, comments, line continuations and terminators of a
node; everything else is kept. -/
def NodeC.plain : NodeC → NodeC
  | .mk ty name items children _ _ => .mk ty name (items.map Item.plain) children.plain [] (.newline .lf)
/-- The same for a children block. -/
def ChildrenC.plain : ChildrenC → ChildrenC
  | .none => .none
  | .some _ dash body => .some [] (dash.map (fun _ => [])) body.plain
/-- The same for a sequence of nodes. -/
def BodyC.plain : BodyC → BodyC
  | .nil _ => .nil []
  | .cons _ dash node rest => .cons [] (dash.map (fun _ => [])) node.plain rest.plain
end

/-! ### Layouts that are legal everywhere

A bare carriage return is read together with a line feed after it, a line
comment without newline swallows what follows, and a byte order mark after a
bare name belongs to the name.  All other white space can be put anywhere. -/

/-- Not a bare carriage return. -/
def Newline.Safe (n : Newline) : Prop := n ≠ .cr

/-- White space other than the byte order mark, or a block comment. -/
def Ws.Safe : Ws → Prop
  | .char c => c ∈ wsChars ∧ c ≠ '\uFEFF'
  | .block b => b.Ok true

/-- A line comment with its newline. -/
def LineComment.Safe (c : LineComment) : Prop := (∀ x ∈ c.body, x ∉ newlineChars) ∧ ∃ n, c.stop = some n ∧ n.Safe

/-- The same for the end of an escaped line. -/
def EscEnd.Safe : EscEnd → Prop
  | .comment c => c.Safe
  | .newline n => n.Safe

/-- The same for space in a node. -/
def Space.Safe : Space → Prop
  | .ws w => w.Safe
  | .esc l e => (∀ w ∈ l, w.Safe) ∧ e.Safe

/-- The same for space between nodes. -/
def Line.Safe : Line → Prop
  | .newline n => n.Safe
  | .ws w => w.Safe
  | .comment c => c.Safe

/-- The same for terminators. -/
def Term.Safe : Term → Prop
  | .newline n => n.Safe
  | .comment c => c.Safe
  | .semicolon => True
  | .eof => False

/-- The same for what follows a slash-dash. -/
def DashSafe (d : Option (List Space)) : Prop := ∀ l, d = some l → ∀ s ∈ l, s.Safe

/-- The same for an entry; there is space before it. -/
def Item.Safe (i : Item) : Prop := i.before ≠ [] ∧ (∀ s ∈ i.before, s.Safe) ∧ DashSafe i.dash

mutual
/-- All white space, comments and terminators of a node are safe. -/
def NodeC.Safe : NodeC → Prop
  | .mk _ _ items children space term =>
    (∀ i ∈ items, i.Safe) ∧ children.Safe ∧ (∀ s ∈ space, s.Safe) ∧ term.Safe
/-- The same for a children block. -/
def ChildrenC.Safe : ChildrenC → Prop
  | .none => True
  | .some space dash body => (∀ s ∈ space, s.Safe) ∧ DashSafe dash ∧ body.Safe
/-- The same for a sequence of nodes. -/
def BodyC.Safe : BodyC → Prop
  | .nil lines => ∀ l ∈ lines, l.Safe
  | .cons lines dash node rest => (∀ l ∈ lines, l.Safe) ∧ DashSafe dash ∧ node.Safe ∧ rest.Safe
end

/-! ### Slash-dash -/

/-- Add lines at the front of a sequence of nodes. -/
def BodyC.addLines (l : List Line) : BodyC → BodyC
  | .nil lines => .nil (l ++ lines)
  | .cons lines dash node rest => .cons (l ++ lines) dash node rest

mutual
/-- Leave out everything that is commented out by a slash-dash. -/
def NodeC.undash : NodeC → NodeC
  | .mk ty name items children space term =>
    .mk ty name (items.filter (fun i => i.dash.isNone)) children.undash space term
/-- The same for a children block. -/
def ChildrenC.undash : ChildrenC → ChildrenC
  | .none => .none
  | .some space Option.none body => .some space Option.none body.undash
  | .some _ (Option.some _) _ => .none
/-- The same for a sequence of nodes. -/
def BodyC.undash : BodyC → BodyC
  | .nil lines => .nil lines
  | .cons lines Option.none node rest => .cons lines Option.none node.undash rest.undash
  | .cons lines (Option.some _) _ rest => rest.undash.addLines lines
end

/-! ### Newlines -/

/-- Use other newlines. -/
def LineComment.mapNewline (f : Newline → Newline) (c : LineComment) : LineComment := ⟨c.body, c.stop.map f⟩

/-- Use other newlines. -/
def EscEnd.mapNewline (f : Newline → Newline) : EscEnd → EscEnd
  | .comment c => .comment (c.mapNewline f)
  | .newline n => .newline (f n)

/-- Use other newlines. -/
def Space.mapNewline (f : Newline → Newline) : Space → Space
  | .ws w => .ws w
  | .esc l e => .esc l (e.mapNewline f)

/-- Use other newlines. -/
def Line.mapNewline (f : Newline → Newline) : Line → Line
  | .newline n => .newline (f n)
  | .ws w => .ws w
  | .comment c => .comment (c.mapNewline f)

/-- Use other newlines. -/
def Item.mapNewline (f : Newline → Newline) (i : Item) : Item :=
  ⟨i.before.map (Space.mapNewline f), i.dash.map (fun l => l.map (Space.mapNewline f)), i.entry⟩

/-- Use other newlines. -/
def Term.mapNewline (f : Newline → Newline) : Term → Term
  | .newline n => .newline (f n)
  | .comment c => .comment (c.mapNewline f)
  | .semicolon => .semicolon
  | .eof => .eof

mutual
/-- Use other newlines. -/
def NodeC.mapNewline (f : Newline → Newline) : NodeC → NodeC
  | .mk ty name items children space term =>
    .mk ty name (items.map (Item.mapNewline f)) (children.mapNewline f) (space.map (Space.mapNewline f)) (term.mapNewline f)
/-- Use other newlines. -/
def ChildrenC.mapNewline (f : Newline → Newline) : ChildrenC → ChildrenC
  | .none => .none
  | .some space dash body =>
    .some (space.map (Space.mapNewline f)) (dash.map (fun l => l.map (Space.mapNewline f))) (body.mapNewline f)
/-- Use other newlines. -/
def BodyC.mapNewline (f : Newline → Newline) : BodyC → BodyC
  | .nil lines => .nil (lines.map (Line.mapNewline f))
  | .cons lines dash node rest =>
    .cons (lines.map (Line.mapNewline f)) (dash.map (fun l => l.map (Space.mapNewline f))) (node.mapNewline f)
      (rest.mapNewline f)
end

end Knuffel.Cst
