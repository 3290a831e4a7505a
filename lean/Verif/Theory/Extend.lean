import Verif.Theory.Append
import Verif.Theory.Meaning
/-!
# A legal text before a newline

What is legal at the end of the text is, with one or two newlines more, legal before anything.
-/

set_option linter.unusedSimpArgs false

namespace Knuffel.Cst

/-! ### Only the first character of what follows matters -/

theorem head_congr (a : Str) {f f' : Str} (h : f.head? = f'.head?) : (a ++ f).head? = (a ++ f').head? := by
  cases a <;> simp [h]

theorem nil_of_head {f f' : Str} (h : f.head? = f'.head?) (hf : f = []) : f' = [] := by
  subst hf
  cases f' with
  | nil => rfl
  | cons => simp at h

theorem Newline.Ok.congr {f f' : Str} (h : f.head? = f'.head?) {n : Newline} (hn : n.Ok f) : n.Ok f' := by
  cases n <;> first | trivial | (simpa [Newline.Ok, ← h] using hn)

theorem LineComment.Ok.congr {f f' : Str} (h : f.head? = f'.head?) {c : LineComment} (hc : c.Ok f) : c.Ok f' := by
  obtain ⟨b, _ | n⟩ := c
  · exact ⟨hc.1, nil_of_head h hc.2⟩
  · exact ⟨hc.1, Newline.Ok.congr h hc.2⟩

theorem EscEnd.Ok.congr {f f' : Str} (h : f.head? = f'.head?) {e : EscEnd} (he : e.Ok f) : e.Ok f' := by
  cases e with
  | comment c => exact LineComment.Ok.congr h he
  | newline n => exact Newline.Ok.congr h he

theorem Space.Ok.congr {b} {f f' : Str} (h : f.head? = f'.head?) {s : Space} (hs : s.Ok b f) : s.Ok b f' := by
  cases s with
  | ws w => exact hs
  | esc l e => exact ⟨hs.1, EscEnd.Ok.congr h hs.2⟩

theorem SpacesOk.congr {b} {f f' : Str} (h : f.head? = f'.head?) {l : List Space} (hl : SpacesOk b f l) : SpacesOk b f' l := by
  induction l with
  | nil => trivial
  | cons x l ih => exact ⟨hl.1.congr (head_congr _ h), ih hl.2⟩

theorem Line.Ok.congr {b} {f f' : Str} (h : f.head? = f'.head?) {s : Line} (hs : s.Ok b f) : s.Ok b f' := by
  cases s with
  | newline n => exact Newline.Ok.congr h hs
  | ws w => exact hs
  | comment c => exact LineComment.Ok.congr h hs

theorem LinesOk.congr {b} {f f' : Str} (h : f.head? = f'.head?) {l : List Line} (hl : LinesOk b f l) : LinesOk b f' l := by
  induction l with
  | nil => trivial
  | cons x l ih => exact ⟨hl.1.congr (head_congr _ h), ih hl.2⟩

theorem DashOk.congr {b} {f f' : Str} (h : f.head? = f'.head?) {d : Option (List Space)} (hd : DashOk b f d) : DashOk b f' d := by
  cases d with
  | none => trivial
  | some l => exact SpacesOk.congr h hd

theorem entry_ne_nil (e : Entry) : ∃ c r, e.text = c :: r := by
  have : 0 < e.text.length := by
    cases e with
    | arg v => simp [Entry.text, Val.text]; have := lit_ne_nil (l := v.lit); omega
    | prop n v => simp [Entry.text]; omega
  cases h : e.text with
  | nil => simp [h] at this
  | cons c r => exact ⟨c, r, rfl⟩

/-- Entries do not depend on what follows. -/
theorem Item.Ok.any {b} {f f' : Str} {i : Item} (hi : i.Ok b f) : i.Ok b f' := by
  obtain ⟨c, r, hc⟩ := entry_ne_nil i.entry
  have he : (i.entry.text ++ f).head? = (i.entry.text ++ f').head? := by simp [hc]
  refine ⟨hi.1, hi.2.1.congr ?_, hi.2.2.1.congr he, hi.2.2.2⟩
  rw [List.append_assoc, List.append_assoc]
  exact head_congr _ he

theorem item_ne_nil (i : Item) : i.text ≠ [] := by
  obtain ⟨c, r, hc⟩ := entry_ne_nil i.entry
  simp [Item.text, hc]

theorem ItemsOk.any {b} {f f' : Str} {l : List Item} (hl : ItemsOk b f l) : ItemsOk b f' l := by
  induction l with
  | nil => trivial
  | cons x l ih => exact ⟨hl.1.any, ih hl.2⟩

theorem Term.Ok.congr {f f' : Str} (h : f.head? = f'.head?) {e : Term} (he : e.Ok f) : e.Ok f' := by
  cases e with
  | newline n => exact Newline.Ok.congr h he
  | comment c => exact LineComment.Ok.congr h he
  | semicolon => trivial
  | eof => exact nil_of_head h he

theorem NameEndOk.congr {f f' : Str} (h : f.head? = f'.head?) {n : Name} (hn : NameEndOk f n) : NameEndOk f' n := by
  cases n with
  | bare s => simpa [NameEndOk, ← h] using hn
  | quoted l => trivial

mutual
theorem NodeC.Ok.congr {b} {f f' : Str} (h : f.head? = f'.head?) : (n : NodeC) → n.Ok b f → n.Ok b f'
  | .mk ty name items children space term, hn => by
    rw [NodeC.Ok] at hn ⊢
    obtain ⟨h1, h2, h3, h4, h5, h6, h7, h8⟩ := hn
    exact ⟨h1, h2, h3, h4.congr (head_congr _ h), h5.any, ChildrenC.Ok.any children h6,
      h7.congr (head_congr _ h), h8.congr h⟩
theorem ChildrenC.Ok.any {b} {f f' : Str} : (c : ChildrenC) → c.Ok b f → c.Ok b f'
  | .none, _ => by rw [ChildrenC.Ok]; trivial
  | .some space dash body, hc => by
    rw [ChildrenC.Ok] at hc ⊢
    obtain ⟨h1, h2, h3⟩ := hc
    refine ⟨h1.congr ?_, h2.congr (by simp), BodyC.Ok.congr (by simp) body h3⟩
    cases dash with
    | none => simp [dashText]
    | some l => simp [dashText]
theorem BodyC.Ok.congr {b} {f f' : Str} (h : f.head? = f'.head?) : (x : BodyC) → x.Ok b f → x.Ok b f'
  | .nil lines, hx => by
    rw [BodyC.Ok] at hx ⊢
    exact hx.congr h
  | .cons lines dash node rest, hx => by
    rw [BodyC.Ok] at hx ⊢
    obtain ⟨h1, h2, h3, h4⟩ := hx
    exact ⟨h1.congr (head_congr _ h), h2.congr (head_congr _ h), NodeC.Ok.congr (head_congr _ h) node h3,
      BodyC.Ok.congr h rest h4⟩
end

/-! ### One newline more -/

/-- Legal before anything; or legal before anything when one newline is added. -/
def Ext {α : Type} (text : α → Str) (ok : Str → α → Prop) (x : α) : Prop :=
  (∀ g, ok g x) ∨ ∃ x', text x' = text x ++ ['\n'] ∧ ∀ g, ok g x'

theorem ext_newline (n : Newline) : Ext Newline.text Newline.Ok n := by
  cases n with
  | cr => exact Or.inr ⟨.crlf, rfl, fun _ => trivial⟩
  | _ => exact Or.inl fun _ => trivial

theorem ext_comment {c : LineComment} (h : c.Ok []) : Ext LineComment.text LineComment.Ok c := by
  obtain ⟨b, _ | n⟩ := c
  · exact Or.inr ⟨⟨b, some .lf⟩, by simp [LineComment.text, stopText, Newline.text], fun _ => ⟨h.1, trivial⟩⟩
  · rcases ext_newline n with h' | ⟨n', h1, h2⟩
    · exact Or.inl fun g => ⟨h.1, h' g⟩
    · exact Or.inr ⟨⟨b, some n'⟩, by simp [LineComment.text, stopText, h1], fun g => ⟨h.1, h2 g⟩⟩

theorem ext_space {b} {s : Space} (h : s.Ok b []) :
    (∀ g, s.Ok b g) ∨ '\\' ∈ s.text ∧ ∃ s', s'.text = s.text ++ ['\n'] ∧ ∀ g, Space.Ok b g s' := by
  cases s with
  | ws w => exact Or.inl fun _ => h
  | esc l e =>
    cases e with
    | comment c =>
      rcases ext_comment h.2 with h' | ⟨c', h1, h2⟩
      · exact Or.inl fun g => ⟨h.1, h' g⟩
      · exact Or.inr ⟨by simp [Space.text], .esc l (.comment c'), by simp [Space.text, EscEnd.text, h1], fun g => ⟨h.1, h2 g⟩⟩
    | newline n =>
      rcases ext_newline n with h' | ⟨c', h1, h2⟩
      · exact Or.inl fun g => ⟨h.1, h' g⟩
      · exact Or.inr ⟨by simp [Space.text], .esc l (.newline c'), by simp [Space.text, EscEnd.text, h1], fun g => ⟨h.1, h2 g⟩⟩

theorem space_ne_nil (s : Space) : s.text ≠ [] := by
  cases s with
  | ws w => cases w <;> simp [Space.text, Ws.text]
  | esc l e => simp [Space.text]

theorem line_ne_nil (s : Line) : s.text ≠ [] := by
  cases s with
  | ws w => cases w <;> simp [Line.text, Ws.text]
  | newline n => cases n <;> simp [Line.text, Newline.text]
  | comment c => simp [Line.text, LineComment.text]

theorem head_more {a : Str} (h : a ≠ []) (f f' : Str) : (a ++ f).head? = (a ++ f').head? := by
  cases a with
  | nil => exact absurd rfl h
  | cons => rfl

theorem ext_spaces {b} {l : List Space} (h : SpacesOk b [] l) :
    (∀ g, SpacesOk b g l) ∨ '\\' ∈ spacesText l ∧
      ∃ l', spacesText l' = spacesText l ++ ['\n'] ∧ ∀ g, SpacesOk b g l' := by
  induction l with
  | nil => exact Or.inl fun _ => trivial
  | cons x l ih =>
    cases l with
    | nil =>
      rcases ext_space (by simpa [spacesText] using h.1) with h' | ⟨hm, x', h1, h2⟩
      · exact Or.inl fun g => ⟨h' _, trivial⟩
      · exact Or.inr ⟨by simp [spacesText, hm], [x'], by simp [spacesText, h1], fun g => ⟨h2 _, trivial⟩⟩
    | cons y l =>
      have hne : spacesText (y :: l) ≠ [] := by simp [spacesText, space_ne_nil y]
      rcases ih h.2 with h' | ⟨hm, l', h1, h2⟩
      · exact Or.inl fun g => ⟨h.1.congr (head_more hne _ _), h' g⟩
      · refine Or.inr ⟨by simp only [spacesText, List.flatMap_cons] at hm ⊢; simp only [List.mem_append] at hm ⊢; exact Or.inr hm,
          x :: l', by simp [spacesText] at h1 ⊢; exact h1, fun g => ⟨h.1.congr ?_, h2 g⟩⟩
        rw [h1, List.append_assoc]
        exact head_more hne _ _

theorem ext_lines {b} {l : List Line} (h : LinesOk b [] l) : Ext linesText (LinesOk b) l := by
  induction l with
  | nil => exact Or.inl fun _ => trivial
  | cons x l ih =>
    cases l with
    | nil =>
      have h0 : x.Ok b [] := by simpa [linesText] using h.1
      cases x with
      | ws w => exact Or.inl fun g => ⟨h0, trivial⟩
      | newline n =>
        rcases ext_newline n with h' | ⟨n', h1, h2⟩
        · exact Or.inl fun g => ⟨h' _, trivial⟩
        · exact Or.inr ⟨[.newline n'], by simp [linesText, Line.text, h1], fun g => ⟨h2 _, trivial⟩⟩
      | comment c =>
        rcases ext_comment h0 with h' | ⟨n', h1, h2⟩
        · exact Or.inl fun g => ⟨h' _, trivial⟩
        · exact Or.inr ⟨[.comment n'], by simp [linesText, Line.text, h1], fun g => ⟨h2 _, trivial⟩⟩
    | cons y l =>
      have hne : linesText (y :: l) ≠ [] := by simp [linesText, line_ne_nil y]
      rcases ih h.2 with h' | ⟨l', h1, h2⟩
      · exact Or.inl fun g => ⟨h.1.congr (head_more hne _ _), h' g⟩
      · refine Or.inr ⟨x :: l', by simp [linesText] at h1 ⊢; exact h1, fun g => ⟨h.1.congr ?_, h2 g⟩⟩
        rw [h1, List.append_assoc]
        exact head_more hne _ _

theorem ext_term {e : Term} (h : e.Ok []) : e = .eof ∨ e.text ≠ [] ∧ Ext Term.text Term.Ok e := by
  cases e with
  | eof => exact Or.inl rfl
  | semicolon => exact Or.inr ⟨by simp [Term.text], Or.inl fun _ => trivial⟩
  | newline n =>
    refine Or.inr ⟨by cases n <;> simp [Term.text, Newline.text], ?_⟩
    rcases ext_newline n with h' | ⟨n', h1, h2⟩
    · exact Or.inl h'
    · exact Or.inr ⟨.newline n', h1, h2⟩
  | comment n =>
    refine Or.inr ⟨by simp [Term.text, LineComment.text], ?_⟩
    rcases ext_comment h with h' | ⟨n', h1, h2⟩
    · exact Or.inl h'
    · exact Or.inr ⟨.comment n', h1, h2⟩

/-- The same node but for the space and the terminator at its end. -/
def SameNode : NodeC → NodeC → Prop
  | .mk ty name items children _ _, .mk ty' name' items' children' _ _ =>
    ty = ty' ∧ name = name' ∧ items = items' ∧ children = children'

/-- A node with at most two newlines more. -/
theorem ext_node {b} (c : NodeC) (h : c.Ok b []) :
    ∃ (k : Nat) (c' : NodeC), k ≤ 2 ∧ ('\\' ∉ c.text → k ≤ 1) ∧ c'.text = c.text ++ List.replicate k '\n' ∧
      SameNode c c' ∧ ∀ g, c'.Ok b g := by
  obtain ⟨ty, name, items, children, space, term⟩ := c
  rw [NodeC.Ok] at h
  obtain ⟨h1, h2, h3, h4, h5, h6, h7, h8⟩ := h
  -- the name does not mind what comes after
  have hname : ∀ (sp : List Space) (e : Term) (g : Str), (spacesText sp ++ e.text ++ g).head? = (spacesText space ++ term.text).head? ∨
      (spacesText sp ++ e.text ++ g).head? ≠ some '﻿' →
      NameEndOk (itemsText items ++ children.text ++ spacesText sp ++ e.text ++ g) name := by
    intro sp e g hh
    cases name with
    | quoted l => trivial
    | bare s =>
      simp only [NameEndOk, List.append_assoc, List.append_nil] at h4 ⊢
      by_cases hi : itemsText items ++ children.text = []
      · obtain ⟨hi1, hi2⟩ := List.append_eq_nil_iff.1 hi
        rw [hi1, hi2, List.nil_append, List.nil_append] at h4 ⊢
        rw [List.append_assoc] at hh
        rcases hh with hh | hh
        · rw [hh]; exact h4
        · exact hh
      · rw [← List.append_assoc (itemsText items)] at h4 ⊢
        rw [head_more hi _ (spacesText space ++ term.text)]; exact h4
  rcases ext_term h8 with rfl | ⟨hte, h8' | ⟨e', he1, he2⟩⟩
  · -- at the end of the text
    simp only [Term.text, List.append_nil] at h7
    rcases ext_spaces h7 with h7' | ⟨hm, sp', hs1, hs2⟩
    · refine ⟨1, .mk ty name items children space (.newline .lf), by decide, fun _ => by decide, ?_, ⟨rfl, rfl, rfl, rfl⟩, ?_⟩
      · simp [NodeC.text, Term.text, Newline.text]
      · intro g
        rw [NodeC.Ok]
        refine ⟨h1, h2, h3, hname space _ g ?_, h5.any, ChildrenC.Ok.any _ h6, h7' _, trivial⟩
        by_cases hsp : spacesText space = []
        · right; simp [hsp, Term.text, Newline.text]
        · left
          rw [List.append_assoc]
          show _ = (spacesText space ++ []).head?
          exact head_more hsp _ _
    · refine ⟨2, .mk ty name items children sp' (.newline .lf), by decide, ?_, ?_, ⟨rfl, rfl, rfl, rfl⟩, ?_⟩
      · intro hn
        refine absurd ?_ hn
        simp only [NodeC.text, List.mem_append]
        exact Or.inl (Or.inr hm)
      · simp [NodeC.text, Term.text, Newline.text, hs1]
      · intro g
        rw [NodeC.Ok]
        refine ⟨h1, h2, h3, hname sp' _ g ?_, h5.any, ChildrenC.Ok.any _ h6, hs2 _, trivial⟩
        left
        rw [hs1, List.append_assoc, List.append_assoc]
        have hsp : spacesText space ≠ [] := by intro hn; simp [hn] at hm
        show _ = (spacesText space ++ []).head?
        exact head_more hsp _ _
  · refine ⟨0, .mk ty name items children space term, by decide, fun _ => by decide, by simp, ⟨rfl, rfl, rfl, rfl⟩, ?_⟩
    intro g
    rw [NodeC.Ok]
    refine ⟨h1, h2, h3, hname space term g (Or.inl ?_), h5.any, ChildrenC.Ok.any _ h6, h7.congr ?_, h8' g⟩
    · have := head_more (a := spacesText space ++ term.text) (by simp [hte]) g []
      simpa using this
    · exact head_more hte _ _
  · refine ⟨1, .mk ty name items children space e', by decide, fun _ => by decide, by simp [NodeC.text, he1], ⟨rfl, rfl, rfl, rfl⟩, ?_⟩
    intro g
    rw [NodeC.Ok]
    refine ⟨h1, h2, h3, hname space e' g (Or.inl ?_), h5.any, ChildrenC.Ok.any _ h6, h7.congr ?_, he2 g⟩
    · rw [he1]
      have := head_more (a := spacesText space ++ term.text) (by simp [hte]) (['\n'] ++ g) []
      simpa using this
    · rw [he1, List.append_assoc]
      exact head_more hte _ _

theorem sameNode_value {S : Type} {c c' : NodeC} (h : SameNode c c') (f : Nat → Nat → S) (p : Nat) :
    c'.value f p = ⟨f p (p + c'.text.length), (c.value f p).value⟩ := by
  obtain ⟨ty, name, items, children, space, term⟩ := c
  obtain ⟨ty', name', items', children', space', term'⟩ := c'
  obtain ⟨rfl, rfl, rfl, rfl⟩ := h
  rfl

theorem sameNode_value' {S : Type} (c : NodeC) (f : Nat → Nat → S) (p : Nat) :
    c.value f p = ⟨f p (p + c.text.length), (c.value f p).value⟩ := by
  obtain ⟨ty, name, items, children, space, term⟩ := c
  rfl

theorem lines_lf (K : Nat) : linesText (List.replicate K (.newline .lf)) = List.replicate K '\n' := by
  induction K with
  | zero => rfl
  | succ K ih => rw [List.replicate_succ, List.replicate_succ, ← ih]; rfl

theorem lines_lf_ok {b} (K : Nat) (g : Str) : LinesOk b g (List.replicate K (.newline .lf)) := by
  induction K with
  | zero => trivial
  | succ K ih => exact ⟨trivial, ih⟩

theorem linesText_append (l l' : List Line) : linesText (l ++ l') = linesText l ++ linesText l' := by
  simp [linesText]

theorem lines_append_ok {b} {l l' : List Line} {g : Str} (h1 : LinesOk b (linesText l' ++ g) l) (h2 : LinesOk b g l') :
    LinesOk b g (l ++ l') := by
  induction l with
  | nil => exact h2
  | cons x l ih =>
    refine ⟨?_, ih h1.2⟩
    show Line.Ok b (linesText (l ++ l') ++ g) x
    rw [linesText_append, List.append_assoc]
    exact h1.1

/-- A body with at least one newline more (two, if there is a backslash). -/
theorem ext_body {b} (x : BodyC) (h : x.Ok b []) (K : Nat) (hK : 1 ≤ K) (hK' : K = 1 → '\\' ∉ x.text) :
    ∃ x' : BodyC, x'.text = x.text ++ List.replicate K '\n' ∧ (∀ g, x'.Ok b g) ∧
      ∀ {S T : Type} (f : Nat → Nat → S) (start : S → T) (_ : ∀ i j j', start (f i j) = start (f i j')) (p : Nat),
        (x'.value f p).map (fun n => (start n.span, n.value)) = (x.value f p).map (fun n => (start n.span, n.value)) := by
  obtain ⟨K, rfl⟩ : ∃ k, K = k + 1 := ⟨K - 1, by omega⟩
  match x with
  | .nil lines =>
    rw [BodyC.Ok] at h
    rcases ext_lines h with h' | ⟨l', h1, h2⟩
    · refine ⟨.nil (lines ++ List.replicate (K + 1) (.newline .lf)), ?_, ?_, ?_⟩
      · rw [BodyC.text, BodyC.text, linesText_append, lines_lf]
      · intro g; rw [BodyC.Ok]; exact lines_append_ok (h' _) (lines_lf_ok _ g)
      · intros; rfl
    · refine ⟨.nil (l' ++ List.replicate K (.newline .lf)), ?_, ?_, ?_⟩
      · rw [BodyC.text, BodyC.text, linesText_append, lines_lf, h1, List.replicate_succ]; simp
      · intro g; rw [BodyC.Ok]; exact lines_append_ok (h2 _) (lines_lf_ok _ g)
      · intros; rfl
  | .cons lines dash node rest =>
    rw [BodyC.Ok] at h
    obtain ⟨h1, h2, h3, h4⟩ := h
    by_cases hr : rest.text = []
    · have hrest : ∃ l, rest = .nil l := by
        cases rest with
        | nil l => exact ⟨l, rfl⟩
        | cons l d n r =>
          exfalso
          rw [BodyC.Ok] at h4
          rw [BodyC.text] at hr
          simp only [List.append_eq_nil_iff] at hr
          obtain ⟨ty, nm, _⟩ := n
          rw [NodeC.text] at hr
          simp only [List.append_eq_nil_iff] at hr
          have hn := h4.2.2.1
          rw [NodeC.Ok] at hn
          have := name_ne_nil hn.2.1
          rw [hr.1.2.1.1.1.1.2] at this
          simp at this
      obtain ⟨l, rfl⟩ := hrest
      rw [hr] at h1 h2 h3
      simp only [List.append_nil] at h1 h2 h3
      obtain ⟨k, c', hk, hk', hc1, hc2, hc3⟩ := ext_node node h3
      have hkK : k ≤ K + 1 := by
        by_cases h0 : K = 0
        · subst h0
          have := hK' rfl
          rw [BodyC.text] at this
          simp only [List.mem_append, not_or] at this
          have := hk' this.1.2
          omega
        · omega
      have hne : node.text ≠ [] := by
        obtain ⟨ty, nm, _⟩ := node
        rw [NodeC.Ok] at h3
        have := name_ne_nil h3.2.1
        rw [NodeC.text]
        intro hn
        simp only [List.append_eq_nil_iff] at hn
        rw [hn.1.1.1.1.2] at this
        simp at this
      have hdn : dashText dash ++ node.text ≠ [] := by simp [hne]
      refine ⟨.cons lines dash c' (.nil (List.replicate (K + 1 - k) (.newline .lf))), ?_, ?_, ?_⟩
      · rw [BodyC.text, BodyC.text, BodyC.text, lines_lf, hc1]
        rw [hr]
        simp only [List.append_assoc, List.append_nil, List.replicate_append_replicate, List.nil_append]
        rw [Nat.add_sub_cancel' hkK]
      · intro g
        rw [BodyC.Ok]
        refine ⟨h1.congr ?_, h2.congr ?_, hc3 _, ?_⟩
        · rw [hc1]
          simp only [List.append_assoc]
          rw [← List.append_assoc (dashText dash)]
          have := head_more hdn [] (List.replicate k '\n' ++ ((BodyC.nil (List.replicate (K + 1 - k) (Line.newline Newline.lf))).text ++ g))
          simpa using this
        · rw [hc1]
          simp only [List.append_assoc]
          have := head_more hne [] (List.replicate k '\n' ++ ((BodyC.nil (List.replicate (K + 1 - k) (Line.newline Newline.lf))).text ++ g))
          simpa using this
        · rw [BodyC.Ok]; exact lines_lf_ok _ g
      · intro S T f start hs p
        cases dash with
        | some d => rfl
        | none =>
          simp only [BodyC.value, List.map_cons, List.map_nil, List.cons.injEq, and_true]
          rw [sameNode_value hc2, sameNode_value' node]
          simp only [Prod.mk.injEq, and_true]
          exact hs _ _ _
    · obtain ⟨r', hr1, hr2, hr3⟩ := ext_body rest h4 (K + 1) hK (fun hk => by
        have := hK' hk
        rw [BodyC.text] at this
        simp only [List.mem_append, not_or] at this
        exact this.2)
      have hh : ∀ (a g : Str), (a ++ r'.text ++ g).head? = (a ++ rest.text ++ []).head? := by
        intro a g
        rw [hr1]
        simp only [List.append_assoc]
        rw [← List.append_assoc a, ← List.append_assoc a]
        exact head_more (by simp [hr]) _ _
      refine ⟨.cons lines dash node r', ?_, ?_, ?_⟩
      · rw [BodyC.text, BodyC.text, hr1]; simp
      · intro g
        rw [BodyC.Ok]
        refine ⟨h1.congr (hh _ g).symm, h2.congr (hh _ g).symm, NodeC.Ok.congr ?_ node h3, hr2 g⟩
        have := hh [] g
        simpa using this.symm
      · intro S T f start hs p
        cases dash with
        | some d =>
          simp only [BodyC.value]
          exact hr3 f start hs _
        | none =>
          simp only [BodyC.value, List.map_cons, List.cons.injEq, true_and]
          exact hr3 f start hs _

end Knuffel.Cst
