import Verif.Theory.Nested
/-! Lemmas for C86: a text is that of at most one tree. -/

set_option linter.unusedSimpArgs false

namespace Knuffel
open Cst

/-- Two texts that are cut where a class of characters ends are cut at the same place. -/
theorem cut_unique {Q : Char → Prop} : ∀ {a b x y : Str}, a ++ x = b ++ y → (∀ c ∈ a, Q c) → (∀ c ∈ b, Q c) →
    (∀ c, x.head? = some c → ¬ Q c) → (∀ c, y.head? = some c → ¬ Q c) → a = b ∧ x = y
  | [], [], _, _, h, _, _, _, _ => ⟨rfl, h⟩
  | [], c :: b, x, y, h, _, hb, hx, _ => by
    have h : x = c :: b ++ y := h
    subst h
    exact absurd (hb c (by simp)) (hx c rfl)
  | c :: a, [], x, y, h, ha, _, _, hy => by
    have h : c :: a ++ x = y := h
    subst h
    exact absurd (ha c (by simp)) (hy c rfl)
  | c :: a, d :: b, x, y, h, ha, hb, hx, hy => by
    simp only [List.cons_append, List.cons.injEq] at h
    obtain ⟨rfl, h⟩ := h
    replace h := cut_unique h (fun z hz => ha z (by simp [hz])) (fun z hz => hb z (by simp [hz])) hx hy; obtain ⟨rfl, h⟩ := h
    exact ⟨rfl, h⟩

theorem uniq_newline {n m : Newline} {f g : Str} (hn : n.Ok f) (hm : m.Ok g) (h : n.text ++ f = m.text ++ g) :
    n = m ∧ f = g := by
  cases n <;> cases m <;> simp [Newline.text] at h <;> first
    | exact ⟨rfl, h⟩
    | (subst h; simp [Newline.Ok] at hn hm)

theorem newline_begins (n : Newline) : ∃ c w, n.text = c :: w ∧ c ∈ newlineChars := by
  cases n <;> exact ⟨_, _, rfl, by decide⟩

theorem head_block (b : Block) (f : Str) : (b.text ++ '*' :: '/' :: f).head? = (b.text ++ ['*', '/']).head? := by
  cases b <;> rfl

theorem uniq_block : ∀ (b c : Block) {f g : Str}, b.Ok true → c.Ok true →
    b.text ++ '*' :: '/' :: f = c.text ++ '*' :: '/' :: g → b = c ∧ f = g
  | .nil, .nil, f, g, _, _, h => by simpa [Block.text] using h
  | .nil, .char d r, f, g, _, hc, h => by
    simp only [Block.text, List.nil_append, List.cons_append, List.cons.injEq] at h
    obtain ⟨rfl, h⟩ := h
    exact absurd (by rw [← head_block r g, ← h]; rfl) (hc.1 rfl)
  | .nil, .nested i r, f, g, _, _, h => by simp [Block.text] at h
  | .char d r, .nil, f, g, hb, _, h => by
    simp only [Block.text, List.nil_append, List.cons_append, List.cons.injEq] at h
    obtain ⟨rfl, h⟩ := h
    exact absurd (by rw [← head_block r f, h]; rfl) (hb.1 rfl)
  | .char d r, .char d' r', f, g, hb, hc, h => by
    simp only [Block.text, List.cons_append, List.cons.injEq] at h
    obtain ⟨rfl, h⟩ := h
    replace h := uniq_block r r' hb.2.2 hc.2.2 h; obtain ⟨rfl, h⟩ := h
    exact ⟨rfl, h⟩
  | .char d r, .nested i r', f, g, hb, _, h => by
    simp only [Block.text, List.cons_append, List.cons.injEq] at h
    obtain ⟨rfl, h⟩ := h
    have := (hb.2.1 rfl (by rw [← head_block r f, h]; rfl)).1
    simp at this
  | .nested i r, .nil, f, g, _, _, h => by simp [Block.text] at h
  | .nested i r, .char d r', f, g, _, hc, h => by
    simp only [Block.text, List.cons_append, List.cons.injEq] at h
    obtain ⟨rfl, h⟩ := h
    have := (hc.2.1 rfl (by rw [← head_block r' g, ← h]; rfl)).1
    simp at this
  | .nested i r, .nested i' r', f, g, hb, hc, h => by
    simp only [Block.text, List.cons_append, List.append_assoc, List.cons.injEq, true_and] at h
    replace h := uniq_block i i' hb.1 hc.1 h; obtain ⟨rfl, h⟩ := h
    replace h := uniq_block r r' hb.2 hc.2 h; obtain ⟨rfl, h⟩ := h
    exact ⟨rfl, h⟩

theorem uniq_ws {v w : Ws} {f g : Str} (hv : v.Ok true) (hw : w.Ok true) (h : v.text ++ f = w.text ++ g) : v = w ∧ f = g := by
  have hs : '/' ∉ wsChars := by decide
  cases v with
  | char c =>
    cases w with
    | char d => simpa [Ws.text] using h
    | block b =>
      simp only [Ws.text, List.cons_append, List.cons.injEq] at h
      rw [Ws.Ok, h.1] at hv; exact absurd hv hs
  | block b =>
    cases w with
    | char d =>
      simp only [Ws.text, List.cons_append, List.cons.injEq] at h
      rw [Ws.Ok, ← h.1] at hw; exact absurd hw hs
    | block c =>
      simp only [Ws.text, List.cons_append, List.append_assoc, List.cons.injEq, true_and, List.nil_append] at h
      replace h := uniq_block b c hv hw h; obtain ⟨rfl, h⟩ := h
      exact ⟨rfl, h⟩

/-- White space is seen at its beginning. -/
theorem ws_begins {w : Ws} {f : Str} (hw : w.Ok true) : ¬ NoWs (w.text ++ f) := by
  rintro ⟨h1, h2⟩
  cases w with
  | char c => exact h1 c rfl hw
  | block b => exact h2 ⟨b.text ++ ['*', '/'] ++ f, by simp [Ws.text]⟩

theorem uniq_wss : ∀ {l m : List Ws} {f g : Str}, (∀ w ∈ l, w.Ok true) → (∀ w ∈ m, w.Ok true) → NoWs f → NoWs g →
    l.flatMap Ws.text ++ f = m.flatMap Ws.text ++ g → l = m ∧ f = g
  | [], [], _, _, _, _, _, _, h => ⟨rfl, h⟩
  | [], w :: m, f, g, _, hm, hf, _, h => by
    simp only [List.flatMap_nil, List.nil_append, List.flatMap_cons, List.append_assoc] at h
    rw [h] at hf
    exact absurd hf (ws_begins (hm w (by simp)))
  | w :: l, [], f, g, hl, _, _, hg, h => by
    simp only [List.flatMap_nil, List.nil_append, List.flatMap_cons, List.append_assoc] at h
    rw [← h] at hg
    exact absurd hg (ws_begins (hl w (by simp)))
  | v :: l, w :: m, f, g, hl, hm, hf, hg, h => by
    simp only [List.flatMap_cons, List.append_assoc] at h
    replace h := uniq_ws (hl v (by simp)) (hm w (by simp)) h; obtain ⟨rfl, h⟩ := h
    replace h := uniq_wss (fun x hx => hl x (by simp [hx])) (fun x hx => hm x (by simp [hx])) hf hg h; obtain ⟨rfl, h⟩ := h
    exact ⟨rfl, h⟩

theorem stop_head {o : Option Newline} {f : Str} (h : match o with | some n => n.Ok f | none => f = []) :
    ∀ c, (stopText o ++ f).head? = some c → ¬ c ∉ newlineChars := by
  intro c hc
  cases o with
  | none => subst h; simp [stopText] at hc
  | some n =>
    obtain ⟨d, w, h1, h2⟩ := newline_begins n
    simp [stopText, h1] at hc
    subst hc; simpa using h2

theorem uniq_comment {a b : LineComment} {f g : Str} (ha : a.Ok f) (hb : b.Ok g) (h : a.text ++ f = b.text ++ g) :
    a = b ∧ f = g := by
  obtain ⟨x, o⟩ := a
  obtain ⟨y, p⟩ := b
  simp only [LineComment.text, List.cons_append, List.append_assoc, List.cons.injEq, true_and] at h
  replace h := cut_unique (Q := fun c => c ∉ newlineChars) h ha.1 hb.1 (stop_head ha.2) (stop_head hb.2); obtain ⟨rfl, h⟩ := h
  have ha := ha.2
  have hb := hb.2
  cases o with
  | none =>
    simp only at ha; subst ha
    cases p with
    | none => simp only at hb; subst hb; exact ⟨rfl, rfl⟩
    | some n =>
      obtain ⟨d, w, h1, h2⟩ := newline_begins n
      simp [stopText, h1] at h
  | some n =>
    cases p with
    | none =>
      simp only at hb; subst hb
      obtain ⟨d, w, h1, h2⟩ := newline_begins n
      simp [stopText, h1] at h
    | some m =>
      replace h := uniq_newline ha hb h; obtain ⟨rfl, h⟩ := h
      exact ⟨rfl, h⟩

/-- A line comment does not begin as a newline. -/
theorem comment_newline {c : LineComment} {n : Newline} {f g : Str} (h : c.text ++ f = n.text ++ g) : False := by
  obtain ⟨d, w, h1, h2⟩ := newline_begins n
  simp [LineComment.text, h1] at h
  rw [← h.1] at h2
  revert h2; decide

theorem uniq_escEnd {a b : EscEnd} {f g : Str} (ha : a.Ok f) (hb : b.Ok g) (h : a.text ++ f = b.text ++ g) : a = b ∧ f = g := by
  cases a with
  | comment c =>
    cases b with
    | comment d => replace h := uniq_comment ha hb h; obtain ⟨rfl, h⟩ := h; exact ⟨rfl, h⟩
    | newline n => exact (comment_newline h).elim
  | newline n =>
    cases b with
    | comment d => exact (comment_newline h.symm).elim
    | newline m => replace h := uniq_newline ha hb h; obtain ⟨rfl, h⟩ := h; exact ⟨rfl, h⟩

theorem uniq_space {a b : Cst.Space} {f g : Str} (ha : a.Ok true f) (hb : b.Ok true g) (h : a.text ++ f = b.text ++ g) : a = b ∧ f = g := by
  have key : ∀ {w : Ws} {x y : Str}, w.Ok true → w.text ++ x = '\\' :: y → False := by
    intro w x y hw h
    refine ws_begins (f := x) hw ?_
    rw [h]
    exact noWs_lit (by decide) (by decide)
  cases a with
  | ws v =>
    cases b with
    | ws w => replace h := uniq_ws ha hb h; obtain ⟨rfl, h⟩ := h; exact ⟨rfl, h⟩
    | esc l e => exact (key ha h).elim
  | esc l e =>
    cases b with
    | ws w => exact (key hb h.symm).elim
    | esc m e' =>
      simp only [Space.text, List.cons_append, List.append_assoc, List.cons.injEq, true_and] at h
      replace h := uniq_wss ha.1 hb.1 escEnd_noWs escEnd_noWs h; obtain ⟨rfl, h⟩ := h
      replace h := uniq_escEnd ha.2 hb.2 h; obtain ⟨rfl, h⟩ := h
      exact ⟨rfl, h⟩

theorem space_begins {x : Cst.Space} {f g : Str} (hx : x.Ok true g) : ¬ NoSpace (x.text ++ f) := by
  rintro ⟨h1, h2⟩
  cases x with
  | ws w => exact ws_begins hx h1
  | esc l e => exact h2 rfl

theorem uniq_spaces : ∀ {l m : List Cst.Space} {f g : Str}, SpacesOk true f l → SpacesOk true g m → NoSpace f → NoSpace g →
    spacesText l ++ f = spacesText m ++ g → l = m ∧ f = g
  | [], [], _, _, _, _, _, _, h => ⟨rfl, h⟩
  | [], w :: m, f, g, _, hm, hf, _, h => by
    simp only [spacesText, List.flatMap_nil, List.nil_append, List.flatMap_cons, List.append_assoc] at h
    rw [h] at hf
    exact absurd hf (space_begins hm.1)
  | w :: l, [], f, g, hl, _, _, hg, h => by
    simp only [spacesText, List.flatMap_nil, List.nil_append, List.flatMap_cons, List.append_assoc] at h
    rw [← h] at hg
    exact absurd hg (space_begins hl.1)
  | v :: l, w :: m, f, g, hl, hm, hf, hg, h => by
    simp only [spacesText, List.flatMap_cons, List.append_assoc] at h
    replace h := uniq_space hl.1 hm.1 h; obtain ⟨rfl, h⟩ := h
    replace h := uniq_spaces hl.2 hm.2 hf hg h; obtain ⟨rfl, h⟩ := h
    exact ⟨rfl, h⟩

theorem line_begins {x : Cst.Line} {f g : Str} (hx : x.Ok true g) : ¬ NoLine (x.text ++ f) := by
  rintro ⟨h1, h2, h3⟩
  cases x with
  | ws w => exact ws_begins hx h1
  | newline n =>
    obtain ⟨d, w, e1, e2⟩ := newline_begins n
    exact h2 d (by simp [Line.text, e1]) e2
  | comment c => exact h3 ⟨c.body ++ stopText c.stop ++ f, by simp [Line.text, LineComment.text]⟩

theorem uniq_line {a b : Cst.Line} {f g : Str} (ha : a.Ok true f) (hb : b.Ok true g) (h : a.text ++ f = b.text ++ g) : a = b ∧ f = g := by
  have k1 : ∀ {w : Ws} {n : Newline} {x y : Str}, w.Ok true → w.text ++ x = n.text ++ y → False := by
    intro w n x y hw h
    refine ws_begins (f := x) hw ?_
    obtain ⟨d, z, e1, e2⟩ := newline_begins n
    have : ∀ c ∈ newlineChars, c ∉ wsChars ∧ c ≠ '/' := by decide
    rw [h, e1]
    exact noWs_lit (this d e2).1 (this d e2).2
  have k2 : ∀ {w : Ws} {n : LineComment} {x y : Str}, w.Ok true → w.text ++ x = n.text ++ y → False := by
    intro w n x y hw h
    refine ws_begins (f := x) hw ?_
    rw [h]
    exact noWs_slash (by decide)
  cases a with
  | newline n =>
    cases b with
    | newline m => replace h := uniq_newline ha hb h; obtain ⟨rfl, h⟩ := h; exact ⟨rfl, h⟩
    | ws w => exact (k1 hb h.symm).elim
    | comment d => exact (comment_newline h.symm).elim
  | ws v =>
    cases b with
    | newline m => exact (k1 ha h).elim
    | ws w => replace h := uniq_ws ha hb h; obtain ⟨rfl, h⟩ := h; exact ⟨rfl, h⟩
    | comment d => exact (k2 ha h).elim
  | comment c =>
    cases b with
    | newline m => exact (comment_newline h).elim
    | ws w => exact (k2 hb h.symm).elim
    | comment d => replace h := uniq_comment ha hb h; obtain ⟨rfl, h⟩ := h; exact ⟨rfl, h⟩

theorem uniq_lines : ∀ {l m : List Cst.Line} {f g : Str}, LinesOk true f l → LinesOk true g m → NoLine f → NoLine g →
    linesText l ++ f = linesText m ++ g → l = m ∧ f = g
  | [], [], _, _, _, _, _, _, h => ⟨rfl, h⟩
  | [], w :: m, f, g, _, hm, hf, _, h => by
    simp only [linesText, List.flatMap_nil, List.nil_append, List.flatMap_cons, List.append_assoc] at h
    rw [h] at hf
    exact absurd hf (line_begins hm.1)
  | w :: l, [], f, g, hl, _, _, hg, h => by
    simp only [linesText, List.flatMap_nil, List.nil_append, List.flatMap_cons, List.append_assoc] at h
    rw [← h] at hg
    exact absurd hg (line_begins hl.1)
  | v :: l, w :: m, f, g, hl, hm, hf, hg, h => by
    simp only [linesText, List.flatMap_cons, List.append_assoc] at h
    replace h := uniq_line hl.1 hm.1 h; obtain ⟨rfl, h⟩ := h
    replace h := uniq_lines hl.2 hm.2 hf hg h; obtain ⟨rfl, h⟩ := h
    exact ⟨rfl, h⟩

theorem uniq_term {a b : Cst.Term} {f g : Str} (ha : a.Ok f) (hb : b.Ok g) (h : a.text ++ f = b.text ++ g) : a = b ∧ f = g := by
  have hs : ';' ∉ newlineChars := by decide
  cases a with
  | newline n =>
    obtain ⟨d, z, e1, e2⟩ := newline_begins n
    cases b with
    | newline m => replace h := uniq_newline ha hb h; obtain ⟨rfl, h⟩ := h; exact ⟨rfl, h⟩
    | comment d => exact (comment_newline h.symm).elim
    | semicolon => simp [Term.text, e1] at h; rw [h.1] at e2; exact absurd e2 hs
    | eof => have hz : g = [] := hb; subst hz; simp [Term.text, e1] at h
  | comment c =>
    cases b with
    | newline m => exact (comment_newline h).elim
    | comment d => replace h := uniq_comment ha hb h; obtain ⟨rfl, h⟩ := h; exact ⟨rfl, h⟩
    | semicolon => simp [Term.text, LineComment.text] at h
    | eof => have hz : g = [] := hb; subst hz; simp [Term.text, LineComment.text] at h
  | semicolon =>
    cases b with
    | newline m =>
      obtain ⟨d, z, e1, e2⟩ := newline_begins m
      simp [Term.text, e1] at h; rw [← h.1] at e2; exact absurd e2 hs
    | comment d => simp [Term.text, LineComment.text] at h
    | semicolon => simpa [Term.text] using h
    | eof => have hz : g = [] := hb; subst hz; simp [Term.text] at h
  | eof =>
    have hz : f = [] := ha; subst hz
    cases b with
    | newline m =>
      obtain ⟨d, z, e1, e2⟩ := newline_begins m
      simp [Term.text, e1] at h
    | comment d => simp [Term.text, LineComment.text] at h
    | semicolon => simp [Term.text] at h
    | eof => exact ⟨rfl, by simpa [Term.text] using h⟩

end Knuffel
