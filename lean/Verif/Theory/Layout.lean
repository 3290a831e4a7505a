import Verif.Spec.Layout
import Verif.Theory.Written
/-!
# Layout does not matter
-/

namespace Knuffel
open Cst

/-! ### Plain -/

theorem writtenArgs_plain (l : List Item) : writtenArgs (l.map Item.plain) = writtenArgs l := by
  induction l with
  | nil => rfl
  | cons i l ih =>
    obtain ⟨b, d, e⟩ := i
    cases d <;> cases e <;> simp [Item.plain, writtenArgs, ih]

theorem writtenProps_plain (l : List Item) : writtenProps (l.map Item.plain) = writtenProps l := by
  induction l with
  | nil => rfl
  | cons i l ih =>
    obtain ⟨b, d, e⟩ := i
    cases d <;> cases e <;> simp [Item.plain, writtenProps, ih]

mutual
theorem node_plain (n : NodeC) : n.plain.meaning = n.meaning := by
  match n with
  | .mk ty name items children space term =>
    have hc := children_plain 0 0 children
    simp only [NodeC.plain, NodeC.meaning, NodeC.value, itemsArgs_meaning, itemsProps_meaning, writtenArgs_plain,
      writtenProps_plain]
    rw [children_pos _ 0 children.plain, children_pos _ 0 children, hc]
theorem children_plain (p q : Nat) (c : ChildrenC) : c.plain.value noSpan p = c.value noSpan q := by
  match c with
  | .none => simp only [ChildrenC.plain, ChildrenC.value]
  | .some space (some d) body => simp [ChildrenC.plain, ChildrenC.value]
  | .some space none body =>
    simp only [ChildrenC.plain, ChildrenC.value, Option.map_none]
    exact congrArg some (congrArg (Spanned.mk ()) (body_plain _ _ body))
theorem body_plain (p q : Nat) (b : BodyC) : b.plain.value noSpan p = b.value noSpan q := by
  match b with
  | .nil lines => simp only [BodyC.plain, BodyC.value]
  | .cons lines (some d) node rest =>
    simp only [BodyC.plain, BodyC.value, Option.map_some]
    exact body_plain _ _ rest
  | .cons lines none node rest =>
    simp only [BodyC.plain, BodyC.value, Option.map_none, node_span, node_plain node]
    exact congrArg _ (body_plain _ _ rest)
end

/-! ### Undash -/

theorem writtenArgs_filter (l : List Item) : writtenArgs (l.filter (fun i => i.dash.isNone)) = writtenArgs l := by
  induction l with
  | nil => rfl
  | cons i l ih =>
    obtain ⟨b, d, e⟩ := i
    cases d <;> cases e <;> simp [writtenArgs, ih]

theorem writtenProps_filter (l : List Item) : writtenProps (l.filter (fun i => i.dash.isNone)) = writtenProps l := by
  induction l with
  | nil => rfl
  | cons i l ih =>
    obtain ⟨b, d, e⟩ := i
    cases d <;> cases e <;> simp [writtenProps, ih]

theorem addLines_value (p q : Nat) (l : List Line) (b : BodyC) : (b.addLines l).value noSpan p = b.value noSpan q := by
  cases b with
  | nil lines => simp only [BodyC.addLines, BodyC.value]
  | cons lines dash node rest =>
    cases dash with
    | some d =>
      simp only [BodyC.addLines, BodyC.value]
      exact body_pos _ _ rest
    | none =>
      simp only [BodyC.addLines, BodyC.value, node_span]
      rw [body_pos _ 0 rest, body_pos (q + _ + _) 0 rest]

mutual
theorem node_undash (n : NodeC) : n.undash.meaning = n.meaning := by
  match n with
  | .mk ty name items children space term =>
    have hc := children_undash 0 0 children
    simp only [NodeC.undash, NodeC.meaning, NodeC.value, itemsArgs_meaning, itemsProps_meaning, writtenArgs_filter,
      writtenProps_filter]
    rw [children_pos _ 0 children.undash, children_pos _ 0 children, hc]
theorem children_undash (p q : Nat) (c : ChildrenC) : c.undash.value noSpan p = c.value noSpan q := by
  match c with
  | .none => simp only [ChildrenC.undash, ChildrenC.value]
  | .some space (some d) body => simp [ChildrenC.undash, ChildrenC.value]
  | .some space none body =>
    simp only [ChildrenC.undash, ChildrenC.value]
    exact congrArg some (congrArg (Spanned.mk ()) (body_undash _ _ body))
theorem body_undash (p q : Nat) (b : BodyC) : b.undash.value noSpan p = b.value noSpan q := by
  match b with
  | .nil lines => simp only [BodyC.undash, BodyC.value]
  | .cons lines (some d) node rest =>
    simp only [BodyC.undash, BodyC.value]
    rw [addLines_value _ 0, body_undash 0 _ rest]
  | .cons lines none node rest =>
    simp only [BodyC.undash, BodyC.value, node_span, node_undash node]
    exact congrArg _ (body_undash _ _ rest)
end

/-! ### Newlines -/

theorem writtenArgs_newline (f) (l : List Item) : writtenArgs (l.map (Item.mapNewline f)) = writtenArgs l := by
  induction l with
  | nil => rfl
  | cons i l ih =>
    obtain ⟨b, d, e⟩ := i
    cases d <;> cases e <;> simp [Item.mapNewline, writtenArgs, ih]

theorem writtenProps_newline (f) (l : List Item) : writtenProps (l.map (Item.mapNewline f)) = writtenProps l := by
  induction l with
  | nil => rfl
  | cons i l ih =>
    obtain ⟨b, d, e⟩ := i
    cases d <;> cases e <;> simp [Item.mapNewline, writtenProps, ih]

mutual
theorem node_newline (f) (n : NodeC) : (n.mapNewline f).meaning = n.meaning := by
  match n with
  | .mk ty name items children space term =>
    have hc := children_newline f 0 0 children
    simp only [NodeC.mapNewline, NodeC.meaning, NodeC.value, itemsArgs_meaning, itemsProps_meaning, writtenArgs_newline,
      writtenProps_newline]
    rw [children_pos _ 0 (children.mapNewline f), children_pos _ 0 children, hc]
theorem children_newline (f) (p q : Nat) (c : ChildrenC) : (c.mapNewline f).value noSpan p = c.value noSpan q := by
  match c with
  | .none => simp only [ChildrenC.mapNewline, ChildrenC.value]
  | .some space (some d) body => simp [ChildrenC.mapNewline, ChildrenC.value]
  | .some space none body =>
    simp only [ChildrenC.mapNewline, ChildrenC.value, Option.map_none]
    exact congrArg some (congrArg (Spanned.mk ()) (body_newline f _ _ body))
theorem body_newline (f) (p q : Nat) (b : BodyC) : (b.mapNewline f).value noSpan p = b.value noSpan q := by
  match b with
  | .nil lines => simp only [BodyC.mapNewline, BodyC.value]
  | .cons lines (some d) node rest =>
    simp only [BodyC.mapNewline, BodyC.value, Option.map_some]
    exact body_newline f _ _ rest
  | .cons lines none node rest =>
    simp only [BodyC.mapNewline, BodyC.value, Option.map_none, node_span, node_newline f node]
    exact congrArg _ (body_newline f _ _ rest)
end

/-! ### Changing newlines keeps a tree legal -/

section
variable {f : Newline → Newline} (hf : ∀ n, f n ≠ .cr)
include hf

theorem newline_ok (n : Newline) (fol : Str) : (f n).Ok fol := by
  have := hf n
  cases h : f n <;> simp_all [Newline.Ok]

/-- Texts that may follow, before and after. -/
def SameStart (fol fol' : Str) : Prop := (fol = [] ↔ fol' = []) ∧ (fol'.head? = some '\uFEFF' → fol.head? = some '\uFEFF')

omit hf in
theorem SameStart.refl (fol : Str) : SameStart fol fol := ⟨Iff.rfl, id⟩

omit hf in
theorem newline_text_feff (n : Newline) : n.text ≠ [] ∧ n.text.head? ≠ some '\uFEFF' := by
  cases n <;> decide

omit hf in
theorem SameStart.append {a a' b b' : Str} (h1 : SameStart a a') (h2 : SameStart b b') : SameStart (a ++ b) (a' ++ b') := by
  obtain ⟨h1, h1'⟩ := h1
  obtain ⟨h2, h2'⟩ := h2
  constructor
  · simp only [List.append_eq_nil_iff, h1, h2]
  · cases a' with
    | nil =>
      have : a = [] := h1.2 rfl
      subst this
      simpa using h2'
    | cons x a' =>
      cases a with
      | nil => exact absurd (h1.1 rfl) (by simp)
      | cons y a => simpa using h1'

omit hf in
theorem SameStart.cons (c : Char) (b b' : Str) : SameStart (c :: b) (c :: b') := ⟨by simp, by simp⟩

omit hf in
theorem newline_start (n : Newline) : SameStart n.text (f n).text :=
  ⟨⟨fun h => absurd h (newline_text_feff n).1, fun h => absurd h (newline_text_feff _).1⟩,
    fun h => absurd h (newline_text_feff _).2⟩

omit hf in
theorem comment_start (c : LineComment) : SameStart c.text (c.mapNewline f).text := SameStart.cons _ _ _

omit hf in
theorem space_start (s : Space) : SameStart s.text (s.mapNewline f).text := by
  cases s with
  | ws w => exact .refl _
  | esc l e => exact .cons _ _ _

omit hf in
theorem line_start (s : Line) : SameStart s.text (s.mapNewline f).text := by
  cases s with
  | ws w => exact .refl _
  | newline n => exact newline_start n
  | comment c => exact comment_start c

omit hf in
theorem flat_start {α : Type} {t t' : α → Str} {g : α → α} (h : ∀ a, SameStart (t a) (t' (g a))) (l : List α) :
    SameStart (l.flatMap t) ((l.map g).flatMap t') := by
  induction l with
  | nil => exact .refl _
  | cons a l ih => simp only [List.flatMap_cons, List.map_cons]; exact (h a).append ih

omit hf in
theorem spaces_start (l : List Space) : SameStart (spacesText l) (spacesText (l.map (Space.mapNewline f))) :=
  flat_start space_start l

omit hf in
theorem lines_start (l : List Line) : SameStart (linesText l) (linesText (l.map (Line.mapNewline f))) :=
  flat_start line_start l

omit hf in
theorem dash_start (d : Option (List Space)) :
    SameStart (dashText d) (dashText (d.map (fun l => l.map (Space.mapNewline f)))) := by
  cases d with
  | none => exact .refl _
  | some l => exact .cons _ _ _

omit hf in
theorem item_start (i : Item) : SameStart i.text (i.mapNewline f).text := by
  unfold Item.text
  exact ((spaces_start i.before).append (dash_start i.dash)).append (.refl _)

omit hf in
theorem items_start (l : List Item) : SameStart (itemsText l) (itemsText (l.map (Item.mapNewline f))) :=
  flat_start item_start l

omit hf in
theorem term_start (t : Term) : SameStart t.text (t.mapNewline f).text := by
  cases t with
  | newline n => exact newline_start n
  | comment c => exact comment_start c
  | semicolon => exact .refl _
  | eof => exact .refl _

omit hf in
theorem children_start (c : ChildrenC) : SameStart c.text (c.mapNewline f).text := by
  cases c with
  | none => simp only [ChildrenC.mapNewline]; exact .refl _
  | some space dash body =>
    simp only [ChildrenC.mapNewline, ChildrenC.text]
    exact (((spaces_start space).append (dash_start dash)).append (.cons _ _ _)).append (.refl _)

omit hf in
theorem node_start (n : NodeC) : SameStart n.text (n.mapNewline f).text := by
  cases n with
  | mk ty name items children space term =>
    simp only [NodeC.mapNewline, NodeC.text]
    exact (((((SameStart.refl _).append (items_start items)).append (children_start children)).append
      (spaces_start space)).append (term_start term))

omit hf in
theorem body_start (b : BodyC) : SameStart b.text (b.mapNewline f).text := by
  match b with
  | .nil lines => simp only [BodyC.mapNewline, BodyC.text]; exact lines_start lines
  | .cons lines dash node rest =>
    simp only [BodyC.mapNewline, BodyC.text]
    exact (((lines_start lines).append (dash_start dash)).append (node_start node)).append (body_start rest)

theorem comment_ok (c : LineComment) {fol fol'} (hs : SameStart fol fol') (h : c.Ok fol) : (c.mapNewline f).Ok fol' := by
  obtain ⟨b, s⟩ := c
  cases s with
  | none => exact ⟨h.1, hs.1.1 h.2⟩
  | some n => exact ⟨h.1, newline_ok hf n _⟩

theorem space_ok {str} (s : Space) {fol fol'} (hs : SameStart fol fol') (h : s.Ok str fol) : (s.mapNewline f).Ok str fol' := by
  cases s with
  | ws w => exact h
  | esc l e =>
    refine ⟨h.1, ?_⟩
    cases e with
    | comment c => exact comment_ok hf c hs h.2
    | newline n => exact newline_ok hf n _

theorem spaces_ok {str} (l : List Space) {fol fol'} (hs : SameStart fol fol') (h : SpacesOk str fol l) :
    SpacesOk str fol' (l.map (Space.mapNewline f)) := by
  induction l with
  | nil => trivial
  | cons x l ih => exact ⟨space_ok hf x ((spaces_start l).append hs) h.1, ih h.2⟩

theorem line_ok {str} (s : Line) {fol fol'} (hs : SameStart fol fol') (h : s.Ok str fol) : (s.mapNewline f).Ok str fol' := by
  cases s with
  | ws w => exact h
  | newline n => exact newline_ok hf n _
  | comment c => exact comment_ok hf c hs h

theorem lines_ok {str} (l : List Line) {fol fol'} (hs : SameStart fol fol') (h : LinesOk str fol l) :
    LinesOk str fol' (l.map (Line.mapNewline f)) := by
  induction l with
  | nil => trivial
  | cons x l ih => exact ⟨line_ok hf x ((lines_start l).append hs) h.1, ih h.2⟩

theorem dash_ok {str} (d : Option (List Space)) {fol fol'} (hs : SameStart fol fol') (h : DashOk str fol d) :
    DashOk str fol' (d.map (fun l => l.map (Space.mapNewline f))) := by
  cases d with
  | none => trivial
  | some l => exact spaces_ok hf l hs h

theorem item_ok {str} (i : Item) {fol fol'} (hs : SameStart fol fol') (h : i.Ok str fol) : (i.mapNewline f).Ok str fol' := by
  obtain ⟨h1, h2, h3, h4⟩ := h
  refine ⟨by simpa [Item.mapNewline] using h1, spaces_ok hf _ ?_ h2, dash_ok hf _ ?_ h3, h4⟩
  · exact ((dash_start i.dash).append (.refl _)).append hs
  · exact (SameStart.refl _).append hs

theorem items_ok {str} (l : List Item) {fol fol'} (hs : SameStart fol fol') (h : ItemsOk str fol l) :
    ItemsOk str fol' (l.map (Item.mapNewline f)) := by
  induction l with
  | nil => trivial
  | cons x l ih => exact ⟨item_ok hf x ((items_start l).append hs) h.1, ih h.2⟩

theorem term_ok (t : Term) {fol fol'} (hs : SameStart fol fol') (h : t.Ok fol) : (t.mapNewline f).Ok fol' := by
  cases t with
  | newline n => exact newline_ok hf n _
  | comment c => exact comment_ok hf c hs h
  | semicolon => trivial
  | eof => exact hs.1.1 h

mutual
theorem node_newline_ok {str} (n : NodeC) {fol fol'} (hs : SameStart fol fol') (h : n.Ok str fol) :
    (n.mapNewline f).Ok str fol' := by
  match n with
  | .mk ty name items children space term =>
    obtain ⟨h1, h2, h3, h4, h5, h6, h7, h8⟩ := h
    have s1 := (term_start (f := f) term).append hs
    have s2 := (spaces_start (f := f) space).append s1
    have s3 := (children_start (f := f) children).append s2
    have s4 := (items_start (f := f) items).append s3
    simp only [List.append_assoc] at h4 h5 h6 h7
    simp only [NodeC.mapNewline, NodeC.Ok, List.append_assoc]
    refine ⟨h1, h2, h3, ?_, items_ok hf items s3 h5, children_newline_ok children s2 h6, spaces_ok hf space s1 h7,
      term_ok hf term hs h8⟩
    cases name with
    | quoted => trivial
    | bare s => exact fun e => h4 (s4.2 e)
theorem children_newline_ok {str} (c : ChildrenC) {fol fol'} (_hs : SameStart fol fol') (h : c.Ok str fol) :
    (c.mapNewline f).Ok str fol' := by
  match c with
  | .none => simp [ChildrenC.mapNewline, ChildrenC.Ok]
  | .some space dash body =>
    obtain ⟨h1, h2, h3⟩ := h
    simp only [ChildrenC.mapNewline, ChildrenC.Ok]
    simp only [List.append_assoc] at h1 ⊢
    exact ⟨spaces_ok hf space ((dash_start dash).append (.cons _ _ _)) h1, dash_ok hf dash (.cons _ _ _) h2,
      body_newline_ok body (.cons _ _ _) h3⟩
theorem body_newline_ok {str} (b : BodyC) {fol fol'} (hs : SameStart fol fol') (h : b.Ok str fol) :
    (b.mapNewline f).Ok str fol' := by
  match b with
  | .nil lines => simp only [BodyC.mapNewline, BodyC.Ok]; exact lines_ok hf lines hs h
  | .cons lines dash node rest =>
    obtain ⟨h1, h2, h3, h4⟩ := h
    have s1 := (body_start (f := f) rest).append hs
    have s2 := (node_start (f := f) node).append s1
    simp only [List.append_assoc] at h1 h2 h3
    simp only [BodyC.mapNewline, BodyC.Ok, List.append_assoc]
    exact ⟨lines_ok hf lines ((dash_start dash).append s2) h1, dash_ok hf dash s2 h2, node_newline_ok node s1 h3,
      body_newline_ok rest hs h4⟩
end

end

/-! ### Safe layouts are legal everywhere -/

theorem safe_newline {n : Newline} (h : n.Safe) (fol : Str) : n.Ok fol := by
  cases n <;> first | trivial | exact absurd rfl h

theorem safe_ws {w : Ws} (h : w.Safe) : w.Ok true := by
  cases w with
  | char c => exact h.1
  | block b => exact h

theorem safe_comment {c : LineComment} (h : c.Safe) (fol : Str) : c.Ok fol := by
  obtain ⟨h1, n, h2, h3⟩ := h
  refine ⟨h1, ?_⟩
  rw [h2]
  exact safe_newline h3 _

theorem safe_space {s : Space} (h : s.Safe) (fol : Str) : s.Ok true fol := by
  cases s with
  | ws w => exact safe_ws h
  | esc l e =>
    refine ⟨fun w hw => safe_ws (h.1 w hw), ?_⟩
    cases e with
    | comment c => exact safe_comment h.2 _
    | newline n => exact safe_newline h.2 _

theorem safe_spaces {l : List Space} (h : ∀ s ∈ l, s.Safe) (fol : Str) : SpacesOk true fol l := by
  induction l with
  | nil => trivial
  | cons x l ih => exact ⟨safe_space (h x (by simp)) _, ih fun s hs => h s (by simp [hs])⟩

theorem safe_line {s : Line} (h : s.Safe) (fol : Str) : s.Ok true fol := by
  cases s with
  | ws w => exact safe_ws h
  | comment c => exact safe_comment h _
  | newline n => exact safe_newline h _

theorem safe_lines {l : List Line} (h : ∀ s ∈ l, s.Safe) (fol : Str) : LinesOk true fol l := by
  induction l with
  | nil => trivial
  | cons x l ih => exact ⟨safe_line (h x (by simp)) _, ih fun s hs => h s (by simp [hs])⟩

theorem safe_dash {d : Option (List Space)} (h : DashSafe d) (fol : Str) : DashOk true fol d := by
  cases d with
  | none => trivial
  | some l => exact safe_spaces (h l rfl) _

theorem safe_term {t : Term} (h : t.Safe) (fol : Str) : t.Ok fol := by
  cases t with
  | newline n => exact safe_newline h _
  | comment c => exact safe_comment h _
  | semicolon => trivial
  | eof => exact h.elim

/-- The first character is there and is no byte order mark. -/
def GoodStart (t : Str) : Prop := ∃ c r, t = c :: r ∧ c ≠ '\uFEFF'

theorem GoodStart.append {t : Str} (h : GoodStart t) (u : Str) : GoodStart (t ++ u) := by
  obtain ⟨c, r, rfl, h⟩ := h
  exact ⟨c, r ++ u, rfl, h⟩

theorem GoodStart.head {t : Str} (h : GoodStart t) : t.head? ≠ some '\uFEFF' := by
  obtain ⟨c, r, rfl, h⟩ := h
  simpa using h

theorem good_newline (n : Newline) : GoodStart n.text := by
  cases n <;> exact ⟨_, _, rfl, by decide⟩

theorem good_space {s : Space} (h : s.Safe) : GoodStart s.text := by
  cases s with
  | ws w =>
    cases w with
    | char c => exact ⟨_, _, rfl, h.2⟩
    | block b => exact ⟨_, _, rfl, by decide⟩
  | esc l e => exact ⟨_, _, rfl, by decide⟩

theorem good_term {t : Term} (h : t.Safe) : GoodStart t.text := by
  cases t with
  | newline n => exact good_newline n
  | comment c => exact ⟨_, _, rfl, by decide⟩
  | semicolon => exact ⟨_, _, rfl, by decide⟩
  | eof => exact h.elim

theorem good_spaces {l : List Space} (h : ∀ s ∈ l, s.Safe) {t : Str} (ht : GoodStart t) : GoodStart (spacesText l ++ t) := by
  cases l with
  | nil => exact ht
  | cons x l => simp only [spacesText, List.flatMap_cons]; exact ((good_space (h x (by simp))).append _).append _

theorem good_dash (d : Option (List Space)) {t : Str} (ht : GoodStart t) : GoodStart (dashText d ++ t) := by
  cases d with
  | none => exact ht
  | some l => exact ⟨_, _, rfl, by decide⟩

theorem good_children {c : ChildrenC} (h : c.Safe) {t : Str} (ht : GoodStart t) : GoodStart (c.text ++ t) := by
  cases c with
  | none => exact ht
  | some space dash body =>
    simp only [ChildrenC.Safe] at h
    simp only [ChildrenC.text, List.append_assoc]
    exact good_spaces h.1 (good_dash dash ⟨_, _, rfl, by decide⟩)

theorem good_items {l : List Item} (h : ∀ i ∈ l, i.Safe) {t : Str} (ht : GoodStart t) : GoodStart (itemsText l ++ t) := by
  cases l with
  | nil => exact ht
  | cons x l =>
    obtain ⟨h1, h2, -⟩ := h x (by simp)
    simp only [itemsText, List.flatMap_cons, Item.text, List.append_assoc]
    cases hb : x.before with
    | nil => exact absurd hb h1
    | cons y m =>
      rw [hb] at h2
      simp only [spacesText, List.flatMap_cons, List.append_assoc]
      exact (good_space (h2 y (by simp))).append _

theorem safe_items {str fol1} {l1 l2 : List Item} (ho : ItemsOk str fol1 l1)
    (he : l2.map Item.plain = l1.map Item.plain) (hs : ∀ i ∈ l2, i.Safe) (fol2 : Str) : ItemsOk true fol2 l2 := by
  induction l2 generalizing l1 with
  | nil => trivial
  | cons x l ih =>
    cases l1 with
    | nil => simp at he
    | cons y m =>
      simp only [List.map_cons, List.cons.injEq] at he
      obtain ⟨h1, h2, h3⟩ := hs x (by simp)
      refine ⟨⟨h1, safe_spaces h2 _, safe_dash h3 _, ?_⟩, ih ho.2 he.2 fun i hi => hs i (by simp [hi])⟩
      have := congrArg Item.entry he.1
      simp only [Item.plain] at this
      rw [this]
      exact ho.1.2.2.2

mutual
theorem node_safe_ok {str fol1} (n1 n2 : NodeC) (ho : n1.Ok str fol1) (he : n2.plain = n1.plain) (hs : n2.Safe) (fol2 : Str) :
    n2.Ok true fol2 := by
  match n1, n2 with
  | .mk ty1 name1 items1 children1 space1 term1, .mk ty name items children space term =>
    simp only [NodeC.plain, NodeC.mk.injEq, and_true] at he
    obtain ⟨rfl, rfl, e1, e2⟩ := he
    obtain ⟨h1, h2, h3, -, h5, h6, -, -⟩ := ho
    obtain ⟨s1, s2, s3, s4⟩ := hs
    simp only [NodeC.Ok]
    refine ⟨h1, h2, h3, ?_, safe_items h5 e1 s1 _, children_safe_ok children1 children h6 e2 s2 _, safe_spaces s3 _,
      safe_term s4 _⟩
    cases name with
    | quoted => trivial
    | bare s =>
      simp only [NameEndOk, List.append_assoc]
      exact (good_items s1 (good_children s2 (good_spaces s3 ((good_term s4).append _)))).head
theorem children_safe_ok {str fol1} (c1 c2 : ChildrenC) (ho : c1.Ok str fol1) (he : c2.plain = c1.plain) (hs : c2.Safe)
    (fol2 : Str) : c2.Ok true fol2 := by
  match c1, c2 with
  | _, .none => simp only [ChildrenC.Ok]
  | .none, .some _ _ _ => simp [ChildrenC.plain] at he
  | .some space1 dash1 body1, .some space dash body =>
    simp only [ChildrenC.plain, ChildrenC.some.injEq, true_and] at he
    obtain ⟨-, -, h3⟩ := ho
    simp only [ChildrenC.Safe] at hs
    simp only [ChildrenC.Ok]
    exact ⟨safe_spaces hs.1 _, safe_dash hs.2.1 _, body_safe_ok body1 body h3 he.2 hs.2.2 _⟩
theorem body_safe_ok {str fol1} (b1 b2 : BodyC) (ho : b1.Ok str fol1) (he : b2.plain = b1.plain) (hs : b2.Safe) (fol2 : Str) :
    b2.Ok true fol2 := by
  match b1, b2 with
  | _, .nil lines => simp only [BodyC.Ok]; exact safe_lines hs _
  | .nil _, .cons _ _ _ _ => simp [BodyC.plain] at he
  | .cons lines1 dash1 node1 rest1, .cons lines dash node rest =>
    simp only [BodyC.plain, BodyC.cons.injEq, true_and] at he
    obtain ⟨-, -, h3, h4⟩ := ho
    obtain ⟨s1, s2, s3, s4⟩ := hs
    simp only [BodyC.Ok]
    exact ⟨safe_lines s1 _, safe_dash s2 _, node_safe_ok node1 node h3 he.2.1 s3 _, body_safe_ok rest1 rest h4 he.2.2 s4 _⟩
end

/-! ### The same when commented-out parts are left out -/

theorem addLines_plain (l : List Line) (b : BodyC) : (b.addLines l).plain = b.plain := by
  cases b <;> simp only [BodyC.addLines, BodyC.plain]

theorem safe_items_undash {str fol1} {l1 l2 : List Item} (ho : ItemsOk str fol1 l1)
    (he : l2.map Item.plain = (l1.filter (fun i => i.dash.isNone)).map Item.plain) (hs : ∀ i ∈ l2, i.Safe) (fol2 : Str) :
    ItemsOk true fol2 l2 := by
  induction l1 generalizing l2 with
  | nil =>
    cases l2 with
    | nil => trivial
    | cons x l => simp at he
  | cons y m ih =>
    cases hd : y.dash with
    | some d =>
      simp only [List.filter_cons, hd, Option.isNone_some, Bool.false_eq_true, if_false] at he
      exact ih ho.2 he hs
    | none =>
      simp only [List.filter_cons, hd, Option.isNone_none, if_true, List.map_cons] at he
      cases l2 with
      | nil => simp at he
      | cons x l =>
        simp only [List.map_cons, List.cons.injEq] at he
        obtain ⟨h1, h2, h3⟩ := hs x (by simp)
        refine ⟨⟨h1, safe_spaces h2 _, safe_dash h3 _, ?_⟩, ih ho.2 he.2 fun i hi => hs i (by simp [hi])⟩
        have := congrArg Item.entry he.1
        simp only [Item.plain] at this
        rw [this]
        exact ho.1.2.2.2

mutual
theorem node_undash_ok {str fol1} (n1 n2 : NodeC) (ho : n1.Ok str fol1) (he : n2.plain = n1.undash.plain) (hs : n2.Safe)
    (fol2 : Str) : n2.Ok true fol2 := by
  match n1, n2 with
  | .mk ty1 name1 items1 children1 space1 term1, .mk ty name items children space term =>
    simp only [NodeC.plain, NodeC.undash, NodeC.mk.injEq, and_true] at he
    obtain ⟨rfl, rfl, e1, e2⟩ := he
    obtain ⟨h1, h2, h3, -, h5, h6, -, -⟩ := ho
    obtain ⟨s1, s2, s3, s4⟩ := hs
    simp only [NodeC.Ok]
    refine ⟨h1, h2, h3, ?_, safe_items_undash h5 e1 s1 _, children_undash_ok children1 children h6 e2 s2 _,
      safe_spaces s3 _, safe_term s4 _⟩
    cases name with
    | quoted => trivial
    | bare s =>
      simp only [NameEndOk, List.append_assoc]
      exact (good_items s1 (good_children s2 (good_spaces s3 ((good_term s4).append _)))).head
theorem children_undash_ok {str fol1} (c1 c2 : ChildrenC) (ho : c1.Ok str fol1) (he : c2.plain = c1.undash.plain)
    (hs : c2.Safe) (fol2 : Str) : c2.Ok true fol2 := by
  match c1, c2 with
  | _, .none => simp only [ChildrenC.Ok]
  | .none, .some _ _ _ => simp [ChildrenC.plain, ChildrenC.undash] at he
  | .some _ (some _) _, .some _ _ _ => simp [ChildrenC.plain, ChildrenC.undash] at he
  | .some space1 none body1, .some space dash body =>
    simp only [ChildrenC.plain, ChildrenC.undash, ChildrenC.some.injEq, true_and] at he
    obtain ⟨-, -, h3⟩ := ho
    simp only [ChildrenC.Safe] at hs
    simp only [ChildrenC.Ok]
    exact ⟨safe_spaces hs.1 _, safe_dash hs.2.1 _, body_undash_ok body1 body h3 he.2 hs.2.2 _⟩
theorem body_undash_ok {str fol1} (b1 b2 : BodyC) (ho : b1.Ok str fol1) (he : b2.plain = b1.undash.plain) (hs : b2.Safe)
    (fol2 : Str) : b2.Ok true fol2 := by
  match b1, b2 with
  | _, .nil lines => simp only [BodyC.Ok]; exact safe_lines hs _
  | .nil _, .cons _ _ _ _ => simp [BodyC.plain, BodyC.undash] at he
  | .cons lines1 (some d) node1 rest1, .cons lines dash node rest =>
    obtain ⟨-, -, -, h4⟩ := ho
    refine body_undash_ok rest1 (.cons lines dash node rest) h4 ?_ hs fol2
    rw [he]
    simp only [BodyC.undash, addLines_plain]
  | .cons lines1 none node1 rest1, .cons lines dash node rest =>
    simp only [BodyC.plain, BodyC.undash, BodyC.cons.injEq, true_and] at he
    obtain ⟨-, -, h3, h4⟩ := ho
    obtain ⟨s1, s2, s3, s4⟩ := hs
    simp only [BodyC.Ok]
    exact ⟨safe_lines s1 _, safe_dash s2 _, node_undash_ok node1 node h3 he.2.1 s3 _,
      body_undash_ok rest1 rest h4 he.2.2 s4 _⟩
end

end Knuffel
