import Verif.Spec.Cst
/-!
# Strict and lax block comments

Where the text does not contain the three characters `/*/`, a lax tree is a strict one.
-/

namespace Knuffel.Cst

theorem NoTie.left {a b : Str} (h : NoTie (a ++ b)) : NoTie a :=
  fun hi => h (hi.trans (List.prefix_append a b).isInfix)

theorem NoTie.right {a b : Str} (h : NoTie (a ++ b)) : NoTie b :=
  fun hi => h (hi.trans (List.suffix_append a b).isInfix)

theorem NoTie.tail {c : Char} {b : Str} (h : NoTie (c :: b)) : NoTie b :=
  NoTie.right (a := [c]) h

theorem Block.Ok.strict {b : Block} (h : b.Ok false) (ht : NoTie (b.text ++ ['*', '/'])) : b.Ok true := by
  induction b with
  | nil => trivial
  | char c r ih =>
    obtain ⟨h1, h2, h3⟩ := h
    rw [Block.text, List.cons_append] at ht
    refine ⟨h1, ?_, ih h3 ht.tail⟩
    intro hc hh
    obtain ⟨-, rfl⟩ := h2 hc hh
    subst hc
    exact absurd (List.infix_refl _) ht
  | nested i r ih1 ih2 =>
    obtain ⟨h1, h2⟩ := h
    rw [Block.text] at ht
    refine ⟨ih1 h1 ?_, ih2 h2 ?_⟩
    · have := ht.tail.tail
      apply NoTie.left (b := r.text ++ ['*', '/'])
      simpa using this
    · have := ht.tail.tail
      apply NoTie.right (a := i.text ++ ['*', '/'])
      simpa using this

theorem afterComment_plain {c : Char} {s : Str} {n : Nat} (h1 : c = '*' → s.head? ≠ some '/')
    (h2 : c = '/' → s.head? ≠ some '*') : afterComment (n + 1) (c :: s) = afterComment (n + 1) s := by
  rw [afterComment]
  · intro s' hc hs; subst hs; exact h1 hc rfl
  · intro s' hc hs; subst hs; exact h2 hc rfl

/-- Left to right, a legal comment ends where it ends. -/
theorem afterComment_block {b : Block} (h : b.Ok true) (f : Str) (n : Nat) :
    afterComment (n + 1) (b.text ++ '*' :: '/' :: f) = afterComment n f := by
  induction b generalizing f n with
  | nil => rw [Block.text, List.nil_append, afterComment]
  | char c r ih =>
    obtain ⟨h1, h2, h3⟩ := h
    have hh : (r.text ++ '*' :: '/' :: f).head? = (r.text ++ ['*', '/']).head? := by
      cases r.text <;> simp
    rw [Block.text, List.cons_append, afterComment_plain (by rw [hh]; exact h1)
      (by rw [hh]; intro hc hd; exact absurd (h2 hc hd).1 (by decide)), ih h3]
  | nested i r ih1 ih2 =>
    rw [Block.text]
    simp only [List.cons_append, List.append_assoc]
    rw [afterComment, ih1 h.1, ih2 h.2]

/-- With a text that has no `/*/`, a comment that does not end left to right does not end. -/
theorem no_block {x : Str} (ht : NoTie x) (hx : afterComment 1 x = none) (b : Block) (hb : b.Ok false) :
    ¬ b.text ++ ['*', '/'] <+: x := by
  rintro ⟨f, rfl⟩
  have := afterComment_block (hb.strict ht.left) f 0
  rw [show b.text ++ ['*', '/'] ++ f = b.text ++ '*' :: '/' :: f by simp, this] at hx
  cases f <;> simp [afterComment] at hx

theorem block_of_afterComment : ∀ (k : Nat) (x : Str), x.length ≤ k → ∀ n f, afterComment (n + 1) x = some f →
    ∃ (b : Block) (y : Str), b.Ok true ∧ x = b.text ++ '*' :: '/' :: y ∧ afterComment n y = some f
  | k, [], _, n, f, h => by simp [afterComment] at h
  | 0, c :: s, hk, _, _, _ => by simp at hk
  | k + 1, c :: s, hk, n, f, h => by
    have hk' : s.length ≤ k := by simpa using hk
    by_cases h1 : c = '*' ∧ s.head? = some '/'
    · obtain ⟨rfl, h1⟩ := h1
      cases s with
      | nil => simp at h1
      | cons d s =>
        simp only [List.head?_cons, Option.some.injEq] at h1; subst h1
        rw [afterComment] at h
        exact ⟨.nil, s, trivial, rfl, h⟩
    · by_cases h2 : c = '/' ∧ s.head? = some '*'
      · obtain ⟨rfl, h2⟩ := h2
        cases s with
        | nil => simp at h2
        | cons d s =>
          simp only [List.head?_cons, Option.some.injEq] at h2; subst h2
          rw [afterComment] at h
          simp only [List.length_cons] at hk'
          obtain ⟨i, y, hi, rfl, hy⟩ := block_of_afterComment k s (by omega) _ _ h
          simp only [List.length_append, List.length_cons] at hk'
          obtain ⟨r, z, hr, rfl, hz⟩ := block_of_afterComment k y (by omega) _ _ hy
          exact ⟨.nested i r, z, ⟨hi, hr⟩, by simp [Block.text], hz⟩
      · rw [afterComment_plain (fun hc hd => h1 ⟨hc, hd⟩) (fun hc hd => h2 ⟨hc, hd⟩)] at h
        obtain ⟨r, z, hr, rfl, hz⟩ := block_of_afterComment k s hk' _ _ h
        have hh : (r.text ++ '*' :: '/' :: z).head? = (r.text ++ ['*', '/']).head? := by
          cases r.text <;> simp
        rw [hh] at h1 h2
        exact ⟨.char c r, z, ⟨fun hc hd => h1 ⟨hc, hd⟩, fun hc hd => absurd ⟨hc, hd⟩ h2, hr⟩, rfl, hz⟩

/-- Where comments end, left to right: at the end of the legal comment. -/
theorem afterComment_iff {x f : Str} : afterComment 1 x = some f ↔
    ∃ b : Block, b.Ok true ∧ x = b.text ++ '*' :: '/' :: f := by
  constructor
  · intro h
    obtain ⟨b, y, h1, h2, h3⟩ := block_of_afterComment _ x (Nat.le_refl _) _ _ h
    rw [afterComment] at h3
    injection h3 with h3; subst h3
    exact ⟨b, h1, h2⟩
  · rintro ⟨b, h1, rfl⟩
    rw [afterComment_block h1, afterComment]

theorem Ws.Ok.strict {w : Ws} (h : w.Ok false) (ht : NoTie w.text) : w.Ok true := by
  cases w with
  | char c => exact h
  | block b => exact Block.Ok.strict h ht.tail.tail

theorem wsList_strict {l : List Ws} (h : ∀ w ∈ l, w.Ok false) (ht : NoTie (l.flatMap Ws.text)) :
    ∀ w ∈ l, w.Ok true := by
  induction l with
  | nil => intro w hw; cases hw
  | cons x l ih =>
    rw [List.flatMap_cons] at ht
    intro w hw
    rcases List.mem_cons.1 hw with rfl | hw
    · exact (h _ (by simp)).strict ht.left
    · exact ih (fun w hw => h w (by simp [hw])) ht.right w hw

theorem Space.Ok.strict {f : Str} {s : Space} (h : s.Ok false f) (ht : NoTie s.text) : s.Ok true f := by
  cases s with
  | ws w => exact Ws.Ok.strict h ht
  | esc l e => exact ⟨wsList_strict h.1 ht.tail.left, h.2⟩

theorem SpacesOk.strict {f : Str} {l : List Space} (h : SpacesOk false f l) (ht : NoTie (spacesText l)) :
    SpacesOk true f l := by
  induction l with
  | nil => trivial
  | cons x l ih =>
    rw [spacesText, List.flatMap_cons] at ht
    exact ⟨h.1.strict ht.left, ih h.2 ht.right⟩

theorem Line.Ok.strict {f : Str} {s : Line} (h : s.Ok false f) (ht : NoTie s.text) : s.Ok true f := by
  cases s with
  | newline n => exact h
  | ws w => exact Ws.Ok.strict h ht
  | comment c => exact h

theorem LinesOk.strict {f : Str} {l : List Line} (h : LinesOk false f l) (ht : NoTie (linesText l)) :
    LinesOk true f l := by
  induction l with
  | nil => trivial
  | cons x l ih =>
    rw [linesText, List.flatMap_cons] at ht
    exact ⟨h.1.strict ht.left, ih h.2 ht.right⟩

theorem DashOk.strict {f : Str} {l : Option (List Space)} (h : DashOk false f l) (ht : NoTie (dashText l)) :
    DashOk true f l := by
  cases l with
  | none => trivial
  | some l => exact SpacesOk.strict h ht.tail.tail

theorem Item.Ok.strict {f : Str} {i : Item} (h : i.Ok false f) (ht : NoTie i.text) : i.Ok true f := by
  unfold Item.text at ht
  exact ⟨h.1, h.2.1.strict ht.left.left, h.2.2.1.strict ht.left.right, h.2.2.2⟩

theorem ItemsOk.strict {f : Str} {l : List Item} (h : ItemsOk false f l) (ht : NoTie (itemsText l)) :
    ItemsOk true f l := by
  induction l with
  | nil => trivial
  | cons x l ih =>
    rw [itemsText, List.flatMap_cons] at ht
    exact ⟨h.1.strict ht.left, ih h.2 ht.right⟩

mutual
theorem NodeC.Ok.strict {f : Str} : (n : NodeC) → n.Ok false f → NoTie n.text → n.Ok true f
  | .mk ty name items children space term, h, ht => by
    rw [NodeC.Ok] at h ⊢
    rw [NodeC.text] at ht
    obtain ⟨h1, h2, h3, h4, h5, h6, h7, h8⟩ := h
    exact ⟨h1, h2, h3, h4, h5.strict ht.left.left.left.right,
      ChildrenC.Ok.strict children h6 ht.left.left.right, h7.strict ht.left.right, h8⟩
theorem ChildrenC.Ok.strict {f : Str} : (c : ChildrenC) → c.Ok false f → NoTie c.text → c.Ok true f
  | .none, _, _ => by rw [ChildrenC.Ok]; trivial
  | .some space dash body, h, ht => by
    rw [ChildrenC.Ok] at h ⊢
    rw [ChildrenC.text] at ht
    obtain ⟨h1, h2, h3⟩ := h
    exact ⟨h1.strict ht.left.left.left, h2.strict ht.left.left.right,
      BodyC.Ok.strict body h3 ht.left.right.tail⟩
theorem BodyC.Ok.strict {f : Str} : (b : BodyC) → b.Ok false f → NoTie b.text → b.Ok true f
  | .nil lines, h, ht => by
    rw [BodyC.Ok] at h ⊢
    rw [BodyC.text] at ht
    exact h.strict ht
  | .cons lines dash node rest, h, ht => by
    rw [BodyC.Ok] at h ⊢
    rw [BodyC.text] at ht
    obtain ⟨h1, h2, h3, h4⟩ := h
    exact ⟨h1.strict ht.left.left.left, h2.strict ht.left.left.right,
      NodeC.Ok.strict node h3 ht.left.right, BodyC.Ok.strict rest h4 ht.right⟩
end

end Knuffel.Cst
