import Verif.Theory.SimInst
import Verif.Theory.Lines
import Verif.Theory.TruthDoc
/-!
# Lines and columns in errors

A run with line spans related to itself: every span of an error is one of places of the
text, but for the opening token of something not closed, which is computed from a place.
-/

namespace Knuffel

open Cst

section
variable (width : Char → Nat) (text : Str)

theorem lineToks_place {i : Nat} {x : Tok LinePos} (hx : (lineToks width .init text)[i]? = some x) :
    i < text.length ∧ x.2 = lineSpan width text i (i + 1) := by
  have h : i < text.length := by
    have := (List.getElem?_eq_some_iff.1 hx).1
    rwa [lineToks_length] at this
  refine ⟨h, ?_⟩
  rw [lineToks_get h, (trackAll_spec width _ _ rfl).1, (trackAll_spec width _ _ rfl).1] at hx
  injection hx with hx
  rw [← hx]
  rfl

/-- A span between two places. -/
def AtPlaces (a : Sp LinePos) : Prop := ∃ i j, i ≤ j ∧ j ≤ text.length ∧ a = lineSpan width text i j

/-- A span computed from a place. -/
def NearPlace (a : Sp LinePos) : Prop :=
  (∃ i n, i ≤ text.length ∧ a = ⟨Offset.back (linePos width (text.take i)) n, linePos width (text.take i)⟩) ∨
  (∃ i, i ≤ text.length ∧ a = ⟨linePos width (text.take i), Offset.fwd (linePos width (text.take i)) 2⟩)

/-- A run related to itself. -/
def placeRel : Rel LinePos LinePos Unit where
  eoi := ⟨linePos width text, linePos width text⟩
  eoi' := ⟨linePos width text, linePos width text⟩
  st s s' := s = s' ∧ ∃ k, s = (lineToks width .init text).drop k
  sp a b := a = b ∧ AtPlaces width text a
  so a b := a = b ∧ NearPlace width text a
  g _ := ()
  g' _ := ()
  st_nil h := h.1.symm
  st_cons := by
    rintro x s _ ⟨rfl, k, h⟩
    have hx : (lineToks width .init text)[k]? = some x := by
      have : ((lineToks width .init text).drop k)[0]? = some x := by rw [← h]; rfl
      simpa using this
    obtain ⟨h1, h2⟩ := lineToks_place width text hx
    refine ⟨x, s, rfl, rfl, ⟨rfl, k, k + 1, by omega, h1, h2⟩, rfl, k + 1, ?_⟩
    rw [← List.drop_drop, ← h]
    rfl
  sp_eoi := ⟨rfl, text.length, text.length, Nat.le_refl _, Nat.le_refl _, by simp [lineSpan]⟩
  sp_since := by
    rintro s _ t _ ⟨rfl, k, h⟩ ht _ ⟨rfl, m, h'⟩
    refine ⟨rfl, ?_⟩
    unfold spanSince
    cases s with
    | nil => exact ⟨text.length, text.length, Nat.le_refl _, Nat.le_refl _, by simp [lineSpan]⟩
    | cons x s =>
      have hx : (lineToks width .init text)[k]? = some x := by
        have : ((lineToks width .init text).drop k)[0]? = some x := by rw [← h]; rfl
        simpa using this
      obtain ⟨h1, h2⟩ := lineToks_place width text hx
      simp only
      cases hy : (x :: s)[(x :: s).length - t.length - 1]? with
      | none =>
        have := List.getElem?_eq_none_iff.1 hy
        simp at this
        omega
      | some y =>
        have hy' := hy
        rw [h, List.getElem?_drop, ← h] at hy'
        obtain ⟨h3, h4⟩ := lineToks_place width text hy'
        refine ⟨k, _, ?_, h3, by simp only [h2, h4]; rfl⟩
        omega
  sp_g _ := rfl
  sp_len := by rintro a _ ⟨rfl, _⟩; rfl
  at_end := by
    rintro a _ ⟨rfl, i, j, _, h, rfl⟩
    exact ⟨rfl, j, j, Nat.le_refl _, h, rfl⟩
  before := by
    rintro a _ n ⟨rfl, i, j, h, h', rfl⟩
    exact ⟨rfl, Or.inl ⟨i, n, by omega, rfl⟩⟩
  at_start := by
    rintro a _ ⟨rfl, i, j, h, h', rfl⟩ _
    exact ⟨rfl, Or.inr ⟨i, by omega, rfl⟩⟩

end

/-! ### Opening tokens -/

/-- Prefixes of a text with as many bytes are the same. -/
theorem prefix_eq_of_byteLen {a b a' b' : Str} (h : a ++ b = a' ++ b') (hl : byteLen a = byteLen a') : a = a' := by
  induction a generalizing a' with
  | nil =>
    cases a' with
    | nil => rfl
    | cons c a' => simp [byteLen] at hl; have := c.utf8Size_pos; omega
  | cons c a ih =>
    cases a' with
    | nil => simp [byteLen] at hl; have := c.utf8Size_pos; omega
    | cons c' a' =>
      simp only [List.cons_append, List.cons.injEq] at h
      obtain ⟨rfl, h⟩ := h
      simp only [byteLen] at hl
      rw [ih h (by omega)]

/-- The characters of the opening tokens. -/
def openChars : Str := ['"', 'r', '#', '{', '/', '*']

theorem open_facts : (∀ c ∈ openChars, c ∉ newlineChars) ∧ ∀ c ∈ openChars, c.utf8Size = 1 := by decide

theorem linePos_opening (width : Char → Nat) (hw : ∀ c ∈ openChars, width c = 1) (pre : Str) : ∀ w : Str, (∀ c ∈ w, c ∈ openChars) →
    linePos width (pre ++ w) =
      { offset := byteLen pre + w.length, line := newlines pre, column := (linePos width pre).column + w.length } := by
  intro w
  induction w generalizing pre with
  | nil => intro _; simp [linePos]
  | cons c w ih =>
    intro h
    have hc := h c (by simp)
    have := ih (pre ++ [c]) (fun x hx => h x (by simp [hx]))
    rw [List.append_assoc, List.singleton_append] at this
    rw [this]
    have h1 : c ∉ newlineChars := open_facts.1 c hc
    have h2 : c ≠ '\n' := by rintro rfl; exact h1 (by decide)
    have h3 : c ≠ '\t' := by rintro rfl; exact absurd hc (by decide)
    have h4 : c.utf8Size = 1 := open_facts.2 c hc
    simp [linePos, newlines_snoc, currentLine_snoc, h1, h2, columns, h3, hw c hc, byteLen_append, byteLen, h4]
    omega

theorem NotClosed.chars {name o c w after} (h : NotClosed name o c w after) : (∀ x ∈ w, x ∈ openChars) ∧ byteLen w = w.length := by
  cases h
  · decide
  · refine ⟨?_, by rw [byteLen_rawOpen]; simp⟩
    intro x hx
    simp only [List.cons_append, List.mem_cons, List.mem_append, List.mem_replicate, List.not_mem_nil, or_false] at hx
    rcases hx with rfl | ⟨_, rfl⟩ | rfl <;> decide
  · decide
  · decide

/-- A span near a place that is, in bytes, that of an opening token is that of the token in lines
and columns too. -/
theorem near_opening {width : Char → Nat} (hw : ∀ c ∈ openChars, width c = 1) {text : Str} {a : Sp LinePos}
    (h : NearPlace width text a) {pre w after : Str} (ht : text = pre ++ w ++ after) (hc : ∀ c ∈ w, c ∈ openChars)
    (hl : byteLen w = w.length) (hs : LinePos.toOffsetSpan a = ⟨byteLen pre, byteLen pre + byteLen w⟩) :
    a = ⟨linePos width pre, linePos width (pre ++ w)⟩ := by
  have hpos := linePos_opening width hw pre w hc
  rcases h with ⟨i, n, hi, rfl⟩ | ⟨i, hi, rfl⟩
  · simp only [LinePos.toOffsetSpan, Offset.back, Sp.mk.injEq] at hs
    obtain ⟨h1, h2⟩ := hs
    have h3 : text.take i = pre ++ w :=
      prefix_eq_of_byteLen (b := text.drop i) (b' := after) (by rw [List.take_append_drop, ht])
        (by rw [byteLen_append]; exact h2)
    rw [h3] at h1 ⊢
    rw [hpos] at h1 ⊢
    simp only [Offset.back] at h1 ⊢
    have h4 : pre = [] ∨ n = w.length := by
      cases pre with
      | nil => exact Or.inl rfl
      | cons c pre =>
        have := c.utf8Size_pos
        have : 0 < byteLen (c :: pre) := by simp only [byteLen]; omega
        exact Or.inr (by omega)
    rcases h4 with rfl | rfl
    · have : byteLen ([] : Str) = 0 := rfl
      simp only [linePos, currentLine, byteLen] at h1 ⊢
      simp only [List.reverse_nil, List.takeWhile_nil, List.map_nil, List.sum_nil, newlines] at h1 ⊢
      simp; omega
    · simp [linePos]
  · simp only [LinePos.toOffsetSpan, Offset.fwd, Sp.mk.injEq] at hs
    obtain ⟨h1, h2⟩ := hs
    have h3 : text.take i = pre :=
      prefix_eq_of_byteLen (b := text.drop i) (b' := w ++ after) (by rw [List.take_append_drop, ht, List.append_assoc]) h1
    rw [h3] at h2 ⊢
    have h4 : w.length = 2 := by
      have : (linePos width pre).offset = byteLen pre := rfl
      omega
    rw [hpos, h4]
    simp [Offset.fwd, linePos]

/-! ### All the errors -/

theorem near_error {width : Char → Nat} (hw : ∀ c ∈ openChars, width c = 1) {text : Str} {e e' : PErr LinePos}
    (h : (placeRel width text).er e e') (ht : (e.mapSpan LinePos.toOffsetSpan).TrueOf text) :
    ∀ sp ∈ e.spans, AtPlaces width text sp := by
  cases e <;> cases e' <;> simp only [Rel.er] at h <;> simp only [PErr.spans, List.mem_cons, List.not_mem_nil, or_false]
  · rintro _ rfl; exact h.2.1.2
  · rintro _ (rfl | rfl)
    · simp only [PErr.mapSpan, PErr.TrueOf] at ht
      obtain ⟨_, pre, w, after, h1, h2, _, h3⟩ := ht
      obtain ⟨h4, h5⟩ := h3.chars
      have := near_opening hw h.2.1.2 h1 h4 h5 h2
      refine ⟨pre.length, pre.length + w.length, by omega, by simp [h1], ?_⟩
      rw [this, h1]
      simp only [lineSpan]
      congr 2
      · simp
      · rw [List.take_append_of_le_length (by simp), List.take_of_length_le (by simp)]
    · exact h.2.2.2.1.2
  · rintro _ rfl; exact h.2.1.2
  · rintro _ rfl; exact h.2.1.2

theorem errors_at_places {width : Char → Nat} {strWidth : Str → Nat} {text : Str} (hw : ∀ c ∈ openChars, width c = 1)
    (he : lineEoi strWidth text = ⟨linePos width text, linePos width text⟩) {es : List (PErr LinePos)}
    (h : parseAstLine width strWidth text = some (.error es))
    (ht : ∀ e ∈ es, (e.mapSpan LinePos.toOffsetSpan).TrueOf text) :
    ∀ e ∈ es, ∀ sp ∈ e.spans, AtPlaces width text sp := by
  have hr := Rel.run_document (R := placeRel width text) (s := lineToks width .init text)
    (s' := lineToks width .init text) ⟨rfl, 0, rfl⟩
  have h0 : runParser document (placeRel width text).eoi (lineToks width .init text) = some (.error es) := by
    rw [← h]; unfold parseAstLine; rw [he]; rfl
  rcases hr with ⟨_, _, h1, _, _⟩ | ⟨es1, _, h1, _, h3⟩ | ⟨h1, _⟩
  · rw [h0] at h1; simp at h1
  · rw [h0] at h1
    injection h1 with h1
    injection h1 with h1
    subst h1
    intro e he
    obtain ⟨e', h4⟩ := lrel_mem h3 he
    exact near_error hw h4 (ht e he)
  · rw [h0] at h1; simp at h1

/-! ### Without the columns -/

/-- Forget the column. -/
def noCol (p : LinePos) : LinePos := { p with column := 0 }

/-- Forget the columns of a span. -/
def noCols (s : Sp LinePos) : Sp LinePos := ⟨noCol s.start, noCol s.stop⟩

/-- Two runs that differ in the columns. -/
def colRel (eoi eoi' : Sp LinePos) (h : noCols eoi = noCols eoi') : Rel LinePos LinePos (Sp LinePos) where
  eoi := eoi
  eoi' := eoi'
  st s s' := mapToks noCols s = mapToks noCols s'
  sp a b := noCols a = noCols b
  so a b := noCols a = noCols b
  g := noCols
  g' := noCols
  st_nil h := by simpa [mapToks] using h.symm
  st_cons := by
    intro x s s' h
    cases s' with
    | nil => simp [mapToks] at h
    | cons x' s' =>
      simp only [mapToks, List.map_cons, List.cons.injEq, Prod.mk.injEq] at h
      exact ⟨x', s', rfl, h.1.1, h.1.2, h.2⟩
  sp_eoi := h
  sp_since := by
    intro s s' t t' hs _ _ ht
    have h1 := spanSince_map noCol (eoi := eoi) (s := s) (t := t)
    have h2 := spanSince_map noCol (eoi := eoi') (s := s') (t := t')
    refine h1.symm.trans (Eq.trans ?_ h2)
    show spanSince (noCols eoi) (mapToks noCols s) (mapToks noCols t) = spanSince (noCols eoi') (mapToks noCols s') (mapToks noCols t')
    rw [h, hs, ht]
  sp_g h := h
  sp_len := by
    rintro ⟨⟨a, _, _⟩, ⟨b, _, _⟩⟩ ⟨⟨a', _, _⟩, ⟨b', _, _⟩⟩ h
    simp only [noCols, noCol, Sp.mk.injEq, LinePos.mk.injEq] at h
    simp [Sp.length, Offset.byte, h]
  at_end := by
    intro a b h
    simp only [noCols, Sp.mk.injEq, Sp.atEnd] at h ⊢
    exact ⟨h.2, h.2⟩
  before := by
    rintro ⟨⟨a, _, _⟩, ⟨b, _, _⟩⟩ ⟨⟨a', _, _⟩, ⟨b', _, _⟩⟩ n h
    simp only [noCols, noCol, Sp.mk.injEq, LinePos.mk.injEq] at h
    simp [Sp.beforeStart, Offset.back, noCols, noCol, h]
  at_start := by
    rintro ⟨⟨a, _, _⟩, ⟨b, _, _⟩⟩ ⟨⟨a', _, _⟩, ⟨b', _, _⟩⟩ h _
    simp only [noCols, noCol, Sp.mk.injEq, LinePos.mk.injEq] at h
    simp [Sp.atStart, Offset.fwd, noCols, noCol, h]

theorem lineToks_noCols (width width' : Char → Nat) (text : Str) : ∀ (o l : Nat) (cr : Bool) (c c' : Nat),
    mapToks noCols (lineToks width ⟨o, cr, l, c⟩ text) = mapToks noCols (lineToks width' ⟨o, cr, l, c'⟩ text) := by
  induction text with
  | nil => intros; rfl
  | cons x text ih =>
    intro o l cr c c'
    simp only [lineToks, mapToks, List.map_cons, LineTracker.next] at ih ⊢
    by_cases h1 : (x == '\n' && cr) = true
    · simp only [h1, if_true]
      exact congrArg (List.cons _) (ih _ _ _ c c')
    · by_cases h2 : isLineBreak x = true
      · simp only [h1, h2, if_true, if_false, Bool.false_eq_true]
        exact congrArg (List.cons _) (ih _ _ _ 0 0)
      · by_cases h3 : (x == '\t') = true
        · simp only [h1, h2, h3, if_true, if_false, Bool.false_eq_true]
          exact congrArg (List.cons _) (ih _ _ _ (c + 8) (c' + 8))
        · simp only [h1, h2, h3, if_false, Bool.false_eq_true]
          exact congrArg (List.cons _) (ih _ _ _ (c + width x) (c' + width' x))

theorem er_noCols {eoi eoi' : Sp LinePos} {h : noCols eoi = noCols eoi'} {e e' : PErr LinePos} (he : (colRel eoi eoi' h).er e e') :
    e.mapSpan noCols = e'.mapSpan noCols := by
  cases e <;> cases e' <;> simp only [Rel.er] at he <;> simp only [PErr.mapSpan]
  · obtain ⟨rfl, h, rfl, rfl, _⟩ := he; exact congrArg (PErr.unexpected _ · _ _) h
  · obtain ⟨rfl, h, rfl, h', rfl, rfl⟩ := he; rw [show noCols _ = _ from h, show noCols _ = _ from h']
  · obtain ⟨rfl, h, rfl⟩ := he; rw [show noCols _ = _ from h]
  · obtain ⟨rfl, h, rfl, rfl⟩ := he; rw [show noCols _ = _ from h]

theorem lrel_mem' {α β : Type} {r : α → β → Prop} {l m} (h : LRel r l m) {a : α} (ha : a ∈ l) : ∃ b ∈ m, r a b := by
  induction l generalizing m with
  | nil => simp at ha
  | cons x l ih => cases m with
    | nil => exact h.elim
    | cons b m =>
      rcases List.mem_cons.1 ha with rfl | ha
      · exact ⟨b, by simp, h.1⟩
      · obtain ⟨b', h1, h2⟩ := ih h.2 ha
        exact ⟨b', by simp [h1], h2⟩

/-- The errors with other widths are the same but for the columns. -/
theorem errors_noCols {width width' : Char → Nat} {strWidth strWidth' : Str → Nat} {text : Str} {es : List (PErr LinePos)}
    (h : parseAstLine width strWidth text = some (.error es)) :
    ∃ es', parseAstLine width' strWidth' text = some (.error es') ∧
      ∀ e ∈ es, ∃ e' ∈ es', e.mapSpan noCols = e'.mapSpan noCols := by
  have hr := Rel.run_document (R := colRel (lineEoi strWidth text) (lineEoi strWidth' text) rfl) (s := lineToks width .init text)
    (s' := lineToks width' .init text) (lineToks_noCols width width' text 0 0 false 0 0)
  have h0 : runParser document (colRel (lineEoi strWidth text) (lineEoi strWidth' text) rfl).eoi (lineToks width .init text) =
    some (.error es) := h
  rcases hr with ⟨_, _, h1, _, _⟩ | ⟨es1, es2, h1, h2, h3⟩ | ⟨h1, _⟩
  · rw [h0] at h1; simp at h1
  · rw [h0] at h1
    injection h1 with h1
    injection h1 with h1
    subst h1
    refine ⟨es2, h2, fun e he => ?_⟩
    obtain ⟨e', h4, h5⟩ := lrel_mem' h3 he
    exact ⟨e', h4, er_noCols h5⟩
  · rw [h0] at h1; simp at h1

end Knuffel
