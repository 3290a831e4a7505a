import Verif.Spec.Faults
import Verif.Theory.Nodes
/-!
# Successes with emitted errors

`Em R p eoi s a t fs`: on the tokens `s` the parser succeeds with value `a` and leaves `t`, and the
errors it emits are related by `R`, one by one, to the members of `fs`.
-/

set_option linter.unusedSimpArgs false
set_option linter.unusedSectionVars false

namespace Knuffel

open Cst (Matching Fault)

variable {O α β γ : Type}

theorem Matching.append {R : α → β → Prop} {as bs as' bs'} (h : Matching R as bs)
    (h' : Matching R as' bs') : Matching R (as ++ as') (bs ++ bs') := by
  induction h with
  | nil => exact h'
  | cons h1 _ ih => exact .cons h1 ih

theorem Matching.length {R : α → β → Prop} {as bs} (h : Matching R as bs) : as.length = bs.length := by
  induction h with
  | nil => rfl
  | cons _ _ ih => simp [ih]

/-- Success, with the errors emitted. -/
def Em (R : Fault → PErr O → Prop) (p : P O α) (eoi : Sp O) (s : List (Tok O)) (a : α)
    (t : List (Tok O)) (fs : List Fault) : Prop :=
  Matching R fs ((p eoi s).errs.map (·.err)) ∧ (∃ alt, (p eoi s).out = .ok (a, alt)) ∧ (p eoi s).rest = t

variable {R : Fault → PErr O → Prop} {eoi : Sp O} {s t u : List (Tok O)} {fs gs : List Fault}

theorem em_of_ok {p : P O α} {a} (h : Ok p eoi s a t) : Em R p eoi s a t [] := by
  obtain ⟨h1, h2, h3⟩ := h
  exact ⟨by rw [h1]; exact .nil, h2, h3⟩

theorem em_pmap {f : α → β} {p : P O α} {a} (h : Em R p eoi s a t fs) :
    Em R (pmap f p) eoi s (f a) t fs := by
  obtain ⟨h1, ⟨alt, h2⟩, h3⟩ := h
  exact ⟨h1, ⟨alt, by simp [pmap, h2]⟩, h3⟩

theorem em_mapErrWithSpan {f} {p : P O α} {a} (h : Em R p eoi s a t fs) :
    Em R (mapErrWithSpan f p) eoi s a t fs := by
  obtain ⟨h1, ⟨alt, h2⟩, h3⟩ := h
  exact ⟨h1, ⟨alt, by simp [mapErrWithSpan, h2]⟩, h3⟩

theorem em_tryMap {f : α → Sp O → Except (PErr O) β} {p : P O α} {a b} (h : Em R p eoi s a t fs)
    (hf : f a (spanSince eoi s t) = .ok b) : Em R (tryMap f p) eoi s b t fs := by
  obtain ⟨h1, ⟨alt, h2⟩, h3⟩ := h
  subst h3
  exact ⟨h1, ⟨alt, by simp [tryMap, h2, hf]⟩, rfl⟩

theorem em_validate {f : α → Sp O → List (PErr O)} {p : P O α} {a} (h : Em R p eoi s a t fs)
    (hf : Matching R gs (f a (spanSince eoi s t))) : Em R (validate f p) eoi s a t (fs ++ gs) := by
  obtain ⟨h1, ⟨alt, h2⟩, h3⟩ := h
  subst h3
  refine ⟨?_, ⟨alt, by simp [validate, h2]⟩, by simp [validate, h2]⟩
  have : (validate f p eoi s).errs.map (·.err) =
      (p eoi s).errs.map (·.err) ++ f a (spanSince eoi s (p eoi s).rest) := by
    simp [validate, h2, Function.comp_def]
  rw [this]
  exact Matching.append h1 hf

theorem em_bind {p : P O α} {f : α → P O β} {a b} (h : Em R p eoi s a t fs)
    (h' : Em R (f a) eoi t b u gs) : Em R (bind p f) eoi s b u (fs ++ gs) := by
  obtain ⟨h1, ⟨alt, h2⟩, h3⟩ := h
  obtain ⟨h4, ⟨alt', h5⟩, h6⟩ := h'
  subst h3
  refine ⟨?_, ⟨mergeAlts alt alt', by simp [bind, h2, h5]⟩, by simp [bind, h2, h5, h6]⟩
  have : (bind p f eoi s).errs.map (·.err) =
      (p eoi s).errs.map (·.err) ++ (f a eoi (p eoi s).rest).errs.map (·.err) := by
    simp [bind, h2, h5]
  rw [this]
  exact Matching.append h1 h4

theorem em_seq {p : P O α} {q : P O β} {a b} (h : Em R p eoi s a t fs) (h' : Em R q eoi t b u gs) :
    Em R (seq p q) eoi s (a, b) u (fs ++ gs) := em_bind h (em_pmap h')

theorem em_ignoreThen {p : P O α} {q : P O β} {a b} (h : Em R p eoi s a t fs) (h' : Em R q eoi t b u gs) :
    Em R (ignoreThen p q) eoi s b u (fs ++ gs) := em_bind h h'

theorem em_thenIgnore {p : P O α} {q : P O β} {a b} (h : Em R p eoi s a t fs) (h' : Em R q eoi t b u gs) :
    Em R (thenIgnore p q) eoi s a u (fs ++ gs) := em_bind h (em_pmap h')

theorem em_spanned {p : P O α} {a} (h : Em R p eoi s a t fs) :
    Em R (spanned p) eoi s ⟨spanSince eoi s t, a⟩ t fs := by
  obtain ⟨h1, ⟨alt, h2⟩, h3⟩ := h
  subst h3
  exact ⟨h1, ⟨alt, by simp [spanned, mapWithSpan, h2]⟩, rfl⟩

theorem em_orNot {p : P O α} {a} (h : Em R p eoi s a t fs) : Em R (orNot p) eoi s (some a) t fs := by
  obtain ⟨h1, ⟨alt, h2⟩, h3⟩ := h
  refine ⟨by simpa [orNot, h2] using h1, ⟨alt, by simp [orNot, h2]⟩, by simpa [orNot, h2] using h3⟩

theorem not_clean_of_fails {p : P O α} (h : Fails p eoi s) : (p eoi s).clean = false := by
  obtain ⟨e, h⟩ := h
  simp [PRes.clean, h]

theorem em_orP_right {p q : P O α} {a} (h : Fails p eoi s) (h' : Em R q eoi s a t fs) :
    Em R (orP p q) eoi s a t fs := by
  have hp := not_clean_of_fails h
  obtain ⟨e, h⟩ := h
  obtain ⟨h1, ⟨alt, h2⟩, h3⟩ := h'
  by_cases hq : (q eoi s).clean = true
  · have he := (clean_iff.1 hq).1
    refine ⟨?_, ⟨mergeAlts alt (p eoi s).altOrErr, by simp only [orP, hp, hq, h2, Bool.false_eq_true, ↓reduceIte]⟩, ?_⟩
    · simp only [orP, hp, hq, h2, Bool.false_eq_true, ↓reduceIte]
      rw [he] at h1; exact h1
    · simp only [orP, hp, hq, h2, Bool.false_eq_true, ↓reduceIte]; exact h3
  · have hpre : preferA (p eoi s) (q eoi s) = false := by simp [preferA, h, h2]
    have : orP p q eoi s = takeA (q eoi s) (p eoi s) := by
      simp only [orP, hp, hq, hpre, Bool.false_eq_true, ↓reduceIte]
    unfold Em
    rw [this]
    refine ⟨by rw [takeA_errs]; exact h1, ⟨mergeAlts alt (p eoi s).altOrErr, by simp only [takeA, h2]⟩, by simp only [takeA, h2]; exact h3⟩

theorem em_orP_left {p q : P O α} {a} (h : Em R p eoi s a t fs) (h' : Fails q eoi s) :
    Em R (orP p q) eoi s a t fs := by
  have hq := not_clean_of_fails h'
  obtain ⟨e, h'⟩ := h'
  obtain ⟨h1, ⟨alt, h2⟩, h3⟩ := h
  by_cases hp : (p eoi s).clean = true
  · have : orP p q eoi s = p eoi s := by simp only [orP, hp, ↓reduceIte]
    unfold Em
    rw [this]
    exact ⟨h1, ⟨alt, h2⟩, h3⟩
  · have hpre : preferA (p eoi s) (q eoi s) = true := by simp [preferA, h', h2]
    have : orP p q eoi s = takeA (p eoi s) (q eoi s) := by
      simp only [orP, hp, hq, hpre, Bool.false_eq_true, ↓reduceIte]
    unfold Em
    rw [this]
    refine ⟨by rw [takeA_errs]; exact h1, ⟨mergeAlts alt (q eoi s).altOrErr, by simp only [takeA, h2]⟩, by simp only [takeA, h2]; exact h3⟩

theorem em_choiceGo_head {p : P O α} {ps : List (P O α)} {a} {alt pan} (h : Em R p eoi s a t fs) :
    Em R (choiceGo alt pan (p :: ps)) eoi s a t fs := by
  obtain ⟨h1, ⟨alt', h2⟩, h3⟩ := h
  refine ⟨by simpa [choiceGo, h2] using h1, ⟨alt', by simp [choiceGo, h2]⟩, by simpa [choiceGo, h2] using h3⟩

theorem em_choiceGo_tail {p : P O α} {ps : List (P O α)} {a} {alt pan} (h : Fails p eoi s)
    (h' : ∀ alt pan, Em R (choiceGo alt pan ps) eoi s a t fs) :
    Em R (choiceGo alt pan (p :: ps)) eoi s a t fs := by
  obtain ⟨e, h⟩ := h
  have : choiceGo alt pan (p :: ps) eoi s = choiceGo (mergeAlts alt (some e))
      (pan || (p eoi s).panicked || clashAlts alt (some e)) ps eoi s := by simp [choiceGo, h]
  unfold Em
  rw [this]
  exact h' _ _

/-- The first alternative that does not fail. -/
theorem em_choice1 {p : P O α} {ps : List (P O α)} {a} (h : Em R p eoi s a t fs) :
    Em R (choice (p :: ps)) eoi s a t fs := em_choiceGo_head h

theorem em_choice2 {p q : P O α} {ps : List (P O α)} {a} (h : Fails p eoi s) (h' : Em R q eoi s a t fs) :
    Em R (choice (p :: q :: ps)) eoi s a t fs := em_choiceGo_tail h (fun _ _ => em_choiceGo_head h')

theorem em_choice3 {p q r : P O α} {ps : List (P O α)} {a} (h : Fails p eoi s) (h2 : Fails q eoi s)
    (h' : Em R r eoi s a t fs) : Em R (choice (p :: q :: r :: ps)) eoi s a t fs :=
  em_choiceGo_tail h (fun _ _ => em_choiceGo_tail h2 (fun _ _ => em_choiceGo_head h'))

/-! ### Repetition -/

/-- `p` succeeds a number of times in a row, consuming each time. -/
inductive EReps (R : Fault → PErr O → Prop) (p : P O α) (eoi : Sp O) :
    List (Tok O) → List (Tok O) → List Fault → Prop
  | nil (s : List (Tok O)) : EReps R p eoi s s []
  | cons {s a t u fs gs} : Em R p eoi s a t fs → t.length < s.length → EReps R p eoi t u gs →
      EReps R p eoi s u (fs ++ gs)

theorem repGo_em {p : P O α} {eoi} : ∀ (fuel : Nat) {outs errs alt pan s t fs gs},
    s.length < fuel → EReps R p eoi s t gs → Fails p eoi t →
    Matching R fs (errs.map (fun (e : Loc O) => e.err)) →
    ∃ as alt', (repGo p 0 none eoi fuel outs errs alt pan s).out = .ok (as, alt') ∧
    (repGo p 0 none eoi fuel outs errs alt pan s).rest = t ∧
    Matching R (fs ++ gs) ((repGo p 0 none eoi fuel outs errs alt pan s).errs.map (·.err)) := by
  intro fuel
  induction fuel with
  | zero => intro _ _ _ _ s _ _ _ h; omega
  | succ fuel ih =>
    intro outs errs alt pan s t fs gs hl hr hf he
    rw [repGo]
    simp only [reduceCtorEq, ↓reduceIte]
    cases hr with
    | nil =>
      obtain ⟨e, hf⟩ := hf
      simp only [hf, Nat.not_lt_zero, ↓reduceIte]
      exact ⟨_, _, rfl, trivial, by simpa using he⟩
    | @cons _ a t' _ fs' gs' h1 h2 h3 =>
      obtain ⟨h4, ⟨alt', h5⟩, h6⟩ := h1
      subst h6
      simp only [h5, h2, ↓reduceIte]
      have := ih (outs := outs ++ [a]) (errs := errs ++ (p eoi s).errs) (alt := mergeAlts alt alt')
        (pan := pan || (p eoi s).panicked || clashAlts alt alt') (fs := fs ++ fs') (by omega) h3 hf
        (by rw [List.map_append]; exact Matching.append he h4)
      simpa [List.append_assoc] using this

theorem em_repeated {p : P O α} (h : EReps R p eoi s t fs) (hf : Fails p eoi t) :
    ∃ as, Em R (repeated p) eoi s as t fs := by
  obtain ⟨as, alt, h1, h2, h3⟩ := repGo_em (outs := []) (errs := []) (alt := none) (pan := false) (fs := [])
    (s.length + 1) (Nat.lt_succ_self _) h hf .nil
  exact ⟨as, h3, ⟨alt, h1⟩, h2⟩

/-- Items separated, preceded and followed by delimiters. -/
inductive ESep (R : Fault → PErr O → Prop) (item : P O α) (delim : P O β) (eoi : Sp O) :
    List (Tok O) → List (Tok O) → List Fault → Prop
  | nil {s b t} : Ok delim eoi s b t → FailsC item eoi t → ESep R item delim eoi s t []
  | cons {s b s1 a s2 t fs gs} : Ok delim eoi s b s1 → Em R item eoi s1 a s2 fs → s2.length < s.length →
      ESep R item delim eoi s2 t gs → ESep R item delim eoi s t (fs ++ gs)

theorem sepGo_em {item : P O α} {delim : P O β} {eoi} : ∀ (fuel : Nat) {outs errs alt pan s t fs gs},
    s.length < fuel → ESep R item delim eoi s t gs →
    Matching R fs (errs.map (fun (e : Loc O) => e.err)) →
    Matching R (fs ++ gs) ((sepGo item delim eoi fuel outs errs alt pan s).2.1.map (·.err)) ∧
    ∃ b, Ok delim eoi (sepGo item delim eoi fuel outs errs alt pan s).2.2.2.2.1 b t := by
  intro fuel
  induction fuel with
  | zero => intro _ _ _ _ s _ _ _ h; omega
  | succ fuel ih =>
    intro outs errs alt pan s t fs gs hl hr he
    rw [sepGo]
    cases hr with
    | nil h1 h2 =>
      have h1' := h1
      obtain ⟨h3, ⟨alt', h4⟩, h5⟩ := h1
      obtain ⟨h6, e, h7⟩ := h2
      subst h5
      simp only [h4, h7]
      exact ⟨by simpa [h3, h6] using he, _, h1'⟩
    | @cons _ b s1 a s2 _ fs' gs' h1 h2 h3 h4 =>
      obtain ⟨d1, ⟨dalt, d2⟩, d3⟩ := h1
      subst d3
      obtain ⟨i1, ⟨ialt, i2⟩, i3⟩ := h2
      subst i3
      simp only [d2, i2, h3, ↓reduceIte]
      have := ih (outs := outs ++ [a]) (errs := errs ++ (delim eoi s).errs ++ (item eoi (delim eoi s).rest).errs)
        (alt := mergeAlts (mergeAlts alt dalt) ialt)
        (pan := pan || (delim eoi s).panicked || (item eoi (delim eoi s).rest).panicked ||
          clashAlts alt dalt || clashAlts (mergeAlts alt dalt) ialt) (fs := fs ++ fs')
        (by omega) h4 (by
          rw [d1, List.append_nil, List.map_append]; exact Matching.append he i1)
      simpa [List.append_assoc] using this

theorem em_separatedBy {item : P O α} {delim : P O β} (h : ESep R item delim eoi s t fs) :
    ∃ as, Em R (separatedBy item delim) eoi s as t fs := by
  cases h with
  | nil h1 h2 =>
    have h0 := sepDelim_ok (alt := none) h1
    rcases hsd : sepDelim delim eoi none s with ⟨alt0, pan0, s0'⟩
    rw [hsd] at h0
    simp only at h0
    subst h0
    obtain ⟨h3, e, h4⟩ := h2
    exact ⟨[], by simp [separatedBy, hsd, h4, h3]; exact .nil, ⟨mergeAlts alt0 (some e), by simp only [separatedBy, hsd, h4]⟩,
      by simp only [separatedBy, hsd, h4]⟩
  | @cons _ b s1 a s2 _ fs' gs' h1 h2 h3 h4 =>
    have h0 := sepDelim_ok (alt := none) h1
    rcases hsd : sepDelim delim eoi none s with ⟨alt0, pan0, s0'⟩
    rw [hsd] at h0
    simp only at h0
    subst h0
    obtain ⟨i1, ⟨ialt, i2⟩, i3⟩ := h2
    subst i3
    have key := sepGo_em (outs := [a]) (errs := (item eoi s0').errs) (alt := mergeAlts alt0 ialt)
      (pan := pan0 || (item eoi s0').panicked || clashAlts alt0 ialt)
      ((item eoi s0').rest.length + 1) (Nat.lt_succ_self _) h4 i1
    rcases hg : sepGo item delim eoi ((item eoi s0').rest.length + 1) [a] (item eoi s0').errs
      (mergeAlts alt0 ialt) (pan0 || (item eoi s0').panicked || clashAlts alt0 ialt)
      (item eoi s0').rest with ⟨outs, errs, alt, pan, s1', err⟩
    rw [hg] at key
    simp only at key
    obtain ⟨k1, b', k2⟩ := key
    have h5 := sepDelim_ok (alt := alt) k2
    rcases hsd2 : sepDelim delim eoi alt s1' with ⟨alt', pan', s2'⟩
    rw [hsd2] at h5
    simp only at h5
    subst h5
    exact ⟨outs, by simp only [separatedBy, hsd, i2, hg, hsd2]; exact k1,
      ⟨mergeAlts alt' err, by simp only [separatedBy, hsd, i2, hg, hsd2]⟩, by simp only [separatedBy, hsd, i2, hg, hsd2]⟩

end Knuffel
