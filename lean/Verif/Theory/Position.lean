import Verif.Theory.Calm
import Verif.Theory.Entries
/-!
# Where errors are located

`Loc.rem` counts the tokens from the error to the end of the input.  `LB n alt`:
the alternative error (if any) is not located past the point where `n` tokens
remain.  `Tight p`: the alternative error of a success is not located past the
stream position after the success.  These bounds are used to show that a message
error is never merged with another error at the same position.
-/

set_option linter.unusedSimpArgs false
set_option linter.unusedSectionVars false
set_option linter.unusedVariables false

namespace Knuffel

variable {O α β γ : Type}

/-- The optional error leaves at least `n` tokens. -/
def LB (n : Nat) (o : Option (Loc O)) : Prop := ∀ e, o = some e → n ≤ e.rem

theorem lb_none {n} : LB n (none : Option (Loc O)) := by intro e h; cases h
theorem lb_some {n} {e : Loc O} : LB n (some e) ↔ n ≤ e.rem :=
  ⟨fun h => h e rfl, fun h e' he => by injection he with he; subst he; exact h⟩
theorem LB.mono {n m} {o : Option (Loc O)} (h : LB n o) (hm : m ≤ n) : LB m o :=
  fun e he => by have := h e he; omega

theorem Loc.max_lb {n} {a b : Loc O} (ha : n ≤ a.rem) (hb : n ≤ b.rem) : n ≤ (a.max b).rem := by
  rcases Loc.max_rem a b with ⟨h, _⟩ | ⟨h, _⟩ <;> rw [h] <;> assumption

theorem maxO_lb {n} {a : Loc O} {o : Option (Loc O)} (ha : n ≤ a.rem) (ho : LB n o) : n ≤ (a.maxO o).rem := by
  cases o with
  | none => exact ha
  | some b => exact Loc.max_lb ha (lb_some.1 ho)

theorem mergeAlts_lb {n} {a b : Option (Loc O)} (ha : LB n a) (hb : LB n b) : LB n (mergeAlts a b) := by
  cases a with
  | none => cases b with
    | none => exact ha
    | some b => exact hb
  | some a => cases b with
    | none => exact ha
    | some b => exact lb_some.2 (Loc.max_lb (lb_some.1 hb) (lb_some.1 ha))

/-- An error further than another wins, without panic. -/
theorem Loc.max_far {a b : Loc O} (h : a.rem < b.rem) : a.max b = a ∧ b.max a = a ∧ a.clash b = false ∧ b.clash a = false := by
  refine ⟨?_, ?_, ?_, ?_⟩
  · simp [Loc.max, h]
  · have : ¬ b.rem < a.rem := by omega
    simp [Loc.max, h, this]
  · exact Loc.clash_ne (by omega)
  · exact Loc.clash_ne (by omega)

theorem maxO_far {a : Loc O} {o : Option (Loc O)} (h : LB (a.rem + 1) o) :
    a.maxO o = a ∧ a.clashO o = false := by
  cases o with
  | none => exact ⟨rfl, rfl⟩
  | some b =>
    have := lb_some.1 h
    have := Loc.max_far (a := a) (b := b) (by omega)
    exact ⟨this.1, this.2.2.1⟩

theorem mergeAlts_far {a : Loc O} {o : Option (Loc O)} (h : LB (a.rem + 1) o) :
    mergeAlts (some a) o = some a ∧ mergeAlts o (some a) = some a ∧
    clashAlts (some a) o = false ∧ clashAlts o (some a) = false := by
  cases o with
  | none => exact ⟨rfl, rfl, rfl, rfl⟩
  | some b =>
    have := lb_some.1 h
    have := Loc.max_far (a := a) (b := b) (by omega)
    exact ⟨congrArg some this.2.1, congrArg some this.1, this.2.2.2, this.2.2.1⟩

/-! ## Results of the combinators, case by case -/

theorem bind_cases (p : P O α) (f : α → P O β) (eoi : Sp O) (s : List (Tok O)) :
    (∃ e, (p eoi s).out = .error e ∧
      bind p f eoi s = ⟨(p eoi s).panicked, (p eoi s).errs, .error e, (p eoi s).rest⟩) ∨
    (∃ a alt1 e2, (p eoi s).out = .ok (a, alt1) ∧ (f a eoi (p eoi s).rest).out = .error e2 ∧
      bind p f eoi s = ⟨(p eoi s).panicked || (f a eoi (p eoi s).rest).panicked || e2.clashO alt1,
        (p eoi s).errs ++ (f a eoi (p eoi s).rest).errs, .error (e2.maxO alt1), (f a eoi (p eoi s).rest).rest⟩) ∨
    (∃ a alt1 b alt2, (p eoi s).out = .ok (a, alt1) ∧ (f a eoi (p eoi s).rest).out = .ok (b, alt2) ∧
      bind p f eoi s = ⟨(p eoi s).panicked || (f a eoi (p eoi s).rest).panicked || clashAlts alt1 alt2,
        (p eoi s).errs ++ (f a eoi (p eoi s).rest).errs, .ok (b, mergeAlts alt1 alt2), (f a eoi (p eoi s).rest).rest⟩) := by
  cases h1 : (p eoi s).out with
  | error e => exact Or.inl ⟨e, rfl, by simp [bind, h1]⟩
  | ok x =>
    obtain ⟨a, alt1⟩ := x
    cases h2 : (f a eoi (p eoi s).rest).out with
    | error e => exact Or.inr (Or.inl ⟨a, alt1, e, rfl, h2, by simp [bind, h1, h2]⟩)
    | ok y => exact Or.inr (Or.inr ⟨a, alt1, y.1, y.2, rfl, h2, by simp [bind, h1, h2]⟩)

theorem bind_ok_inv {p : P O α} {f : α → P O β} {eoi : Sp O} {s b alt}
    (h : (bind p f eoi s).out = .ok (b, alt)) :
    ∃ a alt1 alt2, (p eoi s).out = .ok (a, alt1) ∧ (f a eoi (p eoi s).rest).out = .ok (b, alt2) ∧
      alt = mergeAlts alt1 alt2 ∧ (bind p f eoi s).rest = (f a eoi (p eoi s).rest).rest := by
  rcases bind_cases p f eoi s with ⟨e, _, h2⟩ | ⟨a, alt1, e2, _, _, h2⟩ | ⟨a, alt1, b', alt2, h1, h3, h2⟩
  · rw [h2] at h; cases h
  · rw [h2] at h; cases h
  · rw [h2] at h ⊢
    injection h with h
    injection h with ha hb
    subst ha; subst hb
    exact ⟨a, alt1, alt2, h1, h3, rfl, rfl⟩

theorem bind_error_inv {p : P O α} {f : α → P O β} {eoi : Sp O} {s e}
    (h : (bind p f eoi s).out = .error e) :
    (p eoi s).out = .error e ∨
    ∃ a alt1 e2, (p eoi s).out = .ok (a, alt1) ∧ (f a eoi (p eoi s).rest).out = .error e2 ∧ e = e2.maxO alt1 := by
  rcases bind_cases p f eoi s with ⟨e, h1, h2⟩ | ⟨a, alt1, e2, h1, h3, h2⟩ | ⟨a, alt1, b', alt2, h1, h3, h2⟩
  · rw [h2] at h; injection h with h; subst h; exact Or.inl h1
  · rw [h2] at h; injection h with h; exact Or.inr ⟨a, alt1, e2, h1, h3, h.symm⟩
  · rw [h2] at h; cases h

theorem bind_error_left {p : P O α} {f : α → P O β} {eoi : Sp O} {s e}
    (h : (p eoi s).out = .error e) : (bind p f eoi s).out = .error e := by
  simp [bind, h]

theorem pmap_ok_inv {f : α → β} {p : P O α} {eoi : Sp O} {s b alt} (h : (pmap f p eoi s).out = .ok (b, alt)) :
    ∃ a, (p eoi s).out = .ok (a, alt) ∧ b = f a := by
  simp only [pmap] at h
  cases ho : (p eoi s).out with
  | error e => simp [ho] at h
  | ok x => simp [ho] at h; exact ⟨x.1, by rw [← h.2], h.1.symm⟩

theorem pmap_error {f : α → β} {p : P O α} {eoi : Sp O} {s e} :
    (pmap f p eoi s).out = .error e ↔ (p eoi s).out = .error e := by
  simp only [pmap]
  cases ho : (p eoi s).out <;> simp

theorem mapErr_ok {f} {p : P O α} {eoi : Sp O} {s x} : (mapErr f p eoi s).out = .ok x ↔ (p eoi s).out = .ok x := by
  simp only [mapErr]
  cases ho : (p eoi s).out <;> simp

theorem mapErr_error_inv {f} {p : P O α} {eoi : Sp O} {s e} (h : (mapErr f p eoi s).out = .error e) :
    ∃ e', (p eoi s).out = .error e' ∧ e.rem = e'.rem := by
  simp only [mapErr] at h
  cases ho : (p eoi s).out with
  | error e' => simp [ho] at h; exact ⟨e', rfl, by rw [← h]⟩
  | ok x => simp [ho] at h

theorem mapErrWithSpan_ok {f} {p : P O α} {eoi : Sp O} {s x} :
    (mapErrWithSpan f p eoi s).out = .ok x ↔ (p eoi s).out = .ok x := by
  simp only [mapErrWithSpan]
  cases ho : (p eoi s).out <;> simp

theorem mapErrWithSpan_error_inv {f} {p : P O α} {eoi : Sp O} {s e} (h : (mapErrWithSpan f p eoi s).out = .error e) :
    ∃ e', (p eoi s).out = .error e' ∧ e.rem = e'.rem ∧ e.err = f e'.err (spanSince eoi s (p eoi s).rest) := by
  simp only [mapErrWithSpan] at h
  cases ho : (p eoi s).out with
  | error e' => simp [ho] at h; exact ⟨e', rfl, by rw [← h], by rw [← h]⟩
  | ok x => simp [ho] at h

theorem mapWithSpan_ok_inv {f : α → Sp O → β} {p : P O α} {eoi : Sp O} {s b alt}
    (h : (mapWithSpan f p eoi s).out = .ok (b, alt)) :
    ∃ a, (p eoi s).out = .ok (a, alt) ∧ b = f a (spanSince eoi s (p eoi s).rest) := by
  simp only [mapWithSpan] at h
  cases ho : (p eoi s).out with
  | error e => simp [ho] at h
  | ok x => simp [ho] at h; exact ⟨x.1, by rw [← h.2], h.1.symm⟩

theorem mapWithSpan_error {f : α → Sp O → β} {p : P O α} {eoi : Sp O} {s e} :
    (mapWithSpan f p eoi s).out = .error e ↔ (p eoi s).out = .error e := by
  simp only [mapWithSpan]
  cases ho : (p eoi s).out <;> simp

theorem tryMap_ok_inv {f : α → Sp O → Except (PErr O) β} {p : P O α} {eoi : Sp O} {s b alt}
    (h : (tryMap f p eoi s).out = .ok (b, alt)) :
    ∃ a, (p eoi s).out = .ok (a, alt) ∧ f a (spanSince eoi s (p eoi s).rest) = .ok b := by
  simp only [tryMap] at h
  cases ho : (p eoi s).out with
  | error e => simp [ho] at h
  | ok x =>
    simp only [ho] at h
    cases hf : f x.1 (spanSince eoi s (p eoi s).rest) with
    | error e => simp [hf] at h
    | ok y => simp [hf] at h; exact ⟨x.1, by rw [← h.2], by rw [← h.1]; exact hf⟩

theorem tryMap_error_inv {f : α → Sp O → Except (PErr O) β} {p : P O α} {eoi : Sp O} {s e}
    (h : (tryMap f p eoi s).out = .error e) :
    (p eoi s).out = .error e ∨ ∃ a alt, (p eoi s).out = .ok (a, alt) ∧
      f a (spanSince eoi s (p eoi s).rest) = .error e.err ∧ e.rem = (p eoi s).rest.length := by
  simp only [tryMap] at h
  cases ho : (p eoi s).out with
  | error e => simp [ho] at h; subst h; exact Or.inl rfl
  | ok x =>
    simp only [ho] at h
    cases hf : f x.1 (spanSince eoi s (p eoi s).rest) with
    | error e => simp [hf] at h; subst h; exact Or.inr ⟨x.1, x.2, rfl, hf, rfl⟩
    | ok y => simp [hf] at h

theorem orNot_inv (p : P O α) (eoi : Sp O) (s : List (Tok O)) :
    (∃ a alt, (p eoi s).out = .ok (a, alt) ∧
      orNot p eoi s = ⟨(p eoi s).panicked, (p eoi s).errs, .ok (some a, alt), (p eoi s).rest⟩) ∨
    (∃ e, (p eoi s).out = .error e ∧ orNot p eoi s = ⟨(p eoi s).panicked, [], .ok (none, some e), s⟩) := by
  cases ho : (p eoi s).out with
  | ok x => exact Or.inl ⟨x.1, x.2, rfl, by simp [orNot, ho]⟩
  | error e => exact Or.inr ⟨e, rfl, by simp [orNot, ho]⟩

/-- The results of `or`, unless both alternatives succeed with the first one emitting errors. -/
theorem orP_ok_clean {p q : P O α} {eoi : Sp O} {s x} (h : (p eoi s).out = .ok x) (he : (p eoi s).errs = []) :
    orP p q eoi s = p eoi s := by
  simp [orP, PRes.clean, h, he]

theorem orP_ok_left {p q : P O α} {eoi : Sp O} {s x alt e2} (h : (p eoi s).out = .ok (x, alt))
    (he : (p eoi s).errs ≠ []) (h2 : (q eoi s).out = .error e2) :
    orP p q eoi s = ⟨(p eoi s).panicked || (q eoi s).panicked || clashAlts alt (some e2), (p eoi s).errs,
      .ok (x, mergeAlts alt (some e2)), (p eoi s).rest⟩ := by
  have : (p eoi s).errs.isEmpty = false := by cases hh : (p eoi s).errs <;> simp_all
  simp [orP, PRes.clean, h, h2, this, preferA, takeA, PRes.altOrErr]

theorem orP_ok_right {p q : P O α} {eoi : Sp O} {s x alt e1} (h : (p eoi s).out = .error e1)
    (h2 : (q eoi s).out = .ok (x, alt)) :
    orP p q eoi s = ⟨(p eoi s).panicked || (q eoi s).panicked || clashAlts alt (some e1), (q eoi s).errs,
      .ok (x, mergeAlts alt (some e1)), (q eoi s).rest⟩ ∨
    orP p q eoi s = ⟨(q eoi s).panicked || (p eoi s).panicked || clashAlts alt (some e1), (q eoi s).errs,
      .ok (x, mergeAlts alt (some e1)), (q eoi s).rest⟩ := by
  by_cases he : (q eoi s).errs = []
  · left; simp [orP, PRes.clean, h, h2, he, preferA, takeA, PRes.altOrErr]
  · have : (q eoi s).errs.isEmpty = false := by cases hh : (q eoi s).errs <;> simp_all
    right; simp [orP, PRes.clean, h, h2, this, preferA, takeA, PRes.altOrErr]

theorem orP_error {p q : P O α} {eoi : Sp O} {s e1 e2} (h : (p eoi s).out = .error e1)
    (h2 : (q eoi s).out = .error e2) :
    orP p q eoi s = ⟨(p eoi s).panicked || (q eoi s).panicked || e1.clash e2, (p eoi s).errs,
      .error (e1.max e2), (p eoi s).rest⟩ ∨
    orP p q eoi s = ⟨(q eoi s).panicked || (p eoi s).panicked || e2.clash e1, (q eoi s).errs,
      .error (e2.max e1), (q eoi s).rest⟩ := by
  by_cases hp : preferA (p eoi s) (q eoi s) = true
  · left; simp [orP, PRes.clean, h, h2, hp, takeA, PRes.altOrErr, Loc.maxO, Loc.clashO]
  · right; simp [orP, PRes.clean, h, h2, hp, takeA, PRes.altOrErr, Loc.maxO, Loc.clashO]

/-- For a first alternative that emits no errors. -/
theorem orP_ok_inv {p q : P O α} (hq : Quiet p) {eoi : Sp O} {s x alt}
    (h : (orP p q eoi s).out = .ok (x, alt)) :
    ((p eoi s).out = .ok (x, alt) ∧ (orP p q eoi s).rest = (p eoi s).rest) ∨
    ∃ e1 alt2, (p eoi s).out = .error e1 ∧ (q eoi s).out = .ok (x, alt2) ∧ alt = mergeAlts alt2 (some e1) ∧
      (orP p q eoi s).rest = (q eoi s).rest := by
  cases h1 : (p eoi s).out with
  | ok y =>
    have := orP_ok_clean (q := q) h1 (hq eoi s)
    rw [this] at h ⊢
    rw [h1] at h
    exact Or.inl ⟨h, rfl⟩
  | error e1 =>
    right
    cases h2 : (q eoi s).out with
    | error e2 =>
      rcases orP_error h1 h2 with h3 | h3 <;> rw [h3] at h <;> cases h
    | ok y =>
      rcases orP_ok_right h1 h2 with h3 | h3 <;>
      · rw [h3] at h ⊢
        injection h with h; injection h with ha hb; subst ha
        exact ⟨e1, y.2, rfl, rfl, hb.symm, rfl⟩

/-- For alternatives that do not both succeed. -/
theorem orP_ok_inv' {p q : P O α} {eoi : Sp O} {s x alt}
    (hx : ∀ y z, (p eoi s).out = .ok y → (q eoi s).out = .ok z → False)
    (h : (orP p q eoi s).out = .ok (x, alt)) :
    (∃ alt1, (p eoi s).out = .ok (x, alt1) ∧ (orP p q eoi s).rest = (p eoi s).rest ∧
      (alt = alt1 ∨ ∃ e2, (q eoi s).out = .error e2 ∧ alt = mergeAlts alt1 (some e2))) ∨
    ∃ e1 alt2, (p eoi s).out = .error e1 ∧ (q eoi s).out = .ok (x, alt2) ∧ alt = mergeAlts alt2 (some e1) ∧
      (orP p q eoi s).rest = (q eoi s).rest := by
  cases h1 : (p eoi s).out with
  | ok y =>
    left
    by_cases he : (p eoi s).errs = []
    · have := orP_ok_clean (q := q) h1 he
      rw [this] at h ⊢
      rw [h1] at h
      exact ⟨alt, h, rfl, Or.inl rfl⟩
    · cases h2 : (q eoi s).out with
      | ok z => exact (hx y z h1 h2).elim
      | error e2 =>
        have := orP_ok_left h1 he h2
        rw [this] at h ⊢
        injection h with h; injection h with ha hb; subst ha
        exact ⟨y.2, rfl, rfl, Or.inr ⟨e2, rfl, hb.symm⟩⟩
  | error e1 =>
    right
    cases h2 : (q eoi s).out with
    | error e2 =>
      rcases orP_error h1 h2 with h3 | h3 <;> rw [h3] at h <;> cases h
    | ok y =>
      rcases orP_ok_right h1 h2 with h3 | h3 <;>
      · rw [h3] at h ⊢
        injection h with h; injection h with ha hb; subst ha
        exact ⟨e1, y.2, rfl, rfl, hb.symm, rfl⟩

theorem orP_error_inv {p q : P O α} {eoi : Sp O} {s e}
    (h : (orP p q eoi s).out = .error e) :
    ∃ e1 e2, (p eoi s).out = .error e1 ∧ (q eoi s).out = .error e2 ∧ (e = e1.max e2 ∨ e = e2.max e1) := by
  cases h1 : (p eoi s).out with
  | ok y =>
    exfalso
    by_cases he : (p eoi s).errs = []
    · rw [orP_ok_clean (q := q) h1 he, h1] at h; cases h
    · cases h2 : (q eoi s).out with
      | error e2 => rw [orP_ok_left h1 he h2] at h; cases h
      | ok z =>
        have : (p eoi s).errs.isEmpty = false := by cases hh : (p eoi s).errs <;> simp_all
        simp only [orP, PRes.clean, h1, h2, this, Bool.false_and, Bool.and_true, takeA] at h
        split at h
        · simp_all
        · split at h
          · simp at h
          · split at h <;> simp at h
  | error e1 =>
    cases h2 : (q eoi s).out with
    | error e2 =>
      rcases orP_error h1 h2 with h3 | h3 <;> rw [h3] at h <;> injection h with h
      · exact ⟨e1, e2, rfl, rfl, Or.inl h.symm⟩
      · exact ⟨e1, e2, rfl, rfl, Or.inr h.symm⟩
    | ok y =>
      rcases orP_ok_right h1 h2 with h3 | h3 <;> rw [h3] at h <;> cases h

theorem choiceGo_ok_inv {ps : List (P O α)} {eoi : Sp O} {s x} : ∀ {alt pan},
    (choiceGo alt pan ps eoi s).out = .ok x →
    ∃ p ∈ ps, (p eoi s).out = .ok x ∧ (choiceGo alt pan ps eoi s).rest = (p eoi s).rest ∧
      (choiceGo alt pan ps eoi s).errs = (p eoi s).errs := by
  induction ps with
  | nil => intro alt pan h; cases alt <;> simp [choiceGo] at h
  | cons p ps ih =>
    intro alt pan h
    cases ho : (p eoi s).out with
    | ok y =>
      simp only [choiceGo, ho] at h ⊢
      exact ⟨p, by simp, h ▸ ho, rfl, rfl⟩
    | error e =>
      simp only [choiceGo, ho] at h ⊢
      obtain ⟨q, hq, h1⟩ := ih h
      exact ⟨q, by simp [hq], h1⟩

theorem choice_ok_inv {ps : List (P O α)} {eoi : Sp O} {s x} (h : (choice ps eoi s).out = .ok x) :
    ∃ p ∈ ps, (p eoi s).out = .ok x ∧ (choice ps eoi s).rest = (p eoi s).rest ∧
      (choice ps eoi s).errs = (p eoi s).errs := choiceGo_ok_inv h

/-- A lower bound for the error of a failed choice. -/
theorem choiceGo_error_lb {n} {ps : List (P O α)} {eoi : Sp O} {s e} : ∀ {alt pan},
    (ps ≠ [] ∨ alt ≠ none) → LB n alt →
    (∀ p ∈ ps, ∀ e, (p eoi s).out = .error e → n ≤ e.rem) →
    (choiceGo alt pan ps eoi s).out = .error e → n ≤ e.rem := by
  induction ps with
  | nil =>
    intro alt pan hne ha hps h
    cases alt with
    | none => simp at hne
    | some a => simp [choiceGo] at h; subst h; exact lb_some.1 ha
  | cons p ps ih =>
    intro alt pan hne ha hps h
    cases ho : (p eoi s).out with
    | ok y => simp [choiceGo, ho] at h
    | error e1 =>
      simp only [choiceGo, ho] at h
      refine ih (Or.inr ?_) (mergeAlts_lb ha (lb_some.2 (hps p (by simp) _ ho)))
        (fun q hq => hps q (by simp [hq])) h
      cases alt <;> simp [mergeAlts]

theorem choice_error_lb {n} {ps : List (P O α)} {eoi : Sp O} {s e} (hne : ps ≠ [])
    (hps : ∀ p ∈ ps, ∀ e, (p eoi s).out = .error e → n ≤ e.rem)
    (h : (choice ps eoi s).out = .error e) : n ≤ e.rem :=
  choiceGo_error_lb (Or.inl hne) lb_none hps h

theorem choiceGo_error_all {ps : List (P O α)} {eoi : Sp O} {s e} : ∀ {alt pan},
    (choiceGo alt pan ps eoi s).out = .error e → ∀ p ∈ ps, ∃ e, (p eoi s).out = .error e := by
  induction ps with
  | nil => simp
  | cons p ps ih =>
    intro alt pan h q hq
    cases ho : (p eoi s).out with
    | ok y => simp [choiceGo, ho] at h
    | error e1 =>
      simp only [choiceGo, ho] at h
      simp at hq
      rcases hq with rfl | hq
      · exact ⟨e1, ho⟩
      · exact ih h q hq

theorem choice_error_all {ps : List (P O α)} {eoi : Sp O} {s e} (h : (choice ps eoi s).out = .error e) :
    ∀ p ∈ ps, ∃ e, (p eoi s).out = .error e := choiceGo_error_all h

/-! ## Tight parsers -/

/-- The alternative of a success is at most `k` tokens past the stream position. -/
def TightK (k : Nat) (p : P O α) : Prop :=
  ∀ eoi s a alt, (p eoi s).out = .ok (a, alt) → LB ((p eoi s).rest.length - k) alt

/-- The alternative of a success is not past the stream position. -/
abbrev Tight (p : P O α) : Prop := TightK 0 p

/-- A failure is at most `k` tokens past the start. -/
def Near (k : Nat) (p : P O α) : Prop :=
  ∀ eoi s e, (p eoi s).out = .error e → s.length ≤ e.rem + k

theorem TightK.mono {j k} {p : P O α} (h : TightK j p) (hk : j ≤ k) : TightK k p :=
  fun eoi s a alt ho => (h eoi s a alt ho).mono (by omega)

theorem tight_none {p : P O α} (h : ∀ eoi s a alt, (p eoi s).out = .ok (a, alt) → alt = none) : Tight p :=
  fun eoi s a alt ho => by rw [h eoi s a alt ho]; exact lb_none

theorem tight_just (c) : Tight (just c : P O Char) := tight_none (by
  intro eoi s a alt h; unfold just at h
  split at h
  · split at h <;> simp_all [pok, pfail]
  · simp [pfail] at h)
theorem near_just (c) : Near 0 (just c : P O Char) := by
  intro eoi s e h; unfold just at h
  split at h
  · split at h <;> simp [pok, pfail] at h; subst h; simp
  · simp
theorem tight_filter (f) : Tight (filter f : P O Char) := tight_none (by
  intro eoi s a alt h; unfold filter at h
  split at h
  · split at h <;> simp_all [pok, pfail]
  · simp [pfail] at h)
theorem near_filter (f) : Near 0 (filter f : P O Char) := by
  intro eoi s e h; unfold filter at h
  split at h
  · split at h <;> simp [pok, pfail] at h; subst h; simp
  · simp
theorem tight_filterMap (f : Sp O → Char → Except (PErr O) α) : Tight (filterMap f) := tight_none (by
  intro eoi s a alt h; unfold filterMap at h
  split at h
  · split at h <;> simp_all [pok, pfail]
  · simp [pfail] at h)
theorem near_filterMap (f : Sp O → Char → Except (PErr O) α) : Near 0 (filterMap f) := by
  intro eoi s e h; unfold filterMap at h
  split at h
  · split at h <;> simp [pok, pfail] at h; subst h; simp
  · simp
theorem tight_endP : Tight (endP : P O Unit) := tight_none (by
  intro eoi s a alt h; unfold endP at h
  split at h <;> simp_all [pok, pfail])
theorem near_endP : Near 0 (endP : P O Unit) := by
  intro eoi s e h; unfold endP at h
  split at h <;> simp [pok, pfail] at h; subst h; simp
theorem tight_justStr (cs) : Tight (justStr cs : P O Unit) := tight_none (by
  induction cs with
  | nil => intro eoi s a alt h; simp [justStr, pok] at h; exact h.symm
  | cons c cs ih =>
    intro eoi s a alt h; unfold justStr at h
    split at h
    · split at h
      · exact ih _ _ _ _ h
      · simp [pfail] at h
    · simp [pfail] at h)

theorem tight_pmap {k} {f : α → β} {p : P O α} (h : TightK k p) : TightK k (pmap f p) := by
  intro eoi s b alt ho
  obtain ⟨a, h1, _⟩ := pmap_ok_inv ho
  exact h eoi s a alt h1
theorem near_pmap {k} {f : α → β} {p : P O α} (h : Near k p) : Near k (pmap f p) := by
  intro eoi s e ho; exact h eoi s e (pmap_error.1 ho)
theorem tight_ignored {k} {p : P O α} (h : TightK k p) : TightK k (ignored p) := tight_pmap h
theorem near_ignored {k} {p : P O α} (h : Near k p) : Near k (ignored p) := near_pmap h
theorem tight_mapErr {k f} {p : P O α} (h : TightK k p) : TightK k (mapErr f p) := by
  intro eoi s b alt ho; exact h eoi s b alt (mapErr_ok.1 ho)
theorem near_mapErr {k f} {p : P O α} (h : Near k p) : Near k (mapErr f p) := by
  intro eoi s e ho
  obtain ⟨e', h1, h2⟩ := mapErr_error_inv ho
  rw [h2]; exact h eoi s e' h1
theorem tight_mapErrWithSpan {k f} {p : P O α} (h : TightK k p) : TightK k (mapErrWithSpan f p) := by
  intro eoi s b alt ho; exact h eoi s b alt (mapErrWithSpan_ok.1 ho)
theorem near_mapErrWithSpan {k f} {p : P O α} (h : Near k p) : Near k (mapErrWithSpan f p) := by
  intro eoi s e ho
  obtain ⟨e', h1, h2, _⟩ := mapErrWithSpan_error_inv ho
  rw [h2]; exact h eoi s e' h1
theorem tight_spanned {k} {p : P O α} (h : TightK k p) : TightK k (spanned p) := by
  intro eoi s b alt ho
  obtain ⟨a, h1, _⟩ := mapWithSpan_ok_inv ho
  exact h eoi s a alt h1
theorem near_spanned {k} {p : P O α} (h : Near k p) : Near k (spanned p) := by
  intro eoi s e ho; exact h eoi s e (mapWithSpan_error.1 ho)
theorem tight_tryMap {k} {f : α → Sp O → Except (PErr O) β} {p : P O α} (h : TightK k p) : TightK k (tryMap f p) := by
  intro eoi s b alt ho
  obtain ⟨a, h1, _⟩ := tryMap_ok_inv ho
  exact h eoi s a alt h1

theorem tight_bind {j k} {p : P O α} {f : α → P O β} (hp : TightK j p) (hf : ∀ a, TightK k (f a))
    (he : ∀ a, Eats (j - k) (f a)) : TightK k (bind p f) := by
  intro eoi s b alt ho
  obtain ⟨a, alt1, alt2, h1, h2, h3, h4⟩ := bind_ok_inv ho
  rw [h4, h3]
  have h5 := he a eoi _ _ h2
  exact mergeAlts_lb ((hp eoi s a alt1 h1).mono (by omega)) (hf a eoi _ b alt2 h2)

theorem near_bind_left {k} {p : P O α} {f : α → P O β} (hp : Near k p)
    (hf : ∀ eoi s x, (p eoi s).out = .ok x → ∀ e, (f x.1 eoi (p eoi s).rest).out = .error e →
      s.length ≤ (e.maxO x.2).rem + k) : Near k (bind p f) := by
  intro eoi s e ho
  rcases bind_error_inv ho with h | ⟨a, alt1, e2, h1, h2, h3⟩
  · exact hp eoi s e h
  · rw [h3]; exact hf eoi s (a, alt1) h1 e2 h2

theorem tight_seq {j k} {p : P O α} {q : P O β} (hp : TightK j p) (hq : TightK k q) (he : Eats (j - k) q) :
    TightK k (seq p q) := tight_bind hp (fun _ => tight_pmap hq) (fun _ => eats_pmap he)
theorem tight_ignoreThen {j k} {p : P O α} {q : P O β} (hp : TightK j p) (hq : TightK k q) (he : Eats (j - k) q) :
    TightK k (ignoreThen p q) := tight_bind hp (fun _ => hq) (fun _ => he)
theorem tight_thenIgnore {j k} {p : P O α} {q : P O β} (hp : TightK j p) (hq : TightK k q) (he : Eats (j - k) q) :
    TightK k (thenIgnore p q) := tight_bind hp (fun _ => tight_pmap hq) (fun _ => eats_pmap he)

theorem tight_orNot {k} {p : P O α} (hp : TightK k p) (hn : Near k p) : TightK k (orNot p) := by
  intro eoi s a alt ho
  rcases orNot_inv p eoi s with ⟨b, alt1, h1, h2⟩ | ⟨e, h1, h2⟩
  · rw [h2] at ho ⊢; injection ho with ho; injection ho with _ ho; subst ho
    exact hp eoi s b alt1 h1
  · rw [h2] at ho ⊢; injection ho with ho; injection ho with _ ho; subst ho
    have := hn eoi s e h1
    exact lb_some.2 (by simp only; omega)

/-- The stream advances by `k` tokens, or to the end of the input. -/
def EatsEnd (k : Nat) (p : P O α) : Prop :=
  ∀ eoi s x, (p eoi s).out = .ok x → (p eoi s).rest.length + k ≤ s.length ∨ (p eoi s).rest.length = 0

theorem Eats.eatsEnd {k} {p : P O α} (h : Eats k p) : EatsEnd k p := fun eoi s x hx => Or.inl (h eoi s x hx)

theorem tight_orP' {k m} {p q : P O α} (hq0 : Quiet p) (hp : TightK m p) (hn : Near k p) (hq : TightK m q)
    (he : EatsEnd (k - m) q) : TightK m (orP p q) := by
  intro eoi s a alt ho
  rcases orP_ok_inv hq0 ho with ⟨h1, h2⟩ | ⟨e1, alt2, h1, h2, h3, h4⟩
  · rw [h2]; exact hp eoi s a alt h1
  · rw [h4, h3]
    have h5 := hn eoi s e1 h1
    have h6 := he eoi s _ h2
    exact mergeAlts_lb (hq eoi s a alt2 h2) (lb_some.2 (by omega))

theorem tight_orP {k m} {p q : P O α} (hq0 : Quiet p) (hp : TightK m p) (hn : Near k p) (hq : TightK m q)
    (he : Eats (k - m) q) : TightK m (orP p q) := tight_orP' hq0 hp hn hq he.eatsEnd

theorem near_orP {k} {p q : P O α} (hp : Near k p) (hq : Near k q) : Near k (orP p q) := by
  intro eoi s e ho
  obtain ⟨e1, e2, h1, h2, h3⟩ := orP_error_inv ho
  have h4 := hp eoi s e1 h1
  have h5 := hq eoi s e2 h2
  have h6 := Loc.max_lb (n := s.length - k) (a := e1) (b := e2) (by omega) (by omega)
  have h7 := Loc.max_lb (n := s.length - k) (a := e2) (b := e1) (by omega) (by omega)
  rcases h3 with rfl | rfl <;> omega

theorem tight_choice {k} {ps : List (P O α)} (h : ∀ p ∈ ps, TightK k p) : TightK k (choice ps) := by
  intro eoi s a alt ho
  obtain ⟨p, hp, h1, h2, _⟩ := choice_ok_inv ho
  rw [h2]; exact h p hp eoi s a alt h1

theorem near_choice {k} {ps : List (P O α)} (hne : ps ≠ []) (h : ∀ p ∈ ps, Near k p) : Near k (choice ps) := by
  intro eoi s e ho
  have := choice_error_lb (n := s.length - k) hne (fun p hp e he => by have := h p hp eoi s e he; omega) ho
  omega

theorem tight_rewind_filter (f) : TightK 0 (rewind (filter f) : P O Char) := tight_none (by
  intro eoi s a alt h
  simp only [rewind] at h
  cases ho : (filter f eoi s).out with
  | error e => simp [ho] at h
  | ok x =>
    simp [ho] at h
    unfold filter at ho
    split at ho
    · split at ho <;> simp_all [pok, pfail]
    · simp [pfail] at ho)

/-- The alternative of a repetition is bounded by the stream position and by the
error of the iteration that failed there. -/
theorem repGo_alt {p : P O α} (ht : Tight p) (hs : Suf p) (hq : FailQuiet p) {mn mx eoi} :
    ∀ fuel {outs errs alt pan s as alt'}, s.length < fuel → LB s.length alt →
    (repGo p mn mx eoi fuel outs errs alt pan s).out = .ok (as, alt') → Consumes p →
    ∀ n, n ≤ (repGo p mn mx eoi fuel outs errs alt pan s).rest.length →
      (∀ e, (p eoi (repGo p mn mx eoi fuel outs errs alt pan s).rest).out = .error e → n ≤ e.rem) →
      LB n alt' := by
  intro fuel
  induction fuel with
  | zero => intro _ _ _ _ _ _ _ h; omega
  | succ f ih =>
    intro outs errs alt pan s as alt' hf ha ho hc n
    unfold repGo at ho ⊢
    split at ho
    · rename_i hm
      simp only [hm, if_true]
      injection ho with ho; injection ho with _ ho; subst ho
      intro hn _; exact ha.mono hn
    · rename_i hm
      simp only [hm, if_false]
      cases h1 : (p eoi s).out with
      | ok x =>
        have hlt := hc eoi s x h1
        simp only [h1, hlt, if_true] at ho ⊢
        intro hn he
        refine ih (by omega) ?_ ho hc n hn he
        exact mergeAlts_lb (ha.mono (by omega)) (by simpa using ht eoi s x.1 x.2 h1)
      | error e =>
        simp only [h1] at ho ⊢
        by_cases hmn : outs.length < mn
        · simp [hmn] at ho
        · simp only [hmn, if_false] at ho ⊢
          injection ho with ho; injection ho with _ ho; subst ho
          intro hn he
          have h2 := hq eoi s e h1
          have h3 := he e h1
          simp only [h2, List.head?_nil]
          exact mergeAlts_lb (ha.mono hn) (lb_some.2 h3)

theorem repeatedB_alt {p : P O α} (ht : Tight p) (hs : Suf p) (hq : FailQuiet p) (hc : Consumes p) {mn mx eoi s as alt}
    (ho : (repeatedB mn mx p eoi s).out = .ok (as, alt)) {n} (hn : n ≤ (repeatedB mn mx p eoi s).rest.length)
    (he : ∀ e, (p eoi (repeatedB mn mx p eoi s).rest).out = .error e → n ≤ e.rem) : LB n alt :=
  repGo_alt ht hs hq (s.length + 1) (by omega) lb_none ho hc n hn he

theorem tight_repeatedB {k} {p : P O α} (ht : Tight p) (hs : Suf p) (hq : FailQuiet p) (hc : Consumes p)
    (hn : Near k p) {mn mx} : TightK k (repeatedB mn mx p) := by
  intro eoi s as alt ho
  refine repeatedB_alt ht hs hq hc ho (by omega) ?_
  intro e he
  have := hn eoi _ e he
  omega

theorem repeatedB_error {p : P O α} {mx} (hmx : mx ≠ some 0) : ∀ eoi s e,
    (repeatedB 1 mx p eoi s).out = .error e → (p eoi s).out = .error e := by
  intro eoi s e h
  have key : ∀ fuel {outs errs alt pan s}, outs.length ≥ 1 → ∀ e, (repGo p 1 mx eoi fuel outs errs alt pan s).out ≠ .error e := by
    intro fuel
    induction fuel with
    | zero => intro _ _ _ _ _ _ e he; simp [repGo] at he
    | succ f ih =>
      intro outs errs alt pan s ho e he
      unfold repGo at he
      split at he
      · cases he
      · cases h1 : (p eoi s).out with
        | ok x =>
          simp only [h1] at he
          split at he
          · exact ih (by simp) e he
          · cases he
        | error e =>
          have : ¬ outs.length < 1 := by omega
          simp [h1, this] at he
  unfold repeatedB repGo at h
  have hmx' : ¬ (mx = some ([] : List α).length) := by simpa using hmx
  simp only [hmx', if_false] at h
  cases h1 : (p eoi s).out with
  | ok x =>
    simp only [h1] at h
    split at h
    · exact absurd h (key _ (by simp) e)
    · cases h
  | error e' => simp [h1] at h; rw [h]

theorem tight_takeUntil {k} {p : P O β} (hn : Near k p) (he : EatsEnd k p) (ht : Tight p) : Tight (takeUntil p) := by
  have key : ∀ (eoi : Sp O) fuel {outs alt pan s x alt'},
      (∀ e, alt = some e → s.length + 1 ≤ e.rem + k) →
      (takeUntilGo p eoi fuel outs alt pan s).out = .ok (x, alt') →
      LB (takeUntilGo p eoi fuel outs alt pan s).rest.length alt' := by
    intro eoi fuel
    induction fuel with
    | zero => intro _ _ _ _ _ _ _ h; simp [takeUntilGo] at h
    | succ f ih =>
      intro outs alt pan s x alt' ha ho
      unfold takeUntilGo at ho ⊢
      cases h1 : (p eoi s).out with
      | ok y =>
        simp only [h1] at ho ⊢
        injection ho with ho; injection ho with _ ho; subst ho
        have h2 := he eoi s y h1
        refine mergeAlts_lb ?_ (by simpa using ht eoi s y.1 y.2 h1)
        intro e hee; have := ha e hee; omega
      | error e =>
        simp only [h1] at ho ⊢
        cases s with
        | nil => simp at ho
        | cons c t =>
          obtain ⟨c, sp⟩ := c
          simp only at ho ⊢
          refine ih ?_ ho
          have h2 := hn eoi _ e h1
          have h3 : LB (t.length + 1 - k) (mergeAlts alt (some e)) := by
            refine mergeAlts_lb ?_ (lb_some.2 (by simp at h2; omega))
            intro e' he'; have := ha e' he'; simp at this; omega
          intro e' he'; have := h3 e' he'; simp at h2; omega
  intro eoi s a alt ho
  exact key eoi _ (by intro e h; cases h) ho

end Knuffel
