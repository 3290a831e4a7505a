import Verif.Model.Chumsky
/-!
# Success and failure of the combinators

`Ok p eoi s a t`: on the tokens `s` the parser succeeds with value `a`, emits
no error and leaves `t`.  `Fails`: it fails.  `FailsC`: it fails without having
emitted errors.  For each combinator we characterise when it succeeds and fails.
-/

namespace Knuffel

variable {O α β γ : Type}

/-- Clean success. -/
def Ok (p : P O α) (eoi : Sp O) (s : List (Tok O)) (a : α) (t : List (Tok O)) : Prop :=
  (p eoi s).errs = [] ∧ (∃ alt, (p eoi s).out = .ok (a, alt)) ∧ (p eoi s).rest = t

/-- Failure. -/
def Fails (p : P O α) (eoi : Sp O) (s : List (Tok O)) : Prop :=
  ∃ e, (p eoi s).out = .error e

/-- Failure without emitted errors. -/
def FailsC (p : P O α) (eoi : Sp O) (s : List (Tok O)) : Prop :=
  (p eoi s).errs = [] ∧ ∃ e, (p eoi s).out = .error e

theorem FailsC.fails {p : P O α} {eoi s} (h : FailsC p eoi s) : Fails p eoi s := h.2

theorem Ok.unique {p : P O α} {eoi s a t a' t'} (h : Ok p eoi s a t) (h' : Ok p eoi s a' t') :
    a = a' ∧ t = t' := by
  obtain ⟨_, ⟨alt, h1⟩, h2⟩ := h
  obtain ⟨_, ⟨alt', h1'⟩, h2'⟩ := h'
  rw [h1] at h1'
  simp only [Except.ok.injEq, Prod.mk.injEq] at h1'
  exact ⟨h1'.1, h2.symm.trans h2'⟩

theorem Ok.not_fails {p : P O α} {eoi s a t} (h : Ok p eoi s a t) : ¬ Fails p eoi s := by
  rintro ⟨e, he⟩
  obtain ⟨_, ⟨alt, h1⟩, _⟩ := h
  rw [h1] at he
  simp at he

/-! ### Basic parsers -/

theorem ok_just {c : Char} {eoi : Sp O} {s a t} :
    Ok (just c) eoi s a t ↔ ∃ sp, s = (c, sp) :: t ∧ a = c := by
  unfold Ok just
  rcases s with _ | ⟨⟨x, sp⟩, s⟩
  · simp [pfail]
  · by_cases hx : x = c
    · subst hx; simp [pok]; grind
    · simp [hx, pfail]

theorem failsC_just {c : Char} {eoi : Sp O} {s} :
    FailsC (just c) eoi s ↔ ∀ sp t, s ≠ (c, sp) :: t := by
  unfold FailsC just
  rcases s with _ | ⟨⟨x, sp⟩, s⟩
  · simp [pfail]
  · by_cases hx : x = c
    · subst hx; simp [pok]
    · simp [hx, pfail]

theorem fails_just {c : Char} {eoi : Sp O} {s} :
    Fails (just c) eoi s ↔ ∀ sp t, s ≠ (c, sp) :: t := by
  unfold Fails just
  rcases s with _ | ⟨⟨x, sp⟩, s⟩
  · simp [pfail]
  · by_cases hx : x = c
    · subst hx; simp [pok]
    · simp [hx, pfail]

theorem ok_filter {f : Char → Bool} {eoi : Sp O} {s a t} :
    Ok (filter f) eoi s a t ↔ ∃ sp, s = (a, sp) :: t ∧ f a = true := by
  unfold Ok filter
  rcases s with _ | ⟨⟨x, sp⟩, s⟩
  · simp [pfail]
  · by_cases hx : f x = true
    · simp [hx, pok]; grind
    · simp [hx, pfail]; grind

theorem failsC_filter {f : Char → Bool} {eoi : Sp O} {s} :
    FailsC (filter f) eoi s ↔ ∀ x sp t, s = (x, sp) :: t → f x = false := by
  unfold FailsC filter
  rcases s with _ | ⟨⟨x, sp⟩, s⟩
  · simp [pfail]
  · by_cases hx : f x = true
    · simp [hx, pok]
    · simp [hx, pfail]

theorem fails_filter {f : Char → Bool} {eoi : Sp O} {s} :
    Fails (filter f) eoi s ↔ ∀ x sp t, s = (x, sp) :: t → f x = false := by
  unfold Fails filter
  rcases s with _ | ⟨⟨x, sp⟩, s⟩
  · simp [pfail]
  · by_cases hx : f x = true
    · simp [hx, pok]
    · simp [hx, pfail]

theorem ok_filterMap {f : Sp O → Char → Except (PErr O) α} {eoi : Sp O} {s a t} :
    Ok (filterMap f) eoi s a t ↔ ∃ c sp, s = (c, sp) :: t ∧ f sp c = .ok a := by
  unfold Ok filterMap
  rcases s with _ | ⟨⟨x, sp⟩, s⟩
  · simp [pfail]
  · cases hx : f sp x <;> simp [pok, pfail] <;> grind

theorem failsC_filterMap {f : Sp O → Char → Except (PErr O) α} {eoi : Sp O} {s} :
    FailsC (filterMap f) eoi s ↔ ∀ c sp t, s = (c, sp) :: t → ∃ e, f sp c = .error e := by
  unfold FailsC filterMap
  rcases s with _ | ⟨⟨x, sp⟩, s⟩
  · simp [pfail]
  · cases hx : f sp x <;> simp [hx, pok, pfail]

theorem fails_filterMap {f : Sp O → Char → Except (PErr O) α} {eoi : Sp O} {s} :
    Fails (filterMap f) eoi s ↔ ∀ c sp t, s = (c, sp) :: t → ∃ e, f sp c = .error e := by
  unfold Fails filterMap
  rcases s with _ | ⟨⟨x, sp⟩, s⟩
  · simp [pfail]
  · cases hx : f sp x <;> simp [hx, pok, pfail]

theorem ok_endP {eoi : Sp O} {s a t} : Ok endP eoi s a t ↔ s = [] ∧ t = [] := by
  unfold Ok endP
  rcases s with _ | ⟨⟨x, sp⟩, s⟩
  · simp [pok]
  · simp [pfail]

theorem failsC_endP {eoi : Sp O} {s} : FailsC endP eoi s ↔ s ≠ [] := by
  unfold FailsC endP
  rcases s with _ | ⟨⟨x, sp⟩, s⟩ <;> simp [pfail, pok]

theorem fails_endP {eoi : Sp O} {s} : Fails endP eoi s ↔ s ≠ [] := by
  unfold Fails endP
  rcases s with _ | ⟨⟨x, sp⟩, s⟩ <;> simp [pfail, pok]

/-- The characters of a token list. -/
def chars (s : List (Tok O)) : Str := s.map Prod.fst

@[simp] theorem chars_nil : chars ([] : List (Tok O)) = [] := rfl
@[simp] theorem chars_cons (x : Tok O) (s : List (Tok O)) : chars (x :: s) = x.1 :: chars s := rfl
@[simp] theorem chars_append (s t : List (Tok O)) : chars (s ++ t) = chars s ++ chars t := by
  simp [chars]
@[simp] theorem chars_length (s : List (Tok O)) : (chars s).length = s.length := by simp [chars]

theorem chars_eq_nil {s : List (Tok O)} : chars s = [] ↔ s = [] := by simp [chars]

theorem chars_eq_cons {s : List (Tok O)} {c : Char} {cs : Str} :
    chars s = c :: cs ↔ ∃ sp t, s = (c, sp) :: t ∧ chars t = cs := by
  rcases s with _ | ⟨⟨x, sp⟩, s⟩
  · simp
  · simp; grind

theorem chars_eq_append {s : List (Tok O)} {a b : Str} :
    chars s = a ++ b ↔ ∃ s1 s2, s = s1 ++ s2 ∧ chars s1 = a ∧ chars s2 = b := by
  simp [chars, List.map_eq_append_iff]

theorem ok_justStr {cs : Str} {eoi : Sp O} {s a t} :
    Ok (justStr cs) eoi s a t ↔ ∃ pre, s = pre ++ t ∧ chars pre = cs := by
  induction cs generalizing s with
  | nil =>
    simp only [Ok, justStr, pok, chars_eq_nil, exists_eq_right, List.nil_append]
    simp
  | cons c cs ih =>
    rcases s with _ | ⟨⟨x, sp⟩, s⟩
    · simp [Ok, justStr, pfail]
    · by_cases hx : x = c
      · subst hx
        have : Ok (justStr (x :: cs)) eoi ((x, sp) :: s) a t ↔ Ok (justStr cs) eoi s a t := by
          simp [Ok, justStr]
        rw [this, ih]
        constructor
        · rintro ⟨pre, rfl, rfl⟩; exact ⟨(x, sp) :: pre, by simp⟩
        · rintro ⟨pre, h1, h2⟩
          obtain ⟨sp', pre', rfl, h3⟩ := chars_eq_cons.1 h2
          simp at h1
          exact ⟨pre', h1.2, h3⟩
      · constructor
        · intro h; simp [Ok, justStr, hx, pfail] at h
        · rintro ⟨pre, h1, h2⟩
          obtain ⟨sp', pre', rfl, h3⟩ := chars_eq_cons.1 h2
          simp at h1; exact absurd h1.1.1 hx

theorem failsC_justStr {cs : Str} {eoi : Sp O} {s} :
    FailsC (justStr cs) eoi s ↔ ∀ pre t, s = pre ++ t → chars pre ≠ cs := by
  induction cs generalizing s with
  | nil =>
    simp only [FailsC, justStr, pok]
    constructor
    · rintro ⟨_, e, h⟩; simp at h
    · intro h; exact absurd rfl (h [] s rfl)
  | cons c cs ih =>
    rcases s with _ | ⟨⟨x, sp⟩, s⟩
    · simp [FailsC, justStr, pfail]
    · by_cases hx : x = c
      · subst hx
        have : FailsC (justStr (x :: cs)) eoi ((x, sp) :: s) ↔ FailsC (justStr cs) eoi s := by
          simp [FailsC, justStr]
        rw [this, ih]
        constructor
        · intro h pre t h1 h2
          obtain ⟨sp', pre', rfl, h3⟩ := chars_eq_cons.1 h2
          simp at h1
          exact h _ _ h1.2 h3
        · rintro h pre t rfl h2
          exact h ((x, sp) :: pre) t (by simp) (by simp [h2])
      · constructor
        · intro _ pre t h1 h2
          obtain ⟨sp', pre', rfl, h3⟩ := chars_eq_cons.1 h2
          simp at h1; exact absurd h1.1.1 hx
        · intro h; simp [FailsC, justStr, hx, pfail]

/-! ### Maps -/

theorem ok_pmap {f : α → β} {p : P O α} {eoi s b t} :
    Ok (pmap f p) eoi s b t ↔ ∃ a, Ok p eoi s a t ∧ f a = b := by
  unfold Ok pmap
  cases h : (p eoi s).out with
  | error e => simp [h]
  | ok x => obtain ⟨a, alt⟩ := x; simp [h]; grind

theorem fails_pmap {f : α → β} {p : P O α} {eoi s} : Fails (pmap f p) eoi s ↔ Fails p eoi s := by
  unfold Fails pmap
  cases h : (p eoi s).out with
  | error e => simp [h]
  | ok x => simp [h]

theorem failsC_pmap {f : α → β} {p : P O α} {eoi s} : FailsC (pmap f p) eoi s ↔ FailsC p eoi s := by
  unfold FailsC pmap
  cases h : (p eoi s).out with
  | error e => simp [h]
  | ok x => simp [h]

theorem ok_ignored {p : P O α} {eoi s b t} :
    Ok (ignored p) eoi s b t ↔ ∃ a, Ok p eoi s a t := by
  simp [ignored, ok_pmap]

theorem fails_ignored {p : P O α} {eoi s} : Fails (ignored p) eoi s ↔ Fails p eoi s := fails_pmap
theorem failsC_ignored {p : P O α} {eoi s} : FailsC (ignored p) eoi s ↔ FailsC p eoi s := failsC_pmap

theorem ok_mapErr {f} {p : P O α} {eoi s b t} : Ok (mapErr f p) eoi s b t ↔ Ok p eoi s b t := by
  unfold Ok mapErr
  cases h : (p eoi s).out <;> simp [h]

theorem fails_mapErr {f} {p : P O α} {eoi s} : Fails (mapErr f p) eoi s ↔ Fails p eoi s := by
  unfold Fails mapErr
  cases h : (p eoi s).out <;> simp [h]

theorem failsC_mapErr {f} {p : P O α} {eoi s} : FailsC (mapErr f p) eoi s ↔ FailsC p eoi s := by
  unfold FailsC mapErr
  cases h : (p eoi s).out <;> simp [h]

theorem ok_mapErrWithSpan {f} {p : P O α} {eoi s b t} :
    Ok (mapErrWithSpan f p) eoi s b t ↔ Ok p eoi s b t := by
  unfold Ok mapErrWithSpan
  cases h : (p eoi s).out <;> simp [h]

theorem fails_mapErrWithSpan {f} {p : P O α} {eoi s} :
    Fails (mapErrWithSpan f p) eoi s ↔ Fails p eoi s := by
  unfold Fails mapErrWithSpan
  cases h : (p eoi s).out <;> simp [h]

theorem failsC_mapErrWithSpan {f} {p : P O α} {eoi s} :
    FailsC (mapErrWithSpan f p) eoi s ↔ FailsC p eoi s := by
  unfold FailsC mapErrWithSpan
  cases h : (p eoi s).out <;> simp [h]

theorem ok_mapWithSpan {f : α → Sp O → β} {p : P O α} {eoi s b t} :
    Ok (mapWithSpan f p) eoi s b t ↔ ∃ a, Ok p eoi s a t ∧ f a (spanSince eoi s t) = b := by
  unfold Ok mapWithSpan
  cases h : (p eoi s).out with
  | error e => simp [h]
  | ok x => obtain ⟨a, alt⟩ := x; simp [h]; grind

theorem fails_mapWithSpan {f : α → Sp O → β} {p : P O α} {eoi s} :
    Fails (mapWithSpan f p) eoi s ↔ Fails p eoi s := by
  unfold Fails mapWithSpan
  cases h : (p eoi s).out <;> simp [h]

theorem failsC_mapWithSpan {f : α → Sp O → β} {p : P O α} {eoi s} :
    FailsC (mapWithSpan f p) eoi s ↔ FailsC p eoi s := by
  unfold FailsC mapWithSpan
  cases h : (p eoi s).out <;> simp [h]

theorem ok_tryMap {f : α → Sp O → Except (PErr O) β} {p : P O α} {eoi s b t} :
    Ok (tryMap f p) eoi s b t ↔ ∃ a, Ok p eoi s a t ∧ f a (spanSince eoi s t) = .ok b := by
  unfold Ok tryMap
  cases h : (p eoi s).out with
  | error e => simp [h]
  | ok x =>
    obtain ⟨a, alt⟩ := x
    cases h2 : f a (spanSince eoi s (p eoi s).rest) <;> simp [h, h2] <;> grind

theorem fails_tryMap {f : α → Sp O → Except (PErr O) β} {p : P O α} {eoi s} :
    Fails (tryMap f p) eoi s ↔ Fails p eoi s ∨
      ∃ a alt e, (p eoi s).out = .ok (a, alt) ∧ f a (spanSince eoi s (p eoi s).rest) = .error e := by
  unfold Fails tryMap
  cases h : (p eoi s).out with
  | error e => simp [h]
  | ok x =>
    obtain ⟨a, alt⟩ := x
    cases h2 : f a (spanSince eoi s (p eoi s).rest) <;> simp [h, h2]

theorem failsC_tryMap_of {f : α → Sp O → Except (PErr O) β} {p : P O α} {eoi s}
    (h : FailsC p eoi s) : FailsC (tryMap f p) eoi s := by
  obtain ⟨h1, e, h2⟩ := h
  exact ⟨by simp [tryMap, h1], e, by simp [tryMap, h2]⟩

theorem failsC_tryMap_err {f : α → Sp O → Except (PErr O) β} {p : P O α} {eoi s a t e}
    (h : Ok p eoi s a t) (he : f a (spanSince eoi s t) = .error e) : FailsC (tryMap f p) eoi s := by
  obtain ⟨h1, ⟨alt, h2⟩, h3⟩ := h
  subst h3
  exact ⟨by simp [tryMap, h1], ⟨(p eoi s).rest.length, e⟩, by simp [tryMap, h2, he]⟩

theorem ok_validate {f : α → Sp O → List (PErr O)} {p : P O α} {eoi s a t} :
    Ok (validate f p) eoi s a t ↔ Ok p eoi s a t ∧ f a (spanSince eoi s t) = [] := by
  unfold Ok validate
  cases h : (p eoi s).out with
  | error e => simp [h]
  | ok x => obtain ⟨a', alt⟩ := x; simp [h]; grind

theorem fails_validate {f : α → Sp O → List (PErr O)} {p : P O α} {eoi s} :
    Fails (validate f p) eoi s ↔ Fails p eoi s := by
  unfold Fails validate
  cases h : (p eoi s).out <;> simp [h]

theorem failsC_validate {f : α → Sp O → List (PErr O)} {p : P O α} {eoi s} :
    FailsC (validate f p) eoi s ↔ FailsC p eoi s := by
  unfold FailsC validate
  cases h : (p eoi s).out <;> simp [h]

/-! ### Sequencing -/

theorem ok_bind {p : P O α} {f : α → P O β} {eoi s b u} :
    Ok (bind p f) eoi s b u ↔ ∃ a t, Ok p eoi s a t ∧ Ok (f a) eoi t b u := by
  unfold Ok bind
  cases h : (p eoi s).out with
  | error e => simp [h]
  | ok x =>
    obtain ⟨a, alt⟩ := x
    cases h2 : (f a eoi (p eoi s).rest).out with
    | error e => simp [h, h2]
    | ok y => obtain ⟨b', alt'⟩ := y; simp [h, h2]; grind

theorem fails_bind_left {p : P O α} {f : α → P O β} {eoi s} (h : Fails p eoi s) :
    Fails (bind p f) eoi s := by
  obtain ⟨e, h⟩ := h
  exact ⟨e, by simp [bind, h]⟩

theorem failsC_bind_left {p : P O α} {f : α → P O β} {eoi s} (h : FailsC p eoi s) :
    FailsC (bind p f) eoi s := by
  obtain ⟨h1, e, h⟩ := h
  exact ⟨by simp [bind, h, h1], e, by simp [bind, h]⟩

theorem fails_bind_right {p : P O α} {f : α → P O β} {eoi s a t} (h : Ok p eoi s a t)
    (h2 : Fails (f a) eoi t) : Fails (bind p f) eoi s := by
  obtain ⟨_, ⟨alt, ha⟩, hr⟩ := h
  obtain ⟨e, he⟩ := h2
  subst hr
  exact ⟨e.maxO alt, by simp [bind, ha, he]⟩

theorem failsC_bind_right {p : P O α} {f : α → P O β} {eoi s a t} (h : Ok p eoi s a t)
    (h2 : FailsC (f a) eoi t) : FailsC (bind p f) eoi s := by
  obtain ⟨h0, ⟨alt, ha⟩, hr⟩ := h
  obtain ⟨h1, e, he⟩ := h2
  subst hr
  exact ⟨by simp [bind, ha, he, h0, h1], e.maxO alt, by simp [bind, ha, he]⟩

theorem ok_seq {p : P O α} {q : P O β} {eoi s x u} :
    Ok (seq p q) eoi s x u ↔ ∃ t, Ok p eoi s x.1 t ∧ Ok q eoi t x.2 u := by
  simp only [seq, ok_bind, ok_pmap]
  constructor
  · rintro ⟨a, t, h1, b, h2, rfl⟩; exact ⟨t, h1, h2⟩
  · rintro ⟨t, h1, h2⟩; exact ⟨x.1, t, h1, x.2, h2, rfl⟩

theorem fails_seq_left {p : P O α} {q : P O β} {eoi s} (h : Fails p eoi s) : Fails (seq p q) eoi s :=
  fails_bind_left h
theorem failsC_seq_left {p : P O α} {q : P O β} {eoi s} (h : FailsC p eoi s) : FailsC (seq p q) eoi s :=
  failsC_bind_left h
theorem fails_seq_right {p : P O α} {q : P O β} {eoi s a t} (h : Ok p eoi s a t) (h2 : Fails q eoi t) :
    Fails (seq p q) eoi s := fails_bind_right h (fails_pmap.2 h2)
theorem failsC_seq_right {p : P O α} {q : P O β} {eoi s a t} (h : Ok p eoi s a t) (h2 : FailsC q eoi t) :
    FailsC (seq p q) eoi s := failsC_bind_right h (failsC_pmap.2 h2)

theorem ok_ignoreThen {p : P O α} {q : P O β} {eoi s b u} :
    Ok (ignoreThen p q) eoi s b u ↔ ∃ a t, Ok p eoi s a t ∧ Ok q eoi t b u := by
  simp [ignoreThen, ok_bind]

theorem fails_ignoreThen_left {p : P O α} {q : P O β} {eoi s} (h : Fails p eoi s) :
    Fails (ignoreThen p q) eoi s := fails_bind_left h
theorem failsC_ignoreThen_left {p : P O α} {q : P O β} {eoi s} (h : FailsC p eoi s) :
    FailsC (ignoreThen p q) eoi s := failsC_bind_left h
theorem fails_ignoreThen_right {p : P O α} {q : P O β} {eoi s a t} (h : Ok p eoi s a t)
    (h2 : Fails q eoi t) : Fails (ignoreThen p q) eoi s := fails_bind_right h h2
theorem failsC_ignoreThen_right {p : P O α} {q : P O β} {eoi s a t} (h : Ok p eoi s a t)
    (h2 : FailsC q eoi t) : FailsC (ignoreThen p q) eoi s := failsC_bind_right h h2

theorem ok_thenIgnore {p : P O α} {q : P O β} {eoi s a u} :
    Ok (thenIgnore p q) eoi s a u ↔ ∃ t b, Ok p eoi s a t ∧ Ok q eoi t b u := by
  simp only [thenIgnore, ok_bind, ok_pmap]
  constructor
  · rintro ⟨a', t, h1, b, h2, rfl⟩; exact ⟨t, b, h1, h2⟩
  · rintro ⟨t, b, h1, h2⟩; exact ⟨a, t, h1, b, h2, rfl⟩

theorem fails_thenIgnore_left {p : P O α} {q : P O β} {eoi s} (h : Fails p eoi s) :
    Fails (thenIgnore p q) eoi s := fails_bind_left h
theorem failsC_thenIgnore_left {p : P O α} {q : P O β} {eoi s} (h : FailsC p eoi s) :
    FailsC (thenIgnore p q) eoi s := failsC_bind_left h
theorem fails_thenIgnore_right {p : P O α} {q : P O β} {eoi s a t} (h : Ok p eoi s a t)
    (h2 : Fails q eoi t) : Fails (thenIgnore p q) eoi s := fails_bind_right h (fails_pmap.2 h2)
theorem failsC_thenIgnore_right {p : P O α} {q : P O β} {eoi s a t} (h : Ok p eoi s a t)
    (h2 : FailsC q eoi t) : FailsC (thenIgnore p q) eoi s := failsC_bind_right h (failsC_pmap.2 h2)

theorem ok_delimitedBy {p : P O α} {l : P O β} {r : P O γ} {eoi s a u} :
    Ok (delimitedBy p l r) eoi s a u ↔
      ∃ b t c t', Ok l eoi s b t ∧ Ok p eoi t a t' ∧ Ok r eoi t' c u := by
  simp only [delimitedBy, ok_thenIgnore, ok_ignoreThen]
  grind

/-! ### Alternatives -/

theorem clean_iff {r : PRes O α} : r.clean = true ↔ r.errs = [] ∧ ∃ x, r.out = .ok x := by
  unfold PRes.clean
  cases h : r.out <;> simp [h]

theorem clean_iff_ok {p : P O α} {eoi s} :
    (p eoi s).clean = true ↔ ∃ a t, Ok p eoi s a t := by
  rw [clean_iff]
  constructor
  · rintro ⟨h1, ⟨a, alt⟩, h2⟩; exact ⟨a, _, h1, ⟨alt, h2⟩, rfl⟩
  · rintro ⟨a, t, h1, ⟨alt, h2⟩, _⟩; exact ⟨h1, _, h2⟩

theorem takeA_errs (a b : PRes O α) : (takeA a b).errs = a.errs := by
  unfold takeA; split <;> rfl

theorem takeA_out_ok (a b : PRes O α) : (∃ x, (takeA a b).out = .ok x) ↔ ∃ x, a.out = .ok x := by
  unfold takeA; split <;> simp_all

theorem takeA_out_err (a b : PRes O α) : (∃ x, (takeA a b).out = .error x) ↔ ∃ x, a.out = .error x := by
  unfold takeA; split <;> simp_all

theorem ok_orP {p q : P O α} {eoi s a t} :
    Ok (orP p q) eoi s a t ↔
      Ok p eoi s a t ∨ ((∀ a t, ¬ Ok p eoi s a t) ∧ Ok q eoi s a t) := by
  by_cases hp : (p eoi s).clean = true
  · have h1 : Ok (orP p q) eoi s a t ↔ Ok p eoi s a t := by
      unfold Ok orP; simp [hp]
    rw [h1]
    rw [clean_iff_ok] at hp
    obtain ⟨a', t', hp⟩ := hp
    constructor
    · exact Or.inl
    · rintro (h | ⟨h, _⟩)
      · exact h
      · exact absurd hp (h _ _)
  · have hnp : ∀ a t, ¬ Ok p eoi s a t := by
      intro a t h; exact hp (clean_iff_ok.2 ⟨a, t, h⟩)
    have hnp' : ¬ Ok p eoi s a t := hnp _ _
    simp only [hnp', false_or, hnp, not_false_eq_true, implies_true, true_and]
    by_cases hq : (q eoi s).clean = true
    · obtain ⟨hq1, ⟨x, alt⟩, hq2⟩ := clean_iff.1 hq
      unfold Ok orP
      simp [hp, hq, hq2, hq1]
    · have hnq : ¬ Ok q eoi s a t := by
        intro h; exact hq (clean_iff_ok.2 ⟨a, t, h⟩)
      simp only [hnq, iff_false]
      rintro ⟨h1, ⟨alt, h2⟩, _⟩
      unfold orP at h1 h2
      simp only [hp, hq, Bool.false_eq_true, ↓reduceIte] at h1 h2
      split at h1
      · rename_i hpre
        simp only [hpre, ↓reduceIte] at h2
        rw [takeA_errs] at h1
        exact hp (clean_iff.2 ⟨h1, (takeA_out_ok _ _).1 ⟨_, h2⟩⟩)
      · rename_i hpre
        simp only [hpre, Bool.false_eq_true, ↓reduceIte] at h2
        rw [takeA_errs] at h1
        exact hq (clean_iff.2 ⟨h1, (takeA_out_ok _ _).1 ⟨_, h2⟩⟩)

theorem ok_orP_left {p q : P O α} {eoi s a t} (h : Ok p eoi s a t) : Ok (orP p q) eoi s a t :=
  ok_orP.2 (Or.inl h)

theorem ok_orP_right {p q : P O α} {eoi s a t} (h : Fails p eoi s) (h2 : Ok q eoi s a t) :
    Ok (orP p q) eoi s a t :=
  ok_orP.2 (Or.inr ⟨fun _ _ h' => h'.not_fails h, h2⟩)

theorem preferA_cases {a b : PRes O α} {e} (ha : a.out = .error e) :
    preferA a b = false ∨ ∃ e', b.out = .error e' := by
  cases hb : b.out with
  | error e' => right; exact ⟨e', rfl⟩
  | ok x => left; simp [preferA, ha, hb]

theorem fails_orP {p q : P O α} {eoi s} :
    Fails (orP p q) eoi s ↔ Fails p eoi s ∧ Fails q eoi s := by
  constructor
  · rintro ⟨e, he⟩
    unfold orP at he
    by_cases hp : (p eoi s).clean = true
    · simp only [hp, ↓reduceIte] at he
      obtain ⟨_, x, h⟩ := clean_iff.1 hp
      rw [h] at he; simp at he
    · simp only [hp, Bool.false_eq_true, ↓reduceIte] at he
      by_cases hq : (q eoi s).clean = true
      · obtain ⟨_, x, h⟩ := clean_iff.1 hq
        simp [hq, h] at he
      · simp only [hq, Bool.false_eq_true, ↓reduceIte] at he
        cases ha : (p eoi s).out with
        | ok x =>
          cases hb : (q eoi s).out with
          | ok y =>
            split at he
            · obtain ⟨e', h⟩ := (takeA_out_err _ _).1 ⟨_, he⟩
              rw [ha] at h; simp at h
            · obtain ⟨e', h⟩ := (takeA_out_err _ _).1 ⟨_, he⟩
              rw [hb] at h; simp at h
          | error y =>
            have : preferA (p eoi s) (q eoi s) = true := by simp [preferA, ha, hb]
            simp only [this, ↓reduceIte] at he
            obtain ⟨e', h⟩ := (takeA_out_err _ _).1 ⟨_, he⟩
            rw [ha] at h; simp at h
        | error x =>
          cases hb : (q eoi s).out with
          | ok y =>
            have : preferA (p eoi s) (q eoi s) = false := by simp [preferA, ha, hb]
            simp only [this, Bool.false_eq_true, ↓reduceIte] at he
            obtain ⟨e', h⟩ := (takeA_out_err _ _).1 ⟨_, he⟩
            rw [hb] at h; simp at h
          | error y => exact ⟨⟨x, ha⟩, ⟨y, hb⟩⟩
  · rintro ⟨⟨e1, h1⟩, ⟨e2, h2⟩⟩
    have hp : (p eoi s).clean = false := by
      cases h : (p eoi s).clean with
      | false => rfl
      | true => obtain ⟨_, x, h⟩ := clean_iff.1 h; rw [h1] at h; simp at h
    have hq : (q eoi s).clean = false := by
      cases h : (q eoi s).clean with
      | false => rfl
      | true => obtain ⟨_, x, h⟩ := clean_iff.1 h; rw [h2] at h; simp at h
    unfold Fails orP
    simp only [hp, hq, Bool.false_eq_true, ↓reduceIte]
    split
    · exact (takeA_out_err _ _).2 ⟨_, h1⟩
    · exact (takeA_out_err _ _).2 ⟨_, h2⟩

theorem failsC_orP {p q : P O α} {eoi s} (h1 : FailsC p eoi s) (h2 : FailsC q eoi s) :
    FailsC (orP p q) eoi s := by
  refine ⟨?_, fails_orP.2 ⟨h1.fails, h2.fails⟩⟩
  unfold orP
  simp only
  split
  · exact h1.1
  · split
    · split
      · rfl
      · exact h2.1
    · split
      · rw [takeA_errs]; exact h1.1
      · rw [takeA_errs]; exact h2.1

theorem choiceGo_indep (ps : List (P O α)) (alt alt' : Option (Loc O)) (pan pan' : Bool) {eoi s a t}
    (h : Ok (choiceGo alt pan ps) eoi s a t) : Ok (choiceGo alt' pan' ps) eoi s a t := by
  induction ps generalizing alt alt' pan pan' with
  | nil =>
    obtain ⟨_, ⟨x, h⟩, _⟩ := h
    cases alt <;> simp [choiceGo] at h
  | cons p ps ih =>
    cases hp : (p eoi s).out with
    | ok x => simpa [Ok, choiceGo, hp] using h
    | error e =>
      have h' : Ok (choiceGo (mergeAlts alt (some e))
        (pan || (p eoi s).panicked || clashAlts alt (some e)) ps) eoi s a t := by
        simpa [Ok, choiceGo, hp] using h
      have := ih _ (mergeAlts alt' (some e)) _
        (pan' || (p eoi s).panicked || clashAlts alt' (some e)) h'
      simpa [Ok, choiceGo, hp] using this

theorem choiceGo_fails (ps : List (P O α)) (alt : Option (Loc O)) (pan : Bool) {eoi s} :
    FailsC (choiceGo alt pan ps) eoi s ↔ ∀ p ∈ ps, Fails p eoi s := by
  induction ps generalizing alt pan with
  | nil => cases alt <;> simp [FailsC, choiceGo]
  | cons p ps ih =>
    cases hp : (p eoi s).out with
    | ok x => simp [FailsC, choiceGo, hp, Fails]
    | error e =>
      have : FailsC (choiceGo alt pan (p :: ps)) eoi s ↔ FailsC (choiceGo (mergeAlts alt (some e))
        (pan || (p eoi s).panicked || clashAlts alt (some e)) ps) eoi s := by
        simp [FailsC, choiceGo, hp]
      rw [this, ih]
      simp [Fails, hp]

@[simp] theorem ok_choice_nil {eoi : Sp O} {s a t} : ¬ Ok (choice ([] : List (P O α))) eoi s a t := by
  simp [Ok, choice, choiceGo]

theorem ok_choice_cons {p : P O α} {ps : List (P O α)} {eoi s a t} :
    Ok (choice (p :: ps)) eoi s a t ↔
      Ok p eoi s a t ∨ (Fails p eoi s ∧ Ok (choice ps) eoi s a t) := by
  cases hp : (p eoi s).out with
  | ok x => simp [Ok, choice, choiceGo, hp, Fails]
  | error e =>
    have h1 : Ok (choice (p :: ps)) eoi s a t ↔ Ok (choiceGo (mergeAlts none (some e))
        (false || (p eoi s).panicked || clashAlts none (some e)) ps) eoi s a t := by
      simp [Ok, choice, choiceGo, hp]
    have h2 : ¬ Ok p eoi s a t := fun h => h.not_fails ⟨e, hp⟩
    have h3 : Fails p eoi s := ⟨e, hp⟩
    simp only [h1, h2, h3, false_or, true_and]
    constructor
    · exact choiceGo_indep _ _ _ _ _
    · exact choiceGo_indep _ _ _ _ _

theorem failsC_choice {ps : List (P O α)} {eoi s} :
    FailsC (choice ps) eoi s ↔ ∀ p ∈ ps, Fails p eoi s := choiceGo_fails _ _ _

theorem fails_choiceGo (ps : List (P O α)) (alt : Option (Loc O)) (pan : Bool) {eoi s} :
    Fails (choiceGo alt pan ps) eoi s ↔ ∀ p ∈ ps, Fails p eoi s := by
  induction ps generalizing alt pan with
  | nil => cases alt <;> simp [Fails, choiceGo]
  | cons p ps ih =>
    cases hp : (p eoi s).out with
    | ok x => simp [choiceGo, hp, Fails]
    | error e =>
      have : Fails (choiceGo alt pan (p :: ps)) eoi s ↔ Fails (choiceGo (mergeAlts alt (some e))
        (pan || (p eoi s).panicked || clashAlts alt (some e)) ps) eoi s := by
        simp [Fails, choiceGo, hp]
      rw [this, ih]
      simp [Fails, hp]

theorem fails_choice {ps : List (P O α)} {eoi s} :
    Fails (choice ps) eoi s ↔ ∀ p ∈ ps, Fails p eoi s := fails_choiceGo _ _ _

/-! ### Optional parsers and look-ahead -/

theorem ok_orNot {p : P O α} {eoi s x t} :
    Ok (orNot p) eoi s x t ↔
      (∃ a, x = some a ∧ Ok p eoi s a t) ∨ (x = none ∧ t = s ∧ Fails p eoi s) := by
  cases hp : (p eoi s).out with
  | ok y =>
    obtain ⟨a, alt⟩ := y
    simp only [Ok, orNot, hp, Fails]
    constructor
    · rintro ⟨h1, ⟨alt', h2⟩, h3⟩
      simp only [Except.ok.injEq, Prod.mk.injEq] at h2
      exact Or.inl ⟨a, h2.1.symm, h1, ⟨alt, rfl⟩, h3⟩
    · rintro (⟨a', rfl, h1, ⟨alt', h2⟩, h3⟩ | ⟨_, _, e, h⟩)
      · simp only [Except.ok.injEq, Prod.mk.injEq] at h2
        exact ⟨h1, ⟨alt, by rw [h2.1]⟩, h3⟩
      · simp at h
  | error e =>
    simp [Ok, orNot, hp, Fails]
    grind

theorem not_fails_orNot {p : P O α} {eoi s} : ¬ Fails (orNot p) eoi s := by
  cases hp : (p eoi s).out <;> simp [Fails, orNot, hp]

theorem ok_rewind {p : P O α} {eoi s a t} :
    Ok (rewind p) eoi s a t ↔ t = s ∧ ∃ u, Ok p eoi s a u := by
  cases hp : (p eoi s).out <;> simp [Ok, rewind, hp]
  grind

theorem fails_rewind {p : P O α} {eoi s} : Fails (rewind p) eoi s ↔ Fails p eoi s := by
  cases hp : (p eoi s).out <;> simp [Fails, rewind, hp]

theorem failsC_rewind {p : P O α} {eoi s} : FailsC (rewind p) eoi s ↔ FailsC p eoi s := by
  cases hp : (p eoi s).out <;> simp [FailsC, rewind, hp]

theorem ok_recoverSkipUntil {u : List Char} {fb : α} {p : P O α} {eoi s a t} :
    Ok (recoverSkipUntil u fb p) eoi s a t ↔ Ok p eoi s a t := by
  cases hp : (p eoi s).out with
  | ok y => simp [Ok, recoverSkipUntil, hp]
  | error e =>
    cases hs : skipTo u s <;> simp [Ok, recoverSkipUntil, hp, hs]

theorem failsC_recoverSkipUntil {u : List Char} {fb : α} {p : P O α} {eoi s}
    (h : FailsC p eoi s) (hs : skipTo u s = none) : FailsC (recoverSkipUntil u fb p) eoi s := by
  obtain ⟨h1, e, h2⟩ := h
  simp [FailsC, recoverSkipUntil, h2, hs, h1]

/-! ### Repetition -/

/-- `p` succeeds cleanly a number of times in a row, consuming each time. -/
inductive Reps (p : P O α) (eoi : Sp O) : List (Tok O) → List α → List (Tok O) → Prop
  | nil (s) : Reps p eoi s [] s
  | cons {s a t as u} : Ok p eoi s a t → t.length < s.length → Reps p eoi t as u →
      Reps p eoi s (a :: as) u

theorem Reps.append {p : P O α} {eoi s as t bs u} (h : Reps p eoi s as t) (h' : Reps p eoi t bs u) :
    Reps p eoi s (as ++ bs) u := by
  induction h with
  | nil => exact h'
  | cons h1 h2 _ ih => exact .cons h1 h2 (ih h')

theorem Reps.length_le {p : P O α} {eoi s as t} (h : Reps p eoi s as t) : t.length ≤ s.length := by
  induction h with
  | nil => exact Nat.le_refl _
  | cons _ h2 _ ih => omega

/-- Every success (with or without emitted errors) consumes input. -/
def Consumes (p : P O α) : Prop :=
  ∀ eoi s x, (p eoi s).out = .ok x → (p eoi s).rest.length < s.length

theorem Consumes.ok {p : P O α} (h : Consumes p) {eoi s a t} (ho : Ok p eoi s a t) :
    t.length < s.length := by
  obtain ⟨_, ⟨_, h2⟩, rfl⟩ := ho
  exact h _ _ _ h2

theorem repGo_ok {p : P O α} (hc : Consumes p) {mn mx eoi} : ∀ (fuel : Nat) {outs errs alt pan s r},
    s.length < fuel → r = repGo p mn mx eoi fuel outs errs alt pan s →
    r.errs = [] → ∀ {as alt'}, r.out = .ok (as, alt') →
    errs = [] ∧ ∃ as', as = outs ++ as' ∧ Reps p eoi s as' r.rest ∧
      (mx = some as.length ∨ (mn ≤ as.length ∧ Fails p eoi r.rest)) := by
  intro fuel
  induction fuel with
  | zero => intro _ _ _ _ s _ h; omega
  | succ fuel ih =>
    intro outs errs alt pan s r hl hr herr as alt' hout
    rw [repGo] at hr
    by_cases hmx : mx = some outs.length
    · simp only [hmx, ↓reduceIte] at hr
      subst hr
      simp only [Except.ok.injEq, Prod.mk.injEq] at hout herr
      refine ⟨herr, [], by simp [hout.1], .nil _, ?_⟩
      left; rw [hmx, hout.1]
    · simp only [hmx, ↓reduceIte] at hr
      cases hp : (p eoi s).out with
      | error e =>
        simp only [hp] at hr
        by_cases hm : outs.length < mn
        · simp only [hm, ↓reduceIte] at hr
          subst hr; simp at hout
        · simp only [hm, ↓reduceIte] at hr
          subst hr
          simp only [Except.ok.injEq, Prod.mk.injEq] at hout herr
          refine ⟨herr, [], by simp [hout.1], .nil _, ?_⟩
          right; exact ⟨by rw [← hout.1]; omega, e, hp⟩
      | ok x =>
        obtain ⟨a, aalt⟩ := x
        simp only [hp] at hr
        by_cases hlt : (p eoi s).rest.length < s.length
        · simp only [hlt, ↓reduceIte] at hr
          obtain ⟨h1, as', h2, h3, h4⟩ := ih (by omega) hr herr hout
          have he : errs = [] ∧ (p eoi s).errs = [] := by simpa using h1
          refine ⟨he.1, a :: as', by simp [h2], .cons ⟨he.2, ⟨_, hp⟩, rfl⟩ hlt h3, h4⟩
        · simp only [hlt, ↓reduceIte] at hr
          subst hr
          exact absurd (hc _ _ _ hp) hlt

theorem repGo_reps {p : P O α} {mn mx eoi} : ∀ (fuel : Nat) {outs alt pan s as t},
    s.length < fuel → Reps p eoi s as t →
    (∀ m, mx = some m → outs.length + as.length ≤ m) →
    (mx = some (outs.length + as.length) ∨ (mn ≤ outs.length + as.length ∧ Fails p eoi t)) →
    (repGo p mn mx eoi fuel outs [] alt pan s).errs = [] ∧
    (∃ alt', (repGo p mn mx eoi fuel outs [] alt pan s).out = .ok (outs ++ as, alt')) ∧
    (repGo p mn mx eoi fuel outs [] alt pan s).rest = t := by
  intro fuel
  induction fuel with
  | zero => intro _ _ _ s _ _ h; omega
  | succ fuel ih =>
    intro outs alt pan s as t hl hr hm he
    rw [repGo]
    cases hr with
    | nil =>
      by_cases hmx : mx = some outs.length
      · simp [hmx]
      · simp only [hmx, ↓reduceIte]
        rcases he with he | ⟨hmn, e, he⟩
        · simp [hmx] at he
        · have : ¬ outs.length < mn := by simpa using hmn
          simp [he, this]
    | @cons _ a u as' _ h1 h2 h3 =>
      have hmx : mx ≠ some outs.length := by
        intro h; have := hm _ h; simp at this; omega
      obtain ⟨h1a, ⟨alt', h1b⟩, h1c⟩ := h1
      subst h1c
      simp only [hmx, ↓reduceIte, h1b, h2, h1a, List.append_nil]
      have := ih (outs := outs ++ [a]) (alt := mergeAlts alt alt')
        (pan := pan || (p eoi s).panicked || clashAlts alt alt') (by omega) h3
        (by intro m h; have := hm m h; simp at this ⊢; omega)
        (by
          rcases he with he | ⟨he, hf⟩
          · left; rw [he]; simp; omega
          · right; exact ⟨by simp at he ⊢; omega, hf⟩)
      simpa using this

theorem ok_repeatedB {p : P O α} (hc : Consumes p) {mn mx eoi s as t} :
    Ok (repeatedB mn mx p) eoi s as t → Reps p eoi s as t ∧
      (mx = some as.length ∨ (mn ≤ as.length ∧ Fails p eoi t)) := by
  rintro ⟨h1, ⟨alt, h2⟩, h3⟩
  obtain ⟨_, as', h4, h5, h6⟩ := repGo_ok hc (s.length + 1) (Nat.lt_succ_self _) rfl h1 h2
  simp only [List.nil_append] at h4
  subst h4
  unfold repeatedB at h3
  rw [h3] at h5 h6
  exact ⟨h5, h6⟩

theorem ok_repeatedB_of {p : P O α} {mn mx eoi s as t} (h : Reps p eoi s as t)
    (hm : ∀ m, mx = some m → as.length ≤ m)
    (he : mx = some as.length ∨ (mn ≤ as.length ∧ Fails p eoi t)) :
    Ok (repeatedB mn mx p) eoi s as t := by
  have := repGo_reps (outs := []) (alt := none) (pan := false) (mn := mn) (mx := mx)
    (s.length + 1) (Nat.lt_succ_self _) h
    (by simpa using hm) (by simpa using he)
  simpa [Ok, repeatedB] using this

theorem ok_repeated {p : P O α} (hc : Consumes p) {eoi s as t} :
    Ok (repeated p) eoi s as t ↔ Reps p eoi s as t ∧ Fails p eoi t := by
  constructor
  · intro h
    have := ok_repeatedB hc h
    simpa using this
  · rintro ⟨h1, h2⟩
    exact ok_repeatedB_of h1 (by simp) (by simp [h2])

/-- A repetition whose element fails at the start, with fewer than the required
number of elements. -/
theorem failsC_repeatedB {p : P O α} {mn mx eoi s} (hmn : 0 < mn) (hmx : mx ≠ some 0)
    (h : FailsC p eoi s) : FailsC (repeatedB mn mx p) eoi s := by
  obtain ⟨h1, e, h2⟩ := h
  simp [FailsC, repeatedB, repGo, hmx, h2, hmn, h1]

theorem fails_repeatedB {p : P O α} {mn mx eoi s} (hmn : 0 < mn) (hmx : mx ≠ some 0)
    (h : Fails p eoi s) : Fails (repeatedB mn mx p) eoi s := by
  obtain ⟨e, h2⟩ := h
  simp [Fails, repeatedB, repGo, hmx, h2, hmn]

/-- Repetition stopped before the minimum is reached. -/
theorem repGo_fails {p : P O α} {mn mx eoi} : ∀ (fuel : Nat) {outs alt pan s as t},
    s.length < fuel → Reps p eoi s as t →
    (∀ m, mx = some m → outs.length + as.length < m) →
    outs.length + as.length < mn → Fails p eoi t →
    (∃ e, (repGo p mn mx eoi fuel outs [] alt pan s).out = .error e) := by
  intro fuel
  induction fuel with
  | zero => intro _ _ _ s _ _ h; omega
  | succ fuel ih =>
    intro outs alt pan s as t hl hr hm hmn he
    rw [repGo]
    cases hr with
    | nil =>
      have hmx : mx ≠ some outs.length := by
        intro h; have := hm _ h; simp at this
      obtain ⟨e, he⟩ := he
      have : outs.length < mn := by simpa using hmn
      simp [hmx, he, this]
    | @cons _ a u as' _ h1 h2 h3 =>
      have hmx : mx ≠ some outs.length := by
        intro h; have := hm _ h; simp at this; omega
      obtain ⟨h1a, ⟨alt', h1b⟩, h1c⟩ := h1
      subst h1c
      simp only [hmx, ↓reduceIte, h1b, h2, h1a, List.append_nil]
      exact ih (outs := outs ++ [a]) (by omega) h3
        (by intro m h; have := hm m h; simp at this ⊢; omega)
        (by simp at hmn ⊢; omega) he

theorem fails_repeatedB_of {p : P O α} {mn mx eoi s as t} (h : Reps p eoi s as t)
    (hm : ∀ m, mx = some m → as.length < m) (hmn : as.length < mn) (he : Fails p eoi t) :
    Fails (repeatedB mn mx p) eoi s :=
  repGo_fails (s.length + 1) (Nat.lt_succ_self _) h (by simpa using hm) (by simpa using hmn) he

theorem repGo_not_fails {p : P O α} {mx eoi} : ∀ (fuel : Nat) {outs errs alt pan s e},
    (repGo p 0 mx eoi fuel outs errs alt pan s).out ≠ .error e := by
  intro fuel
  induction fuel with
  | zero => intro _ _ _ _ s e h; simp [repGo] at h
  | succ fuel ih =>
    intro outs errs alt pan s e
    rw [repGo]
    split
    · simp
    · cases hp : (p eoi s).out with
      | error e' => simp [hp]
      | ok x =>
        obtain ⟨a, aalt⟩ := x
        simp only [hp]
        split
        · exact ih
        · simp

theorem not_fails_repeated {p : P O α} {eoi s} : ¬ Fails (repeated p) eoi s := by
  rintro ⟨e, h⟩
  exact repGo_not_fails _ h

/-! ### `take_until` -/

theorem takeUntilGo_ok {p : P O β} {eoi} : ∀ (fuel : Nat) {outs alt pan s cs b t},
    s.length < fuel →
    (((takeUntilGo p eoi fuel outs alt pan s).errs = [] ∧
      (∃ alt', (takeUntilGo p eoi fuel outs alt pan s).out = .ok ((cs, b), alt')) ∧
      (takeUntilGo p eoi fuel outs alt pan s).rest = t) ↔
    ∃ pre mid, s = pre ++ mid ∧ cs = outs ++ chars pre ∧ Ok p eoi mid b t ∧
      (∀ a x c, pre = a ++ x :: c → Fails p eoi (x :: c ++ mid))) := by
  intro fuel
  induction fuel with
  | zero => intro _ _ _ s _ _ _ h; omega
  | succ fuel ih =>
    intro outs alt pan s cs b t hl
    rw [takeUntilGo]
    cases hp : (p eoi s).out with
    | ok x =>
      obtain ⟨b', alt'⟩ := x
      simp only [Except.ok.injEq, Prod.mk.injEq]
      constructor
      · rintro ⟨h1, ⟨_, ⟨h2, h2'⟩, h3⟩, h4⟩
        refine ⟨[], s, rfl, by simp [h2], ⟨h1, ⟨alt', by rw [hp, h2']⟩, h4⟩, by simp⟩
      · rintro ⟨pre, mid, rfl, rfl, h1, h2⟩
        cases pre with
        | nil =>
          obtain ⟨h1a, ⟨alt'', h1b⟩, h1c⟩ := h1
          simp only [List.nil_append] at hp h1a h1b h1c ⊢
          rw [hp] at h1b
          simp only [Except.ok.injEq, Prod.mk.injEq] at h1b
          refine ⟨h1a, ⟨_, ⟨by simp, h1b.1⟩, rfl⟩, h1c⟩
        | cons x pre =>
          obtain ⟨e, he⟩ := h2 [] x pre rfl
          simp only [List.cons_append] at hp he
          rw [hp] at he; simp at he
    | error e =>
      cases s with
      | nil =>
        simp only [reduceCtorEq, exists_false, false_and, and_false, false_iff]
        rintro ⟨pre, mid, h0, rfl, h1, h2⟩
        have : mid = [] := by
          have := congrArg List.length h0; simp at this; exact List.eq_nil_of_length_eq_zero (by omega)
        subst this
        exact h1.not_fails ⟨e, hp⟩
      | cons x s =>
        obtain ⟨c, sp⟩ := x
        simp only
        rw [ih (by simp at hl; omega)]
        constructor
        · rintro ⟨pre, mid, rfl, rfl, h1, h2⟩
          refine ⟨(c, sp) :: pre, mid, rfl, by simp, h1, ?_⟩
          intro a x c' h
          cases a with
          | nil =>
            simp only [List.nil_append, List.cons.injEq] at h
            obtain ⟨rfl, rfl⟩ := h
            exact ⟨e, hp⟩
          | cons y a =>
            simp only [List.cons_append, List.cons.injEq] at h
            exact h2 _ _ _ h.2
        · rintro ⟨pre, mid, h0, rfl, h1, h2⟩
          cases pre with
          | nil =>
            simp only [List.nil_append] at h0
            subst h0
            exact absurd ⟨e, hp⟩ h1.not_fails
          | cons y pre =>
            simp only [List.cons_append, List.cons.injEq] at h0
            obtain ⟨rfl, rfl⟩ := h0
            refine ⟨pre, mid, rfl, by simp, h1, ?_⟩
            intro a x c' h
            exact h2 ((c, sp) :: a) x c' (by simp [h])

/-- `take_until(p)` returns the characters before the first success of `p`. -/
theorem ok_takeUntil {p : P O β} {eoi s cs b t} :
    Ok (takeUntil p) eoi s (cs, b) t ↔
    ∃ pre mid, s = pre ++ mid ∧ cs = chars pre ∧ Ok p eoi mid b t ∧
      (∀ a x c, pre = a ++ x :: c → Fails p eoi (x :: c ++ mid)) := by
  have := takeUntilGo_ok (p := p) (eoi := eoi) (s.length + 1) (outs := []) (alt := none)
    (pan := false) (s := s) (cs := cs) (b := b) (t := t) (Nat.lt_succ_self _)
  simpa [Ok, takeUntil] using this

/-- `take_until(p)` fails if `p` fails everywhere. -/
theorem fails_takeUntil {p : P O β} {eoi} {s} (h : ∀ a b, s = a ++ b → Fails p eoi b) :
    Fails (takeUntil p) eoi s := by
  have key : ∀ (fuel : Nat) {outs alt pan s}, s.length < fuel →
      (∀ a b, s = a ++ b → Fails p eoi b) →
      ∃ e, (takeUntilGo p eoi fuel outs alt pan s).out = .error e := by
    intro fuel
    induction fuel with
    | zero => intro _ _ _ s h; omega
    | succ fuel ih =>
      intro outs alt pan s hl h
      rw [takeUntilGo]
      obtain ⟨e, he⟩ := h [] s rfl
      cases s with
      | nil => simp [he]
      | cons x s =>
        obtain ⟨c, sp⟩ := x
        simp only [he]
        exact ih (by simp at hl; omega) (fun a b hab => h ((c, sp) :: a) b (by simp [hab]))
  exact key _ (Nat.lt_succ_self _) h

/-! ### `separated_by` -/

/-- Items separated, preceded and followed by delimiters. -/
inductive SepReps (item : P O α) (delim : P O β) (eoi : Sp O) :
    List (Tok O) → List α → List (Tok O) → Prop
  | nil {s b t} : Ok delim eoi s b t → FailsC item eoi t → SepReps item delim eoi s [] t
  | cons {s b s1 a s2 as t} : Ok delim eoi s b s1 → Ok item eoi s1 a s2 → s2.length < s.length →
      SepReps item delim eoi s2 as t → SepReps item delim eoi s (a :: as) t

theorem sepDelim_ok {delim : P O β} {eoi alt s b t} (h : Ok delim eoi s b t) :
    (sepDelim delim eoi alt s).2.2 = t := by
  obtain ⟨h1, ⟨alt', h2⟩, h3⟩ := h
  simp [sepDelim, h2, h3]

theorem sepGo_ok {item : P O α} {delim : P O β} {eoi}
    (hd : ∀ s, ∃ b t, Ok delim eoi s b t ∧ t.length ≤ s.length) (hc : Consumes item) :
    ∀ (fuel : Nat) {outs errs alt pan s as t}, s.length < fuel →
    (((sepGo item delim eoi fuel outs errs alt pan s).2.1 = [] ∧
      (sepGo item delim eoi fuel outs errs alt pan s).1 = as ∧
      (∃ b, Ok delim eoi (sepGo item delim eoi fuel outs errs alt pan s).2.2.2.2.1 b t)) ↔
     (errs = [] ∧ ∃ as', as = outs ++ as' ∧ SepReps item delim eoi s as' t)) := by
  intro fuel
  induction fuel with
  | zero => intro _ _ _ _ s _ _ h; omega
  | succ fuel ih =>
    intro outs errs alt pan s as t hl
    rw [sepGo]
    obtain ⟨b, t1, hdo, hlen⟩ := hd s
    have hdo' := hdo
    obtain ⟨hd1, ⟨dalt, hd2⟩, hd3⟩ := hdo
    subst hd3
    simp only [hd2]
    cases hi : (item eoi (delim eoi s).rest).out with
    | error e =>
      simp only [hd1, List.append_nil, List.append_eq_nil_iff]
      constructor
      · rintro ⟨⟨h1, h2⟩, rfl, b', h3⟩
        have := (h3.unique hdo').2
        subst this
        exact ⟨h1, [], by simp, .nil h3 ⟨h2, e, hi⟩⟩
      · rintro ⟨rfl, as', rfl, h⟩
        cases h with
        | nil h1 h2 =>
          have := (h1.unique hdo').2
          subst this
          exact ⟨⟨rfl, h2.1⟩, by simp, _, h1⟩
        | cons h1 h2 =>
          have := (h1.unique hdo').2
          subst this
          exact absurd ⟨e, hi⟩ h2.not_fails
    | ok x =>
      obtain ⟨a, ialt⟩ := x
      simp only
      by_cases hlt : (item eoi (delim eoi s).rest).rest.length < s.length
      · simp only [hlt, ↓reduceIte]
        rw [ih (by omega)]
        simp only [hd1, List.append_nil, List.append_eq_nil_iff]
        constructor
        · rintro ⟨⟨h1, h2⟩, as', rfl, h3⟩
          exact ⟨h1, a :: as', by simp, .cons hdo' ⟨h2, ⟨_, hi⟩, rfl⟩ hlt h3⟩
        · rintro ⟨rfl, as', rfl, h⟩
          cases h with
          | nil h1 h2 =>
            have := (h1.unique hdo').2
            subst this
            obtain ⟨_, e, h2⟩ := h2
            rw [hi] at h2; simp at h2
          | @cons _ _ _ a' s2 as'' _ h1 h2 h3 h4 =>
            have := (h1.unique hdo').2
            subst this
            have h2' := h2
            obtain ⟨h2a, ⟨_, h2b⟩, h2c⟩ := h2
            rw [hi] at h2b
            simp only [Except.ok.injEq, Prod.mk.injEq] at h2b
            obtain ⟨rfl, _⟩ := h2b
            subst h2c
            exact ⟨⟨rfl, h2a⟩, as'', by simp, h4⟩
      · have := hc _ _ _ hi
        omega

theorem ok_separatedBy {item : P O α} {delim : P O β} {eoi}
    (hd : ∀ s, ∃ b t, Ok delim eoi s b t ∧ t.length ≤ s.length) (hc : Consumes item) {s as t} :
    Ok (separatedBy item delim) eoi s as t ↔ SepReps item delim eoi s as t := by
  obtain ⟨b, s0, hdo, hlen⟩ := hd s
  have h0 : ∀ alt, (sepDelim delim eoi alt s).2.2 = s0 := fun alt => sepDelim_ok hdo
  rcases hsd : sepDelim delim eoi none s with ⟨alt0, pan0, s0'⟩
  have : s0' = s0 := by have := h0 none; rw [hsd] at this; exact this
  subst this
  cases hi : (item eoi s0').out with
  | error e =>
    simp only [Ok, separatedBy, hsd, hi, Except.ok.injEq, Prod.mk.injEq]
    constructor
    · rintro ⟨h1, ⟨_, h2, _⟩, h3⟩
      subst h3; subst h2
      exact .nil hdo ⟨h1, e, hi⟩
    · intro h
      cases h with
      | nil h1 h2 =>
        have := (h1.unique hdo).2
        subst this
        exact ⟨h2.1, ⟨_, rfl, rfl⟩, rfl⟩
      | cons h1 h2 =>
        have := (h1.unique hdo).2
        subst this
        exact absurd ⟨e, hi⟩ h2.not_fails
  | ok x =>
    obtain ⟨a, ialt⟩ := x
    simp only [Ok, separatedBy, hsd, hi]
    have key := sepGo_ok hd hc ((item eoi s0').rest.length + 1) (outs := [a])
      (errs := (item eoi s0').errs)
      (alt := mergeAlts alt0 ialt) (pan := pan0 || (item eoi s0').panicked || clashAlts alt0 ialt)
      (s := (item eoi s0').rest) (as := as) (t := t) (Nat.lt_succ_self _)
    rcases hg : sepGo item delim eoi ((item eoi s0').rest.length + 1) [a] (item eoi s0').errs
      (mergeAlts alt0 ialt) (pan0 || (item eoi s0').panicked || clashAlts alt0 ialt)
      (item eoi s0').rest with ⟨outs, errs, alt, pan, s1, err⟩
    rw [hg] at key
    simp only at key
    rcases hsd2 : sepDelim delim eoi alt s1 with ⟨alt', pan', s2⟩
    simp only [Except.ok.injEq, Prod.mk.injEq]
    have hs2 : s2 = t ↔ ∃ b, Ok delim eoi s1 b t := by
      obtain ⟨b1, t1, hd1, _⟩ := hd s1
      have h2 : s2 = t1 := by have := sepDelim_ok (alt := alt) hd1; rw [hsd2] at this; exact this
      constructor
      · rintro rfl; subst h2; exact ⟨b1, hd1⟩
      · rintro ⟨b', h⟩; rw [h2]; exact (hd1.unique h).2
    have : (errs = [] ∧ (∃ alt_1, outs = as ∧ mergeAlts alt' err = alt_1) ∧ s2 = t) ↔
      (errs = [] ∧ outs = as ∧ ∃ b, Ok delim eoi s1 b t) := by
      rw [hs2]; simp
    rw [this, key]
    have hlt := hc _ _ _ hi
    constructor
    · rintro ⟨h1, as', rfl, h2⟩
      exact .cons hdo ⟨h1, ⟨_, hi⟩, rfl⟩ (by omega) h2
    · intro h
      cases h with
      | nil h1 h2 =>
        have := (h1.unique hdo).2
        subst this
        obtain ⟨_, e, h2⟩ := h2
        rw [hi] at h2; simp at h2
      | @cons _ _ _ a' s2 as'' _ h1 h2 h3 h4 =>
        have := (h1.unique hdo).2
        subst this
        obtain ⟨h2a, ⟨_, h2b⟩, h2c⟩ := h2
        rw [hi] at h2b
        simp only [Except.ok.injEq, Prod.mk.injEq] at h2b
        obtain ⟨rfl, _⟩ := h2b
        subst h2c
        exact ⟨h2a, as'', by simp, h4⟩

end Knuffel
