import Verif.Theory.Truth
import Verif.Theory.Position
/-!
# Two texts with the same beginning

The tokens `U ++ v` and `U ++ v'` are read side by side.  `Pair`: either the first run has
looked beyond `U` (`Touch`), or both runs do the same (`Same`).
-/

set_option linter.unusedSimpArgs false
set_option linter.unusedSectionVars false
set_option linter.unusedVariables false

namespace Knuffel

variable {O α β γ : Type}

/-! ### Errors are located in the input -/

/-- Errors of streams of at most `n` tokens are located in the last `n` tokens. -/
def lenWorld (eoi : Sp O) (n : Nat) : World O where
  eoi := eoi
  I s := s.length ≤ n
  Q l := l.rem ≤ n
  E l := l.rem ≤ n
  suf h t := Nat.le_trans t.length_le h
  eoiQ h := h
  chQ h := h
  exQ h := h
  EQ h := h

/-- The errors are located in the input. -/
def In (p : P O α) : Prop := ∀ eoi n, Tr (lenWorld eoi n) p

theorem In.suf {p : P O α} (h : In p) (eoi : Sp O) (s) : (p eoi s).rest <:+ s :=
  (h eoi s.length s (Nat.le_refl _)).suf

theorem In.err {p : P O α} (h : In p) {eoi : Sp O} {s e} (he : (p eoi s).out = .error e) : e.rem ≤ s.length :=
  trR_error (h eoi s.length s (Nat.le_refl _)) he

/-! ### The relation of two runs -/

/-- The optional error is located in the last `m` tokens. -/
def Al (m : Nat) (o : Option (Loc O)) : Prop := ∃ l, o = some l ∧ l.rem ≤ m

theorem al_some {m} {l : Loc O} : Al m (some l) ↔ l.rem ≤ m :=
  ⟨fun ⟨_, h, h2⟩ => by injection h with h; subst h; exact h2, fun h => ⟨l, rfl, h⟩⟩
theorem not_al_none {m} : ¬ Al m (none : Option (Loc O)) := fun ⟨_, h, _⟩ => by cases h

theorem max_le_left (a b : Loc O) : (a.max b).rem ≤ a.rem := by
  rcases Loc.max_rem a b with ⟨h, _⟩ | ⟨h, _⟩ <;> rw [h] <;> omega
theorem max_le_right (a b : Loc O) : (a.max b).rem ≤ b.rem := by
  rcases Loc.max_rem a b with ⟨h, _⟩ | ⟨h, _⟩ <;> rw [h] <;> omega

theorem maxO_le (a : Loc O) (o : Option (Loc O)) : (a.maxO o).rem ≤ a.rem := by
  cases o with
  | none => exact Nat.le_refl _
  | some b => exact max_le_left a b
theorem maxO_al {m} {a : Loc O} {o : Option (Loc O)} (h : Al m o) : (a.maxO o).rem ≤ m := by
  obtain ⟨l, rfl, h⟩ := h
  exact Nat.le_trans (max_le_right a l) h

theorem mergeAlts_left {m} {a b : Option (Loc O)} (h : Al m a) : Al m (mergeAlts a b) := by
  obtain ⟨l, rfl, h⟩ := h
  cases b with
  | none => exact al_some.2 h
  | some b => exact al_some.2 (Nat.le_trans (max_le_right b l) h)
theorem mergeAlts_right {m} {a b : Option (Loc O)} (h : Al m b) : Al m (mergeAlts a b) := by
  obtain ⟨l, rfl, h⟩ := h
  cases a with
  | none => exact al_some.2 h
  | some b => exact al_some.2 (Nat.le_trans (max_le_left l b) h)
theorem mergeAltsL_left {m} {b : List (Loc O)} : ∀ {a : Option (Loc O)}, Al m a → Al m (mergeAltsL a b) := by
  induction b with
  | nil => intro a h; exact h
  | cons x b ih => intro a h; exact ih (mergeAlts_left h)

/-- The run has looked at the last `m` tokens: an error is located there, or only (some of)
these remain. -/
def Touch (m : Nat) (r : PRes O α) : Prop :=
  Al m r.altOrErr ∨ ∃ x, r.out = .ok x ∧ r.rest.length ≤ m

theorem touch_ok {m pan errs} {a : α} {alt : Option (Loc O)} {t : List (Tok O)} :
    Touch m ⟨pan, errs, .ok (a, alt), t⟩ ↔ Al m alt ∨ t.length ≤ m := by
  simp [Touch, PRes.altOrErr]
theorem touch_error {m pan errs} {e : Loc O} {t : List (Tok O)} :
    Touch (α := α) m ⟨pan, errs, .error e, t⟩ ↔ e.rem ≤ m := by
  simp [Touch, PRes.altOrErr, al_some]

theorem touch_ok' {m} {r : PRes O α} {a alt} (h : r.out = .ok (a, alt)) : Touch m r ↔ Al m alt ∨ r.rest.length ≤ m := by
  simp [Touch, PRes.altOrErr, h]
theorem touch_error' {m} {r : PRes O α} {e} (h : r.out = .error e) : Touch m r ↔ e.rem ≤ m := by
  simp [Touch, PRes.altOrErr, h, al_some]

/-- Both runs succeed with the same value at the same place, or both fail. -/
def SameR (v v' : List (Tok O)) (r r' : PRes O α) : Prop :=
  (∃ a alt alt' w, r.out = .ok (a, alt) ∧ r'.out = .ok (a, alt') ∧ r.rest = w ++ v ∧ r'.rest = w ++ v') ∨
  ((∃ e, r.out = .error e) ∧ ∃ e, r'.out = .error e)

/-- The first run has looked beyond the common part, or both do the same. -/
def Pair (v v' : List (Tok O)) (r r' : PRes O α) : Prop := Touch v.length r ∨ SameR v v' r r'

theorem rel_fail {v v' : List (Tok O)} {r r' : PRes O α} {e e'} (h : r.out = .error e) (h' : r'.out = .error e') :
    Pair v v' r r' := Or.inr (Or.inr ⟨⟨e, h⟩, ⟨e', h'⟩⟩)
theorem rel_ok {v v' w : List (Tok O)} {r r' : PRes O α} {a alt alt'} (h : r.out = .ok (a, alt)) (h' : r'.out = .ok (a, alt'))
    (hr : r.rest = w ++ v) (hr' : r'.rest = w ++ v') : Pair v v' r r' :=
  Or.inr (Or.inl ⟨a, alt, alt', w, h, h', hr, hr'⟩)

/-- Two texts with a common beginning. -/
structure Twin (O : Type) where
  eoi : Sp O
  eoi' : Sp O
  U : List (Tok O)
  v : List (Tok O)
  v' : List (Tok O)

/-- A character of a word: of a name, but not a sign. -/
def wordy (c : Char) : Bool := isIdChar c && !isWsChar c && c != '+' && c != '-'

/-- The rest `u` of the common part does not begin in the middle of a word. -/
def Twin.Start (C : Twin O) (u : List (Tok O)) : Prop :=
  u = [] ∨ C.U = u ∨ ∃ pre y, C.U = pre ++ y :: u ∧ wordy y.1 = false

/-- Two parsers, run on the two texts from the same place of the common part (with `k`: from
the start of a word; at most `n` tokens of the common part remain). -/
structure Bl (C : Twin O) (k : Bool) (n : Nat) (p p' : P O α) : Prop where
  inn : In p
  run : ∀ u, u <:+ C.U → u.length ≤ n → (k = true → C.Start u) →
    Pair C.v C.v' (p C.eoi (u ++ C.v)) (p' C.eoi' (u ++ C.v'))

variable {C : Twin O} {k : Bool} {n : Nat}

theorem touch_short {p : P O α} (h : In p) {eoi : Sp O} {s} {m} (hs : s.length ≤ m) : Touch m (p eoi s) := by
  cases ho : (p eoi s).out with
  | error e => exact (touch_error' ho).2 (Nat.le_trans (h.err ho) hs)
  | ok x => exact (touch_ok' (a := x.1) (alt := x.2) ho).2 (Or.inr (Nat.le_trans (h.suf eoi s).length_le hs))

theorem Bl.of {p p' : P O α} (h : In p)
    (hr : ∀ x u, x :: u <:+ C.U → (x :: u).length ≤ n → (k = true → C.Start (x :: u)) →
      Pair C.v C.v' (p C.eoi (x :: (u ++ C.v))) (p' C.eoi' (x :: (u ++ C.v')))) : Bl C k n p p' := by
  refine ⟨h, ?_⟩
  intro u hu hn hk
  cases u with
  | nil => exact Or.inl (touch_short h (Nat.le_refl _))
  | cons x u => exact hr x u hu hn hk

theorem Bl.weaken {p p' : P O α} (h : Bl C false n p p') : Bl C k n p p' :=
  ⟨h.inn, fun u hu hn _ => h.run u hu hn (by simp)⟩

/-- What remains is a rest of the common part. -/
theorem suf_of_append {u w v : List (Tok O)} (h : w ++ v <:+ u ++ v) : w <:+ u := by
  obtain ⟨pre, h⟩ := h
  rw [← List.append_assoc] at h
  exact ⟨pre, List.append_cancel_right h⟩

theorem spanSince_common {eoi eoi' : Sp O} {x : Tok O} {u w v v' : List (Tok O)} (h : w <:+ x :: u) :
    spanSince eoi (x :: (u ++ v)) (w ++ v) = spanSince eoi' (x :: (u ++ v')) (w ++ v') := by
  have hl := h.length_le
  simp only [List.length_cons] at hl
  unfold spanSince
  simp only
  have e1 : (x :: (u ++ v)).length - (w ++ v).length - 1 = (x :: u).length - w.length - 1 := by simp; omega
  have e2 : (x :: (u ++ v')).length - (w ++ v').length - 1 = (x :: u).length - w.length - 1 := by simp; omega
  rw [e1, e2]
  have hlt : (x :: u).length - w.length - 1 < (x :: u).length := by simp; omega
  have h1 : (x :: (u ++ v))[(x :: u).length - w.length - 1]? = (x :: u)[(x :: u).length - w.length - 1]? := by
    rw [← List.cons_append, List.getElem?_append_left hlt]
  have h2 : (x :: (u ++ v'))[(x :: u).length - w.length - 1]? = (x :: u)[(x :: u).length - w.length - 1]? := by
    rw [← List.cons_append, List.getElem?_append_left hlt]
  rw [h1, h2, List.getElem?_eq_getElem hlt]

/-! ### Primitive parsers -/

theorem in_just {c} : In (just c : P O Char) := fun _ _ => tr_just c
theorem bl_just {c} : Bl C k n (just c) (just c) := by
  refine .of in_just ?_
  intro x u _ _ _
  by_cases hx : x.1 = c
  · exact rel_ok (a := c) (alt := none) (alt' := none) (w := u) (by simp [just, hx, pok]) (by simp [just, hx, pok])
      (by simp [just, hx, pok]) (by simp [just, hx, pok])
  · exact Or.inr (Or.inr ⟨by simp [just, hx, pfail], by simp [just, hx, pfail]⟩)

theorem in_filter {f} : In (filter f : P O Char) := fun _ _ => tr_filter f
theorem bl_filter {f} : Bl C k n (filter f) (filter f) := by
  refine .of in_filter ?_
  intro x u _ _ _
  by_cases hx : f x.1 = true
  · exact rel_ok (a := x.1) (alt := none) (alt' := none) (w := u) (by simp [filter, hx, pok]) (by simp [filter, hx, pok])
      (by simp [filter, hx, pok]) (by simp [filter, hx, pok])
  · exact Or.inr (Or.inr ⟨by simp [filter, hx, pfail], by simp [filter, hx, pfail]⟩)

theorem in_justStr {cs} : In (justStr cs : P O Unit) := fun _ _ => tr_justStr cs
theorem bl_justStr {cs} : Bl C k n (justStr cs) (justStr cs) := by
  refine ⟨in_justStr, ?_⟩
  intro u hu hn hk
  clear hn hk
  induction cs generalizing u with
  | nil => exact rel_ok (a := ()) (alt := none) (alt' := none) (w := u) rfl rfl rfl rfl
  | cons c cs ih =>
    cases u with
    | nil => exact Or.inl (touch_short in_justStr (Nat.le_refl _))
    | cons x u =>
      by_cases hx : x.1 = c
      · simpa [justStr, hx] using ih u (tail_suf.trans hu)
      · exact Or.inr (Or.inr ⟨by simp [justStr, hx, pfail], by simp [justStr, hx, pfail]⟩)

theorem in_endP : In (endP : P O Unit) := fun _ _ => tr_endP
theorem bl_endP : Bl C k n endP endP := by
  refine .of in_endP ?_
  intro x u _ _ _
  exact Or.inr (Or.inr ⟨by simp [endP, pfail], by simp [endP, pfail]⟩)

/-! ### Mappings -/

theorem In.pmap {f : α → β} {p : P O α} (h : In p) : In (pmap f p) := fun e n => tr_pmap (h e n)
theorem Bl.pmap {f : α → β} {p p' : P O α} (h : Bl C k n p p') : Bl C k n (pmap f p) (pmap f p') := by
  refine ⟨h.inn.pmap, ?_⟩
  intro u hu hn hk
  rcases h.run u hu hn hk with h | ⟨a, alt, alt', w, h1, h2, h3, h4⟩ | ⟨⟨e, h1⟩, ⟨e', h2⟩⟩
  · refine Or.inl ?_
    cases ho : (p C.eoi (u ++ C.v)).out with
    | error e => exact (touch_error' (e := e) (by simp [Knuffel.pmap, ho])).2 ((touch_error' ho).1 h)
    | ok x => exact (touch_ok' (a := f x.1) (alt := x.2) (by simp [Knuffel.pmap, ho])).2
                ((touch_ok' (a := x.1) (alt := x.2) ho).1 h)
  · exact rel_ok (a := f a) (alt := alt) (alt' := alt') (w := w) (by simp [Knuffel.pmap, h1]) (by simp [Knuffel.pmap, h2]) h3 h4
  · exact rel_fail (e := e) (e' := e') (by simp [Knuffel.pmap, h1]) (by simp [Knuffel.pmap, h2])

theorem Bl.ignored {p p' : P O α} (h : Bl C k n p p') : Bl C k n (ignored p) (ignored p') := h.pmap

theorem Bl.mapErr {f : PErr O → PErr O} {p p' : P O α} (h : Bl C k n p p') : Bl C k n (mapErr f p) (mapErr f p') := by
  refine ⟨fun e n => tr_mapErr (h.inn e n) (fun _ _ h => h), ?_⟩
  intro u hu hn hk
  rcases h.run u hu hn hk with h | ⟨a, alt, alt', w, h1, h2, h3, h4⟩ | ⟨⟨e, h1⟩, ⟨e', h2⟩⟩
  · refine Or.inl ?_
    cases ho : (p C.eoi (u ++ C.v)).out with
    | error e => exact (touch_error' (e := ⟨e.rem, f e.err⟩) (by simp [Knuffel.mapErr, ho])).2 ((touch_error' ho).1 h)
    | ok x => exact (touch_ok' (a := x.1) (alt := x.2) (by simp [Knuffel.mapErr, ho])).2
                ((touch_ok' (a := x.1) (alt := x.2) ho).1 h)
  · exact rel_ok (a := a) (alt := alt) (alt' := alt') (w := w) (by simp [Knuffel.mapErr, h1]) (by simp [Knuffel.mapErr, h2]) h3 h4
  · exact rel_fail (e := ⟨e.rem, f e.err⟩) (e' := ⟨e'.rem, f e'.err⟩) (by simp [Knuffel.mapErr, h1])
      (by simp [Knuffel.mapErr, h2])

/-- The relation through `map_err_with_span`, at one place. -/
theorem Pair.mapErrWithSpan {f : PErr O → Sp O → PErr O} {p p' : P O α} {s s'}
    (h : Pair C.v C.v' (p C.eoi s) (p' C.eoi' s')) :
    Pair C.v C.v' (mapErrWithSpan f p C.eoi s) (mapErrWithSpan f p' C.eoi' s') := by
  rcases h with h | ⟨a, alt, alt', w, h1, h2, h3, h4⟩ | ⟨⟨e, h1⟩, ⟨e', h2⟩⟩
  · refine Or.inl ?_
    cases ho : (p C.eoi s).out with
    | error e =>
      exact (touch_error' (e := ⟨e.rem, f e.err (spanSince C.eoi s (p C.eoi s).rest)⟩)
        (by simp [Knuffel.mapErrWithSpan, ho])).2 ((touch_error' ho).1 h)
    | ok x => exact (touch_ok' (a := x.1) (alt := x.2) (by simp [Knuffel.mapErrWithSpan, ho])).2
                ((touch_ok' (a := x.1) (alt := x.2) ho).1 h)
  · exact rel_ok (a := a) (alt := alt) (alt' := alt') (w := w) (by simp [Knuffel.mapErrWithSpan, h1])
      (by simp [Knuffel.mapErrWithSpan, h2]) h3 h4
  · exact Or.inr (Or.inr ⟨by simp [Knuffel.mapErrWithSpan, h1], by simp [Knuffel.mapErrWithSpan, h2]⟩)

theorem In.mapErrWithSpan {f : PErr O → Sp O → PErr O} {p : P O α} (h : In p) : In (mapErrWithSpan f p) :=
  fun e n s hs => trR_mapErrWithSpan (h e n s hs) (fun _ _ h => h)
theorem Bl.mapErrWithSpan {f : PErr O → Sp O → PErr O} {p p' : P O α} (h : Bl C k n p p') :
    Bl C k n (mapErrWithSpan f p) (mapErrWithSpan f p') :=
  ⟨h.inn.mapErrWithSpan, fun u hu hn hk => (h.run u hu hn hk).mapErrWithSpan⟩

theorem Bl.mapWithSpan {f : α → Sp O → β} {p p' : P O α} (h : Bl C k n p p') :
    Bl C k n (mapWithSpan f p) (mapWithSpan f p') := by
  refine .of (fun e n => tr_mapWithSpan (h.inn e n)) ?_
  intro x u hu hn hk
  have hr := h.run (x :: u) hu hn hk
  simp only [List.cons_append] at hr
  rcases hr with h' | ⟨a, alt, alt', w, h1, h2, h3, h4⟩ | ⟨⟨e, h1⟩, ⟨e', h2⟩⟩
  · refine Or.inl ?_
    cases ho : (p C.eoi (x :: (u ++ C.v))).out with
    | error e => exact (touch_error' (e := e) (by simp [Knuffel.mapWithSpan, ho])).2 ((touch_error' ho).1 h')
    | ok y => exact (touch_ok' (a := f y.1 (spanSince C.eoi (x :: (u ++ C.v)) (p C.eoi (x :: (u ++ C.v))).rest)) (alt := y.2)
                (by simp [Knuffel.mapWithSpan, ho])).2 ((touch_ok' (a := y.1) (alt := y.2) ho).1 h')
  · have hw : w <:+ x :: u := by
      have := h.inn.suf C.eoi (x :: (u ++ C.v))
      rw [h3, ← List.cons_append] at this
      exact suf_of_append this
    refine rel_ok (a := f a (spanSince C.eoi (x :: (u ++ C.v)) (w ++ C.v))) (alt := alt) (alt' := alt') (w := w)
      (by simp [Knuffel.mapWithSpan, h1, h3]) ?_ h3 h4
    rw [spanSince_common (eoi' := C.eoi') (v' := C.v') hw]
    simp [Knuffel.mapWithSpan, h2, h4]
  · exact rel_fail (e := e) (e' := e') (by simp [Knuffel.mapWithSpan, h1]) (by simp [Knuffel.mapWithSpan, h2])

theorem Bl.spanned {p p' : P O α} (h : Bl C k n p p') : Bl C k n (spanned p) (spanned p') := h.mapWithSpan

theorem In.tryMap {f : α → Sp O → Except (PErr O) β} {p : P O α} (h : In p) : In (tryMap f p) := by
  intro e n s hs
  refine trR_tryMap (h e n s hs) ?_
  intro _ _ _ _ _
  exact Nat.le_trans (h e n s hs).suf.length_le hs

/-- `try_map` drops the alternative error; with a reason why this does no harm. -/
theorem Bl.tryMap {f : α → Sp O → Except (PErr O) β} {p p' : P O α} (h : Bl C k n p p')
    (hd : ∀ x u, x :: u <:+ C.U → (x :: u).length ≤ n → (k = true → C.Start (x :: u)) → ∀ a alt,
      (p C.eoi (x :: (u ++ C.v))).out = .ok (a, alt) → Al C.v.length alt →
      C.v.length < (p C.eoi (x :: (u ++ C.v))).rest.length → ∀ sp e, f a sp = .error e →
      ∃ e', (Knuffel.tryMap f p' C.eoi' (x :: (u ++ C.v'))).out = .error e') :
    Bl C k n (tryMap f p) (tryMap f p') := by
  refine .of h.inn.tryMap ?_
  intro x u hu hn hk
  have hr := h.run (x :: u) hu hn hk
  simp only [List.cons_append] at hr
  rcases hr with h' | ⟨a, alt, alt', w, h1, h2, h3, h4⟩ | ⟨⟨e, h1⟩, ⟨e', h2⟩⟩
  · cases ho : (p C.eoi (x :: (u ++ C.v))).out with
    | error e =>
      exact Or.inl ((touch_error' (e := e) (by simp [Knuffel.tryMap, ho])).2 ((touch_error' ho).1 h'))
    | ok y =>
      have ht := (touch_ok' (a := y.1) (alt := y.2) ho).1 h'
      cases hf : f y.1 (spanSince C.eoi (x :: (u ++ C.v)) (p C.eoi (x :: (u ++ C.v))).rest) with
      | ok b =>
        exact Or.inl ((touch_ok' (a := b) (alt := y.2) (by simp [Knuffel.tryMap, ho, hf])).2 ht)
      | error e =>
        by_cases hl : (p C.eoi (x :: (u ++ C.v))).rest.length ≤ C.v.length
        · exact Or.inl ((touch_error' (e := ⟨(p C.eoi (x :: (u ++ C.v))).rest.length, e⟩)
            (by simp [Knuffel.tryMap, ho, hf])).2 hl)
        · obtain ⟨e', he'⟩ := hd x u hu hn hk y.1 y.2 ho (ht.resolve_right hl) (by omega) _ _ hf
          exact rel_fail (e := ⟨(p C.eoi (x :: (u ++ C.v))).rest.length, e⟩) (by simp [Knuffel.tryMap, ho, hf]) he'
  · have hw : w <:+ x :: u := by
      have := h.inn.suf C.eoi (x :: (u ++ C.v))
      rw [h3, ← List.cons_append] at this
      exact suf_of_append this
    have hsp := spanSince_common (eoi := C.eoi) (eoi' := C.eoi') (v := C.v) (v' := C.v') hw
    cases hf : f a (spanSince C.eoi (x :: (u ++ C.v)) (w ++ C.v)) with
    | ok b =>
      refine rel_ok (a := b) (alt := alt) (alt' := alt') (w := w) (by simp [Knuffel.tryMap, h1, h3, hf]) ?_ h3 h4
      rw [hsp] at hf
      simp [Knuffel.tryMap, h2, h4, hf]
    | error e =>
      refine rel_fail (e := ⟨(w ++ C.v).length, e⟩) (e' := ⟨(w ++ C.v').length, e⟩) (by simp [Knuffel.tryMap, h1, h3, hf]) ?_
      rw [hsp] at hf
      simp [Knuffel.tryMap, h2, h4, hf]
  · exact rel_fail (e := e) (e' := e') (by simp [Knuffel.tryMap, h1]) (by simp [Knuffel.tryMap, h2])

theorem validate_out {f : α → Sp O → List (PErr O)} {p : P O α} {eoi : Sp O} {s} :
    (validate f p eoi s).out = (p eoi s).out ∧ (validate f p eoi s).rest = (p eoi s).rest := by
  unfold validate
  cases ho : (p eoi s).out with
  | error e => simp [ho]
  | ok x => simp [ho]

theorem Pair.congr {v v' : List (Tok O)} {r r' t t' : PRes O α} (h : Pair v v' r r') (h1 : t.out = r.out) (h2 : t.rest = r.rest)
    (h3 : t'.out = r'.out) (h4 : t'.rest = r'.rest) : Pair v v' t t' := by
  unfold Pair Touch SameR PRes.altOrErr at *
  rw [h1, h2, h3, h4]; exact h

theorem Bl.validate {f : α → Sp O → List (PErr O)} {p p' : P O α} (h : Bl C k n p p') :
    Bl C k n (validate f p) (validate f p') := by
  refine ⟨fun e n s hs => trR_validate (h.inn e n s hs) (fun _ _ _ _ _ => Nat.le_trans (h.inn e n s hs).suf.length_le hs), ?_⟩
  intro u hu hn hk
  exact (h.run u hu hn hk).congr validate_out.1 validate_out.2 validate_out.1 validate_out.2

/-! ### Sequences -/

theorem In.bind {p : P O α} {f : α → P O β} (h : In p) (hf : ∀ a, In (f a)) : In (bind p f) :=
  fun e n => tr_bind (h e n) (fun a => hf a e n)

theorem Touch.bind {p : P O α} {f : α → P O β} {eoi : Sp O} {s} {m} (h : Touch m (p eoi s)) (hf : ∀ a, In (f a)) :
    Touch m (bind p f eoi s) := by
  rcases bind_cases p f eoi s with ⟨e, h1, h2⟩ | ⟨a, alt1, e2, h1, h3, h2⟩ | ⟨a, alt1, b, alt2, h1, h3, h2⟩
  · rw [h2]; exact touch_error.2 ((touch_error' h1).1 h)
  · rw [h2]
    rcases (touch_ok' h1).1 h with h4 | h4
    · exact touch_error.2 (maxO_al h4)
    · exact touch_error.2 (Nat.le_trans (maxO_le _ _) (Nat.le_trans ((hf a).err h3) h4))
  · rw [h2]
    rcases (touch_ok' h1).1 h with h4 | h4
    · exact touch_ok.2 (Or.inl (mergeAlts_left h4))
    · exact touch_ok.2 (Or.inr (Nat.le_trans ((hf a).suf _ _).length_le h4))

/-- A sequence, at one place. -/
theorem Pair.bind {p p' : P O α} {f f' : α → P O β} {s s'} (h : Pair C.v C.v' (p C.eoi s) (p' C.eoi' s'))
    (hf : ∀ a, In (f a))
    (h2 : ∀ a alt w, (p C.eoi s).out = .ok (a, alt) → (p C.eoi s).rest = w ++ C.v →
      Pair C.v C.v' (f a C.eoi (w ++ C.v)) (f' a C.eoi' (w ++ C.v'))) :
    Pair C.v C.v' (bind p f C.eoi s) (bind p' f' C.eoi' s') := by
  rcases h with h | ⟨a, alt, alt', w, h1, h1', h3, h3'⟩ | ⟨⟨e, h1⟩, ⟨e', h1'⟩⟩
  · exact Or.inl (h.bind hf)
  · rcases h2 a alt w h1 h3 with h | ⟨b, alt2, alt2', w2, h5, h5', h6, h6'⟩ | ⟨⟨e, h5⟩, ⟨e', h5'⟩⟩
    · refine Or.inl ?_
      cases ho : (f a C.eoi (w ++ C.v)).out with
      | error e =>
        exact (touch_error' (e := e.maxO alt) (by simp [Knuffel.bind, h1, h3, ho])).2
          (Nat.le_trans (maxO_le _ _) ((touch_error' ho).1 h))
      | ok y =>
        have hr : (Knuffel.bind p f C.eoi s).rest = (f a C.eoi (w ++ C.v)).rest := by simp [Knuffel.bind, h1, h3, ho]
        refine (touch_ok' (a := y.1) (alt := mergeAlts alt y.2) (by simp [Knuffel.bind, h1, h3, ho])).2 ?_
        rw [hr]
        exact ((touch_ok' (a := y.1) (alt := y.2) ho).1 h).imp mergeAlts_right id
    · exact rel_ok (a := b) (alt := mergeAlts alt alt2) (alt' := mergeAlts alt' alt2') (w := w2)
        (by simp [Knuffel.bind, h1, h3, h5]) (by simp [Knuffel.bind, h1', h3', h5'])
        (by simp [Knuffel.bind, h1, h3, h5, h6]) (by simp [Knuffel.bind, h1', h3', h5', h6'])
    · exact rel_fail (e := e.maxO alt) (e' := e'.maxO alt') (by simp [Knuffel.bind, h1, h3, h5])
        (by simp [Knuffel.bind, h1', h3', h5'])
  · exact rel_fail (e := e) (e' := e') (by simp [Knuffel.bind, h1]) (by simp [Knuffel.bind, h1'])

/-- After a success the stream does not begin in the middle of a word (with `b`: if it did not
before and nothing has been consumed). -/
def Ed (b : Bool) (p : P O α) : Prop := ∀ eoi s x, (p eoi s).out = .ok x →
  (p eoi s).rest = [] ∨ (b = true ∧ (p eoi s).rest = s) ∨ ∃ pre y, s = pre ++ y :: (p eoi s).rest ∧ wordy y.1 = false

theorem Ed.start {b} {p : P O α} (h : Ed b p) {eoi : Sp O} {u w v : List (Tok O)} (hu : u <:+ C.U) {x}
    (ho : (p eoi (u ++ v)).out = .ok x) (hr : (p eoi (u ++ v)).rest = w ++ v) (hb : b = true → C.Start u) : C.Start w := by
  rcases h eoi _ x ho with h | ⟨h, h2⟩ | ⟨pre, y, h, h2⟩
  · rw [hr] at h
    exact Or.inl (List.append_eq_nil_iff.1 h).1
  · have : w = u := by rw [hr] at h2; exact List.append_cancel_right h2
    rw [this]; exact hb h
  · rw [hr] at h
    have : u = pre ++ y :: w := by
      have : u ++ v = (pre ++ y :: w) ++ v := by simpa using h
      exact List.append_cancel_right this
    obtain ⟨pre2, hp⟩ := hu
    exact Or.inr (Or.inr ⟨pre2 ++ pre, y, by rw [← hp, this]; simp, h2⟩)

/-- A sequence whose second part may begin anywhere. -/
theorem Bl.bind {p p' : P O α} {f f' : α → P O β} (h : Bl C k n p p') (hf : ∀ a, Bl C false n (f a) (f' a)) :
    Bl C k n (bind p f) (bind p' f') := by
  refine ⟨h.inn.bind (fun a => (hf a).inn), ?_⟩
  intro u hu hn hk
  refine (h.run u hu hn hk).bind (fun a => (hf a).inn) ?_
  intro a alt w _ h3
  have hw : w <:+ u := by
    have := h.inn.suf C.eoi (u ++ C.v)
    rw [h3] at this
    exact suf_of_append this
  exact (hf a).run w (hw.trans hu) (Nat.le_trans hw.length_le hn) (by simp)

/-- A sequence whose second part begins at the start of a word. -/
theorem Bl.bindS {p p' : P O α} {f f' : α → P O β} (h : Bl C k n p p') (hf : ∀ a, Bl C true n (f a) (f' a))
    (he : Ed k p) : Bl C k n (Knuffel.bind p f) (Knuffel.bind p' f') := by
  refine ⟨h.inn.bind (fun a => (hf a).inn), ?_⟩
  intro u hu hn hk
  refine (h.run u hu hn hk).bind (fun a => (hf a).inn) ?_
  intro a alt w h1 h3
  have hw : w <:+ u := by
    have := h.inn.suf C.eoi (u ++ C.v)
    rw [h3] at this
    exact suf_of_append this
  exact (hf a).run w (hw.trans hu) (Nat.le_trans hw.length_le hn) (fun _ => he.start hu h1 h3 hk)

theorem Bl.seq {p p' : P O α} {q q' : P O β} (h : Bl C k n p p') (hq : Bl C false n q q') : Bl C k n (seq p q) (seq p' q') :=
  h.bind (fun _ => hq.pmap)
theorem Bl.ignoreThen {p p' : P O α} {q q' : P O β} (h : Bl C k n p p') (hq : Bl C false n q q') :
    Bl C k n (ignoreThen p q) (ignoreThen p' q') := h.bind (fun _ => hq)
theorem Bl.thenIgnore {p p' : P O α} {q q' : P O β} (h : Bl C k n p p') (hq : Bl C false n q q') :
    Bl C k n (thenIgnore p q) (thenIgnore p' q') := h.bind (fun _ => hq.pmap)
theorem Bl.seqS {p p' : P O α} {q q' : P O β} (h : Bl C k n p p') (hq : Bl C true n q q') (he : Ed k p) :
    Bl C k n (Knuffel.seq p q) (Knuffel.seq p' q') := h.bindS (fun _ => hq.pmap) he
theorem Bl.ignoreThenS {p p' : P O α} {q q' : P O β} (h : Bl C k n p p') (hq : Bl C true n q q') (he : Ed k p) :
    Bl C k n (Knuffel.ignoreThen p q) (Knuffel.ignoreThen p' q') := h.bindS (fun _ => hq) he

/-! ### Alternatives -/

/-- If the first succeeds with emitted errors then the second fails. -/
def Excl (p q : P O α) : Prop := ∀ eoi s x, (p eoi s).out = .ok x → (p eoi s).errs ≠ [] → ∃ e, (q eoi s).out = .error e

theorem orP_cases {p q : P O α} (hx : Excl p q) (eoi : Sp O) (s) :
    (∃ a alt, (p eoi s).out = .ok (a, alt) ∧ ∃ alt', (orP p q eoi s).out = .ok (a, alt') ∧
      (orP p q eoi s).rest = (p eoi s).rest ∧ ∀ m, Al m alt → Al m alt') ∨
    (∃ e, (p eoi s).out = .error e ∧
      ((∃ b alt, (q eoi s).out = .ok (b, alt) ∧ ∃ l, (orP p q eoi s).out = .ok (b, some l) ∧
        (orP p q eoi s).rest = (q eoi s).rest ∧ l.rem ≤ e.rem ∧ ∀ m, Al m alt → l.rem ≤ m) ∨
       (∃ e2, (q eoi s).out = .error e2 ∧ ∃ e3, (orP p q eoi s).out = .error e3 ∧ e3.rem ≤ e.rem ∧ e3.rem ≤ e2.rem))) := by
  cases ho : (p eoi s).out with
  | ok x =>
    obtain ⟨a, alt⟩ := x
    refine Or.inl ⟨a, alt, rfl, ?_⟩
    by_cases hc : (p eoi s).clean = true
    · exact ⟨alt, by simp [orP, hc, ho], by simp [orP, hc], fun _ h => h⟩
    · have hne : (p eoi s).errs ≠ [] := by
        intro h; apply hc; simp [PRes.clean, h, ho]
      obtain ⟨e, he⟩ := hx eoi s _ ho hne
      have hcb : (q eoi s).clean = false := by simp [PRes.clean, he]
      have hpre : preferA (p eoi s) (q eoi s) = true := by simp [preferA, ho, he]
      refine ⟨mergeAlts alt (some e), ?_, ?_, fun _ h => mergeAlts_left h⟩
      · simp [orP, hc, hcb, hpre, takeA, ho, PRes.altOrErr, he]
      · simp [orP, hc, hcb, hpre, takeA, ho]
  | error e =>
    refine Or.inr ⟨e, rfl, ?_⟩
    have hc : (p eoi s).clean = false := by simp [PRes.clean, ho]
    cases hq : (q eoi s).out with
    | ok y =>
      obtain ⟨b, alt⟩ := y
      refine Or.inl ⟨b, alt, rfl, ?_⟩
      have hm : ∃ l, mergeAlts alt (some e) = some l ∧ l.rem ≤ e.rem ∧ ∀ m, Al m alt → l.rem ≤ m := by
        obtain ⟨l, hl, hl2⟩ := mergeAlts_right (a := alt) (b := some e) (al_some.2 (Nat.le_refl _))
        refine ⟨l, hl, hl2, fun m hm => ?_⟩
        have := mergeAlts_left (b := some e) hm
        rw [hl] at this; exact al_some.1 this
      obtain ⟨l, hl, hl2, hl3⟩ := hm
      refine ⟨l, ?_, ?_, hl2, hl3⟩
      · by_cases hcb : (q eoi s).clean = true
        · simp [orP, hc, hcb, hq, PRes.altOrErr, ho, hl]
        · have hpre : preferA (p eoi s) (q eoi s) = false := by simp [preferA, ho, hq]
          simp [orP, hc, hcb, hpre, takeA, hq, PRes.altOrErr, ho, hl]
      · by_cases hcb : (q eoi s).clean = true
        · simp [orP, hc, hcb, hq]
        · have hpre : preferA (p eoi s) (q eoi s) = false := by simp [preferA, ho, hq]
          simp [orP, hc, hcb, hpre, takeA, hq]
    | error e2 =>
      refine Or.inr ⟨e2, rfl, ?_⟩
      have hcb : (q eoi s).clean = false := by simp [PRes.clean, hq]
      cases hpre : preferA (p eoi s) (q eoi s) with
      | true =>
        exact ⟨e.max e2, by simp [orP, hc, hcb, hpre, takeA, ho, hq, PRes.altOrErr, Loc.maxO], max_le_left _ _, max_le_right _ _⟩
      | false =>
        exact ⟨e2.max e, by simp [orP, hc, hcb, hpre, takeA, ho, hq, PRes.altOrErr, Loc.maxO], max_le_right _ _, max_le_left _ _⟩

theorem In.orP {p q : P O α} (hp : In p) (hq : In q) : In (orP p q) := fun e n => tr_orP (hp e n) (hq e n)

theorem Bl.orP {p q : P O α} (hp : Bl C k n p p) (hq : Bl C k n q q) (hx : Excl p q) : Bl C k n (orP p q) (orP p q) := by
  refine ⟨hp.inn.orP hq.inn, ?_⟩
  intro u hu hn hk
  have h1 := orP_cases hx C.eoi (u ++ C.v)
  have h2 := orP_cases hx C.eoi' (u ++ C.v')
  have hrp := hp.run u hu hn hk
  have hrq := hq.run u hu hn hk
  rcases h1 with ⟨a, alt, h1, alt', h3, h4, h5⟩ | ⟨e, h1, ⟨b, alt, h3, l, h4, h5, h6, h7⟩ | ⟨e2, h3, e3, h4, h5, h6⟩⟩
  · rcases hrp with ht | ⟨a', alt1, alt1', w, h6, h6', h7, h7'⟩ | ⟨⟨e, h6⟩, _⟩
    · refine Or.inl ((touch_ok' h3).2 ?_)
      rw [h4]; exact ((touch_ok' h1).1 ht).imp (h5 _) id
    · rw [h1] at h6
      injection h6 with h6; injection h6 with h6 h6a; subst h6; subst h6a
      rcases h2 with ⟨a2, alt2, g1, alt2', g3, g4, g5⟩ | ⟨e, g1, _⟩
      · rw [g1] at h6'
        injection h6' with h6'; injection h6' with h6' h6a'; subst h6'
        exact rel_ok h3 g3 (h4.trans h7) (g4.trans h7')
      · rw [g1] at h6'; cases h6'
    · rw [h1] at h6; cases h6
  · rcases hrp with ht | ⟨a', alt1, alt1', w, h8, _⟩ | ⟨_, ⟨e', h8⟩⟩
    · refine Or.inl ((touch_ok' h4).2 (Or.inl (al_some.2 ?_)))
      have := (touch_error' h1).1 ht; omega
    · rw [h1] at h8; cases h8
    · rcases hrq with ht | ⟨b', alt1, alt1', w, h9, h9', h10, h10'⟩ | ⟨⟨e, h9⟩, _⟩
      · refine Or.inl ((touch_ok' h4).2 ?_)
        rw [h5]
        exact ((touch_ok' h3).1 ht).imp (fun h => al_some.2 (h7 _ h)) id
      · rw [h3] at h9
        injection h9 with h9; injection h9 with h9 h9a; subst h9; subst h9a
        rcases h2 with ⟨a2, alt2, g1, _⟩ | ⟨e, g1, ⟨b2, alt2, g3, l2, g4, g5, _⟩ | ⟨e2, g3, _⟩⟩
        · rw [g1] at h8; cases h8
        · rw [g3] at h9'
          injection h9' with h9'; injection h9' with h9' h9a'; subst h9'
          exact rel_ok h4 g4 (h5.trans h10) (g5.trans h10')
        · rw [g3] at h9'; cases h9'
      · rw [h3] at h9; cases h9
  · rcases hrp with ht | ⟨a', alt1, alt1', w, h8, _⟩ | ⟨_, ⟨e', h8⟩⟩
    · refine Or.inl ((touch_error' h4).2 ?_)
      have := (touch_error' h1).1 ht; omega
    · rw [h1] at h8; cases h8
    · rcases hrq with ht | ⟨b', alt1, alt1', w, h9, _⟩ | ⟨_, ⟨e2', h9⟩⟩
      · refine Or.inl ((touch_error' h4).2 ?_)
        have := (touch_error' h3).1 ht; omega
      · rw [h3] at h9; cases h9
      · rcases h2 with ⟨a2, alt2, g1, _⟩ | ⟨e, g1, ⟨b2, alt2, g3, _⟩ | ⟨e2, g3, e3', g4, _⟩⟩
        · rw [g1] at h8; cases h8
        · rw [g3] at h9; cases h9
        · exact rel_fail h4 g4

theorem In.orNot {p : P O α} (h : In p) : In (orNot p) := fun e n => tr_orNot (h e n)
theorem Bl.orNot {p p' : P O α} (h : Bl C k n p p') : Bl C k n (orNot p) (orNot p') := by
  refine ⟨h.inn.orNot, ?_⟩
  intro u hu hn hk
  rcases h.run u hu hn hk with h | ⟨a, alt, alt', w, h1, h2, h3, h4⟩ | ⟨⟨e, h1⟩, ⟨e', h2⟩⟩
  · refine Or.inl ?_
    cases ho : (p C.eoi (u ++ C.v)).out with
    | error e =>
      exact (touch_ok' (a := none) (alt := some e) (by simp [Knuffel.orNot, ho])).2
        (Or.inl (al_some.2 ((touch_error' ho).1 h)))
    | ok x =>
      refine (touch_ok' (a := some x.1) (alt := x.2) (by simp [Knuffel.orNot, ho])).2 ?_
      have : (Knuffel.orNot p C.eoi (u ++ C.v)).rest = (p C.eoi (u ++ C.v)).rest := by simp [Knuffel.orNot, ho]
      rw [this]
      exact (touch_ok' (a := x.1) (alt := x.2) ho).1 h
  · exact rel_ok (a := some a) (alt := alt) (alt' := alt') (w := w) (by simp [Knuffel.orNot, h1]) (by simp [Knuffel.orNot, h2])
      (by simp [Knuffel.orNot, h1, h3]) (by simp [Knuffel.orNot, h2, h4])
  · exact rel_ok (a := none) (alt := some e) (alt' := some e') (w := u) (by simp [Knuffel.orNot, h1]) (by simp [Knuffel.orNot, h2])
      (by simp [Knuffel.orNot, h1]) (by simp [Knuffel.orNot, h2])

/-- Each alternative of a choice: if the first fails having looked beyond the common part, then
it fails on the other text too or the later ones fail or look beyond as well. -/
def Chain (C : Twin O) (k : Bool) (n : Nat) : List (P O α) → Prop
  | [] => True
  | p :: ps => Bl C k n p p ∧
    (∀ x u, x :: u <:+ C.U → (x :: u).length ≤ n → (k = true → C.Start (x :: u)) → ∀ e,
      (p C.eoi (x :: (u ++ C.v))).out = .error e → e.rem ≤ C.v.length →
      (∃ e', (p C.eoi' (x :: (u ++ C.v'))).out = .error e') ∨
      ∀ q ∈ ps, (∃ e', (q C.eoi (x :: (u ++ C.v))).out = .error e') ∨ Touch C.v.length (q C.eoi (x :: (u ++ C.v)))) ∧
    Chain C k n ps

theorem chain_touch {ps : List (P O α)} {eoi : Sp O} {s} {m : Nat} : ∀ {alt pan}, Al m alt →
    (∀ q ∈ ps, (∃ e, (q eoi s).out = .error e) ∨ Touch m (q eoi s)) → Touch m (choiceGo alt pan ps eoi s) := by
  induction ps with
  | nil =>
    intro alt pan ha _
    obtain ⟨l, rfl, hl⟩ := ha
    exact touch_error.2 hl
  | cons q ps ih =>
    intro alt pan ha h
    unfold choiceGo
    cases ho : (q eoi s).out with
    | ok x =>
      simp only [ho]
      rcases h q (by simp) with ⟨e, he⟩ | ht
      · rw [ho] at he; cases he
      · exact touch_ok.2 ((touch_ok' (a := x.1) (alt := x.2) ho).1 ht)
    | error e =>
      simp only [ho]
      exact ih (mergeAlts_left ha) (fun q hq => h q (by simp [hq]))

theorem in_choice {ps : List (P O α)} (h : ∀ p ∈ ps, In p) : In (choice ps) := fun e n => tr_choice (fun p hp => h p hp e n)

theorem Chain.inn {ps : List (P O α)} (h : Chain C k n ps) : ∀ p ∈ ps, In p := by
  induction ps with
  | nil => simp
  | cons p ps ih =>
    intro q hq
    rcases List.mem_cons.1 hq with rfl | hq
    · exact h.1.inn
    · exact ih h.2.2 q hq

theorem bl_choice {ps : List (P O α)} (h : Chain C k n ps) : Bl C k n (choice ps) (choice ps) := by
  refine .of (in_choice h.inn) ?_
  intro x u hu hn hk
  unfold choice
  generalize (none : Option (Loc O)) = alt
  generalize false = pan
  suffices h' : ∀ {alt alt' : Option (Loc O)} {pan pan'}, Pair C.v C.v' (choiceGo alt pan ps C.eoi (x :: (u ++ C.v)))
      (choiceGo alt' pan' ps C.eoi' (x :: (u ++ C.v'))) from h'
  induction ps with
  | nil =>
    intro alt alt' pan pan'
    refine Or.inr (Or.inr ⟨?_, ?_⟩)
    · cases alt <;> simp [choiceGo]
    · cases alt' <;> simp [choiceGo]
  | cons p ps ih =>
    intro alt alt' pan pan'
    have hr := h.1.run (x :: u) hu hn hk
    simp only [List.cons_append] at hr
    rcases hr with ht | ⟨a, alt1, alt1', w, h1, h2, h3, h4⟩ | ⟨⟨e, h1⟩, ⟨e', h2⟩⟩
    · cases ho : (p C.eoi (x :: (u ++ C.v))).out with
      | ok y =>
        refine Or.inl ?_
        simp only [choiceGo, ho]
        exact touch_ok.2 ((touch_ok' (a := y.1) (alt := y.2) ho).1 ht)
      | error e =>
        have he := (touch_error' ho).1 ht
        rcases h.2.1 x u hu hn hk e ho he with ⟨e', he'⟩ | hq
        · simp only [choiceGo, ho, he']
          exact ih h.2.2
        · refine Or.inl ?_
          simp only [choiceGo, ho]
          exact chain_touch (mergeAlts_right (al_some.2 he)) hq
    · exact rel_ok (a := a) (alt := alt1) (alt' := alt1') (w := w) (by simp [choiceGo, h1]) (by simp [choiceGo, h2])
        (by simp [choiceGo, h1, h3]) (by simp [choiceGo, h2, h4])
    · simp only [choiceGo, h1, h2]
      exact ih h.2.2

/-! ### Repetitions -/

theorem In.repeatedB {mn mx} {p : P O α} (h : In p) : In (repeatedB mn mx p) := fun e n => tr_repeatedB (h e n)
theorem In.repeated {p : P O α} (h : In p) : In (repeated p) := h.repeatedB

theorem touch_repGo_short {p : P O α} (hp : In p) {mn mx} {eoi : Sp O} {m : Nat} :
    ∀ fuel {outs errs alt pan s}, s.length ≤ m → Touch m (repGo p mn mx eoi fuel outs errs alt pan s) := by
  intro fuel
  induction fuel with
  | zero => intro outs errs alt pan s hs; exact touch_ok.2 (Or.inr hs)
  | succ f ih =>
    intro outs errs alt pan s hs
    unfold repGo
    split
    · exact touch_ok.2 (Or.inr hs)
    · have hsuf := (hp.suf eoi s).length_le
      cases ho : (p eoi s).out with
      | ok x =>
        simp only [ho]
        split
        · exact ih (Nat.le_trans hsuf hs)
        · exact touch_ok.2 (Or.inr (Nat.le_trans hsuf hs))
      | error e =>
        simp only [ho]
        split
        · exact touch_error.2 (Nat.le_trans (hp.err ho) hs)
        · exact touch_ok.2 (Or.inr hs)

theorem touch_repGo_alt {p : P O α} {mn mx} {eoi : Sp O} {m : Nat} :
    ∀ fuel {outs errs alt pan s}, Al m alt → mn ≤ outs.length →
    Touch m (repGo p mn mx eoi fuel outs errs alt pan s) := by
  intro fuel
  induction fuel with
  | zero => intro outs errs alt pan s ha _; exact touch_ok.2 (Or.inl ha)
  | succ f ih =>
    intro outs errs alt pan s ha hm
    unfold repGo
    split
    · exact touch_ok.2 (Or.inl ha)
    · cases ho : (p eoi s).out with
      | ok x =>
        simp only [ho]
        split
        · exact ih (mergeAlts_left ha) (by simp; omega)
        · exact touch_ok.2 (Or.inl (mergeAlts_left ha))
      | error e =>
        simp only [ho]
        rw [if_neg (by omega)]
        exact touch_ok.2 (Or.inl (mergeAlts_left ha))

theorem rel_repGo {p : P O α} (hp : Bl C k n p p) (he : k = true → Ed true p) {mn mx}
    (hmn : mn ≤ 1 ∨ ∀ eoi s a alt, (p eoi s).out = .ok (a, alt) → alt = none) :
    ∀ fuel fuel' {u outs errs errs' alt alt' pan pan'}, u <:+ C.U → u.length ≤ n → (k = true → C.Start u) →
    (u ++ C.v).length < fuel → (u ++ C.v').length < fuel' →
    Pair C.v C.v' (repGo p mn mx C.eoi fuel outs errs alt pan (u ++ C.v))
      (repGo p mn mx C.eoi' fuel' outs errs' alt' pan' (u ++ C.v')) := by
  intro fuel
  induction fuel with
  | zero => intro _ _ _ _ _ _ _ _ _ _ _ _ h; omega
  | succ f ih =>
    intro fuel' u outs errs errs' alt alt' pan pan' hu hn hk hf hf'
    cases fuel' with
    | zero => omega
    | succ f' =>
      by_cases hmx : mx = some outs.length
      · exact rel_ok (a := outs) (alt := alt) (alt' := alt') (w := u) (by simp [repGo, hmx]) (by simp [repGo, hmx])
          (by simp [repGo, hmx]) (by simp [repGo, hmx])
      · rcases hp.run u hu hn hk with ht | ⟨a, alt1, alt1', w, h1, h2, h3, h4⟩ | ⟨⟨e, h1⟩, ⟨e', h2⟩⟩
        · refine Or.inl ?_
          unfold repGo
          rw [if_neg hmx]
          cases ho : (p C.eoi (u ++ C.v)).out with
          | ok x =>
            simp only [ho]
            rcases (touch_ok' (a := x.1) (alt := x.2) ho).1 ht with h | h
            · rcases hmn with hmn | hmn
              case inr => exact absurd (hmn _ _ x.1 x.2 ho ▸ h) not_al_none
              split
              · exact touch_repGo_alt _ (mergeAlts_right h) (by simp; omega)
              · exact touch_ok.2 (Or.inl (mergeAlts_right h))
            · split
              · exact touch_repGo_short hp.inn _ h
              · exact touch_ok.2 (Or.inr h)
          | error e =>
            have := (touch_error' ho).1 ht
            simp only [ho]
            split
            · exact touch_error.2 this
            · exact touch_ok.2 (Or.inl (mergeAlts_right (mergeAlts_left (al_some.2 this))))
        · have hw : w <:+ u := by
            have := hp.inn.suf C.eoi (u ++ C.v)
            rw [h3] at this
            exact suf_of_append this
          unfold repGo
          rw [if_neg hmx, if_neg hmx]
          simp only [h1, h2, h3, h4]
          by_cases hl : w.length < u.length
          · rw [if_pos (by simp; omega), if_pos (by simp; omega)]
            refine ih f' (hw.trans hu) (Nat.le_trans hw.length_le hn) (fun hk' => (he hk').start hu h1 h3 (fun _ => hk hk')) ?_ ?_
            · simp at hf ⊢; omega
            · simp at hf' ⊢; omega
          · rw [if_neg (by simp; omega), if_neg (by simp; omega)]
            exact rel_ok (w := w) rfl rfl rfl rfl
        · unfold repGo
          rw [if_neg hmx, if_neg hmx]
          simp only [h1, h2]
          by_cases hm : outs.length < mn
          · rw [if_pos hm, if_pos hm]
            exact rel_fail rfl rfl
          · rw [if_neg hm, if_neg hm]
            exact rel_ok (w := u) rfl rfl rfl rfl

theorem Bl.repeatedB {mn mx} {p : P O α} (hp : Bl C k n p p) (he : k = true → Ed true p)
    (hmn : mn ≤ 1 ∨ ∀ eoi s a alt, (p eoi s).out = .ok (a, alt) → alt = none) :
    Bl C k n (repeatedB mn mx p) (repeatedB mn mx p) :=
  ⟨hp.inn.repeatedB, fun u hu hn hk => rel_repGo hp he hmn _ _ hu hn hk (Nat.lt_succ_self _) (Nat.lt_succ_self _)⟩

theorem Bl.repeated {p : P O α} (hp : Bl C false n p p) : Bl C k n (repeated p) (repeated p) :=
  (hp.repeatedB (by simp) (Or.inl (by omega))).weaken

theorem touch_takeUntil_alt {p : P O β} (hp : In p) {eoi : Sp O} {m : Nat} :
    ∀ fuel {outs alt pan s}, s.length < fuel → Al m alt ∨ s.length ≤ m →
    Touch m (takeUntilGo p eoi fuel outs alt pan s) := by
  intro fuel
  induction fuel with
  | zero => intro outs alt pan s h; omega
  | succ f ih =>
    intro outs alt pan s hf ha
    unfold takeUntilGo
    cases ho : (p eoi s).out with
    | ok x =>
      simp only [ho]
      rcases ha with ha | ha
      · exact touch_ok.2 (Or.inl (mergeAlts_left ha))
      · exact touch_ok.2 (Or.inr (Nat.le_trans (hp.suf eoi s).length_le ha))
    | error e =>
      simp only [ho]
      cases s with
      | nil => exact touch_error.2 (by have := hp.err ho; simp at this; omega)
      | cons y t =>
        simp only
        refine ih (by simp at hf; omega) ?_
        rcases ha with ha | ha
        · exact Or.inl (mergeAlts_left ha)
        · exact Or.inr (by simp at ha; omega)

theorem rel_takeUntil {p : P O β} (hp : Bl C false n p p) :
    ∀ fuel fuel' {u outs alt alt' pan pan'}, u <:+ C.U → u.length ≤ n →
    (u ++ C.v).length < fuel → (u ++ C.v').length < fuel' →
    Pair C.v C.v' (takeUntilGo p C.eoi fuel outs alt pan (u ++ C.v))
      (takeUntilGo p C.eoi' fuel' outs alt' pan' (u ++ C.v')) := by
  intro fuel
  induction fuel with
  | zero => intro _ _ _ _ _ _ _ _ _ h; omega
  | succ f ih =>
    intro fuel' u outs alt alt' pan pan' hu hn hf hf'
    cases fuel' with
    | zero => omega
    | succ f' =>
      cases u with
      | nil => exact Or.inl (touch_takeUntil_alt hp.inn _ hf (Or.inr (Nat.le_refl _)))
      | cons x u =>
        have hu' := tail_suf.trans hu
        have hn' : u.length ≤ n := by simp at hn; omega
        rcases hp.run (x :: u) hu hn (by simp) with ht | ⟨a, alt1, alt1', w, h1, h2, h3, h4⟩ | ⟨⟨e, h1⟩, ⟨e', h2⟩⟩
        · refine Or.inl ?_
          unfold takeUntilGo
          cases ho : (p C.eoi (x :: u ++ C.v)).out with
          | ok y =>
            simp only [ho]
            exact touch_ok.2 (((touch_ok' (a := y.1) (alt := y.2) ho).1 ht).imp mergeAlts_right id)
          | error e =>
            simp only [ho]
            simp only [List.cons_append]
            exact touch_takeUntil_alt hp.inn _ (by simp at hf ⊢; omega) (Or.inl (mergeAlts_right (al_some.2 ((touch_error' ho).1 ht))))
        · exact rel_ok (a := (outs, a)) (alt := mergeAlts alt alt1) (alt' := mergeAlts alt' alt1') (w := w)
            (by unfold takeUntilGo; simp only [h1]) (by unfold takeUntilGo; simp only [h2])
            (by unfold takeUntilGo; simp only [h1, h3]) (by unfold takeUntilGo; simp only [h2, h4])
        · unfold takeUntilGo
          simp only [h1, h2]
          simp only [List.cons_append]
          exact ih f' hu' hn' (by simp at hf ⊢; omega) (by simp at hf' ⊢; omega)

theorem Bl.takeUntil {p : P O β} (hp : Bl C false n p p) : Bl C k n (takeUntil p) (takeUntil p) :=
  ⟨fun e n => tr_takeUntil (hp.inn e n),
   fun u hu hn _ => rel_takeUntil hp _ _ hu hn (Nat.lt_succ_self _) (Nat.lt_succ_self _)⟩

/-! ### Separated items -/

theorem sepDelim_touch {delim : P O β} (hd : In delim) {eoi : Sp O} {m : Nat} {alt s} (h : Al m alt ∨ s.length ≤ m) :
    Al m (sepDelim delim eoi alt s).1 ∨ (sepDelim delim eoi alt s).2.2.length ≤ m := by
  unfold sepDelim
  cases ho : (delim eoi s).out with
  | ok x =>
    simp only [ho]
    exact h.imp mergeAlts_left (fun h => Nat.le_trans (hd.suf eoi s).length_le h)
  | error e =>
    simp only [ho]
    exact h.imp mergeAlts_left id

theorem sepDelim_rel {delim : P O β} (hd : Bl C false n delim delim) {u alt alt'}
    (hu : u <:+ C.U) (hn : u.length ≤ n) :
    (Al C.v.length (sepDelim delim C.eoi alt (u ++ C.v)).1 ∨
      (sepDelim delim C.eoi alt (u ++ C.v)).2.2.length ≤ C.v.length) ∨
    ∃ w, w <:+ u ∧ (sepDelim delim C.eoi alt (u ++ C.v)).2.2 = w ++ C.v ∧
      (sepDelim delim C.eoi' alt' (u ++ C.v')).2.2 = w ++ C.v' := by
  rcases hd.run u hu hn (by simp) with ht | ⟨a, alt1, alt1', w, h1, h2, h3, h4⟩ | ⟨⟨e, h1⟩, ⟨e', h2⟩⟩
  · left
    unfold sepDelim
    cases ho : (delim C.eoi (u ++ C.v)).out with
    | ok x =>
      simp only [ho]
      exact ((touch_ok' (a := x.1) (alt := x.2) ho).1 ht).imp (fun h => mergeAlts_right (mergeAltsL_left h)) id
    | error e =>
      simp only [ho]
      exact Or.inl (mergeAlts_right (mergeAltsL_left (al_some.2 ((touch_error' ho).1 ht))))
  · right
    have hw : w <:+ u := by
      have := hd.inn.suf C.eoi (u ++ C.v)
      rw [h3] at this
      exact suf_of_append this
    exact ⟨w, hw, by simp [sepDelim, h1, h3], by simp [sepDelim, h2, h4]⟩
  · right
    exact ⟨u, List.suffix_rfl, by simp [sepDelim, h1], by simp [sepDelim, h2]⟩

theorem sepGo_touch {item : P O α} {delim : P O β} (hi : In item) (hd : In delim) {eoi : Sp O} {m : Nat} :
    ∀ fuel {outs errs alt pan s}, Al m alt ∨ s.length ≤ m →
    Al m (sepGo item delim eoi fuel outs errs alt pan s).2.2.1 ∨
    (sepGo item delim eoi fuel outs errs alt pan s).2.2.2.2.1.length ≤ m := by
  intro fuel
  induction fuel with
  | zero => intro _ _ _ _ s h; exact h
  | succ f ih =>
    intro outs errs alt pan s h
    unfold sepGo
    cases ho : (delim eoi s).out with
    | error e => simp only [ho]; exact h
    | ok x =>
      simp only [ho]
      cases ho2 : (item eoi (delim eoi s).rest).out with
      | error e => simp only [ho2]; exact h.imp mergeAlts_left id
      | ok y =>
        simp only [ho2]
        split
        · refine ih (h.imp (fun h => mergeAlts_left (mergeAlts_left h)) ?_)
          intro h
          exact Nat.le_trans ((hi.suf _ _).trans (hd.suf _ _)).length_le h
        · exact h

theorem sepGo_rel {item item' : P O α} {delim : P O β} (hi : Bl C false n item item') (hd : Bl C false n delim delim) (heat : Eats 1 item) :
    ∀ fuel fuel' {u outs errs errs' alt alt' pan pan'}, u <:+ C.U → u.length ≤ n →
    (u ++ C.v).length < fuel → (u ++ C.v').length < fuel' →
    (Al C.v.length (sepGo item delim C.eoi fuel outs errs alt pan (u ++ C.v)).2.2.1 ∨
      (sepGo item delim C.eoi fuel outs errs alt pan (u ++ C.v)).2.2.2.2.1.length ≤ C.v.length ∨
      Al C.v.length (sepGo item delim C.eoi fuel outs errs alt pan (u ++ C.v)).2.2.2.2.2) ∨
    ∃ w, w <:+ u ∧
      (sepGo item delim C.eoi fuel outs errs alt pan (u ++ C.v)).1 =
        (sepGo item' delim C.eoi' fuel' outs errs' alt' pan' (u ++ C.v')).1 ∧
      (sepGo item delim C.eoi fuel outs errs alt pan (u ++ C.v)).2.2.2.2.1 = w ++ C.v ∧
      (sepGo item' delim C.eoi' fuel' outs errs' alt' pan' (u ++ C.v')).2.2.2.2.1 = w ++ C.v' := by
  intro fuel
  induction fuel with
  | zero => intro _ _ _ _ _ _ _ _ _ _ _ h; omega
  | succ f ih =>
    intro fuel' u outs errs errs' alt alt' pan pan' hu hn hf hf'
    cases fuel' with
    | zero => omega
    | succ f' =>
      rcases hd.run u hu hn (by simp) with ht | ⟨a, alt1, alt1', w, h1, h2, h3, h4⟩ | ⟨⟨e, h1⟩, ⟨e', h2⟩⟩
      · left
        unfold sepGo
        cases ho : (delim C.eoi (u ++ C.v)).out with
        | error e =>
          simp only [ho]
          exact Or.inr (Or.inr (al_some.2 ((touch_error' ho).1 ht)))
        | ok x =>
          simp only [ho]
          have ht' := (touch_ok' (a := x.1) (alt := x.2) ho).1 ht
          cases ho2 : (item C.eoi (delim C.eoi (u ++ C.v)).rest).out with
          | error e =>
            simp only [ho2]
            rcases ht' with h | h
            · exact Or.inl (mergeAlts_right h)
            · exact Or.inr (Or.inr (al_some.2 (Nat.le_trans (hi.inn.err ho2) h)))
          | ok y =>
            have h5 := heat C.eoi _ _ ho2
            have h6 := (hd.inn.suf C.eoi (u ++ C.v)).length_le
            simp only [ho2]
            rw [if_pos (by omega)]
            refine (sepGo_touch hi.inn hd.inn _ ?_).imp id Or.inl
            rcases ht' with h | h
            · exact Or.inl (mergeAlts_left (mergeAlts_right h))
            · exact Or.inr (by omega)
      · have hw : w <:+ u := by
          have := hd.inn.suf C.eoi (u ++ C.v)
          rw [h3] at this
          exact suf_of_append this
        unfold sepGo
        simp only [h1, h2, h3, h4]
        rcases hi.run w (hw.trans hu) (Nat.le_trans hw.length_le hn) (by simp) with
          ht | ⟨b, alt2, alt2', w2, g1, g2, g3, g4⟩ | ⟨⟨e, g1⟩, ⟨e', g2⟩⟩
        · left
          cases ho2 : (item C.eoi (w ++ C.v)).out with
          | error e =>
            simp only [ho2]
            exact Or.inr (Or.inr (al_some.2 ((touch_error' ho2).1 ht)))
          | ok y =>
            have h5 := heat C.eoi _ _ ho2
            have h6 := hw.length_le
            simp only [ho2]
            rw [if_pos (by simp at h5 ⊢; omega)]
            exact (sepGo_touch hi.inn hd.inn _ (((touch_ok' (a := y.1) (alt := y.2) ho2).1 ht).imp mergeAlts_right id)).imp id Or.inl
        · have h5 := heat C.eoi _ _ g1
          have h6 := hw.length_le
          have hw2 : w2 <:+ w := by
            have := hi.inn.suf C.eoi (w ++ C.v)
            rw [g3] at this
            exact suf_of_append this
          simp only [g1, g2, g3, g4]
          rw [g3] at h5
          simp only [List.length_append] at h5
          rw [if_pos (by simp; omega), if_pos (by simp; omega)]
          generalize mergeAlts (mergeAlts alt alt1) alt2 = A
          generalize mergeAlts (mergeAlts alt' alt1') alt2' = A'
          generalize (errs ++ _ ++ _) = E
          generalize (errs' ++ _ ++ _) = E'
          generalize (pan || _ || _ || _ || _) = B
          generalize (pan' || _ || _ || _ || _) = B'
          refine Or.imp id ?_ (ih f' (errs := E) (errs' := E') (alt := A) (alt' := A') (pan := B) (pan' := B') (u := w2) (outs := outs ++ [b]) (hw2.trans (hw.trans hu)) (Nat.le_trans (hw2.trans hw).length_le hn)
            (by simp at hf ⊢; omega) (by simp at hf' ⊢; omega))
          rintro ⟨w3, i1, i2⟩
          exact ⟨w3, i1.trans (hw2.trans hw), i2⟩
        · right
          simp only [g1, g2]
          exact ⟨u, List.suffix_rfl, by simp⟩
      · right
        unfold sepGo
        simp only [h1, h2]
        exact ⟨u, List.suffix_rfl, by simp⟩

theorem Bl.separatedBy {item item' : P O α} {delim : P O β} (hi : Bl C false n item item') (hd : Bl C false n delim delim) (heat : Eats 1 item) :
    Bl C k n (separatedBy item delim) (separatedBy item' delim) := by
  refine ⟨fun e n => tr_separatedBy (hi.inn e n) (hd.inn e n), ?_⟩
  intro u hu hn hs
  unfold Knuffel.separatedBy
  simp only
  -- once the last tokens have been looked at, the result has
  have final : ∀ {outs errs alt pan s err} {pan2}, Al C.v.length alt ∨ s.length ≤ C.v.length ∨ Al C.v.length err →
      Touch C.v.length (⟨pan || (sepDelim delim C.eoi alt s).2.1 || pan2, errs,
        .ok (outs, mergeAlts (sepDelim delim C.eoi alt s).1 err), (sepDelim delim C.eoi alt s).2.2⟩ : PRes O (List α)) := by
    intro outs errs alt pan s err pan2 h
    rcases h with h | h | h
    · rcases sepDelim_touch hd.inn (eoi := C.eoi) (alt := alt) (s := s) (Or.inl h) with h | h
      · exact touch_ok.2 (Or.inl (mergeAlts_left h))
      · exact touch_ok.2 (Or.inr h)
    · rcases sepDelim_touch hd.inn (eoi := C.eoi) (alt := alt) (s := s) (Or.inr h) with h | h
      · exact touch_ok.2 (Or.inl (mergeAlts_left h))
      · exact touch_ok.2 (Or.inr h)
    · exact touch_ok.2 (Or.inl (mergeAlts_right h))
  rcases sepDelim_rel (alt := none) (alt' := none) hd hu hn with ht | ⟨w, hw, h1, h2⟩
  · left
    cases ho : (item C.eoi (sepDelim delim C.eoi none (u ++ C.v)).2.2).out with
    | error e =>
      simp only [ho]
      rcases ht with h | h
      · exact touch_ok.2 (Or.inl (mergeAlts_left h))
      · exact touch_ok.2 (Or.inr h)
    | ok y =>
      simp only [ho]
      refine final ((sepGo_touch hi.inn hd.inn _ ?_).imp id Or.inl)
      exact ht.imp mergeAlts_left (fun h => Nat.le_trans (hi.inn.suf _ _).length_le h)
  · rw [h1, h2]
    rcases hi.run w (hw.trans hu) (Nat.le_trans hw.length_le hn) (by simp) with
      ht | ⟨b, alt2, alt2', w2, g1, g2, g3, g4⟩ | ⟨⟨e, g1⟩, ⟨e', g2⟩⟩
    · left
      cases ho : (item C.eoi (w ++ C.v)).out with
      | error e =>
        simp only [ho]
        exact touch_ok.2 (Or.inl (mergeAlts_right (al_some.2 ((touch_error' ho).1 ht))))
      | ok y =>
        simp only [ho]
        refine final ((sepGo_touch hi.inn hd.inn _ ?_).imp id Or.inl)
        exact ((touch_ok' (a := y.1) (alt := y.2) ho).1 ht).imp mergeAlts_right id
    · have hw2 : w2 <:+ w := by
        have := hi.inn.suf C.eoi (w ++ C.v)
        rw [g3] at this
        exact suf_of_append this
      simp only [g1, g2, g3, g4]
      have hu2 := hw2.trans (hw.trans hu)
      rcases sepGo_rel hi hd heat ((w2 ++ C.v).length + 1) ((w2 ++ C.v').length + 1) (u := w2) (outs := [b])
          (errs := (item C.eoi (w ++ C.v)).errs) (errs' := (item' C.eoi' (w ++ C.v')).errs)
          (alt := mergeAlts (sepDelim delim C.eoi none (u ++ C.v)).1 alt2)
          (alt' := mergeAlts (sepDelim delim C.eoi' none (u ++ C.v')).1 alt2')
          (pan := (sepDelim delim C.eoi none (u ++ C.v)).2.1 || (item C.eoi (w ++ C.v)).panicked ||
            clashAlts (sepDelim delim C.eoi none (u ++ C.v)).1 alt2)
          (pan' := (sepDelim delim C.eoi' none (u ++ C.v')).2.1 || (item' C.eoi' (w ++ C.v')).panicked ||
            clashAlts (sepDelim delim C.eoi' none (u ++ C.v')).1 alt2')
          hu2 (Nat.le_trans (hw2.trans hw).length_le hn)
          (Nat.lt_succ_self _) (Nat.lt_succ_self _) with ht | ⟨w3, hw3, i1, i2, i3⟩
      · left; exact final ht
      · rw [i1, i2, i3]
        generalize (sepGo item delim C.eoi _ _ _ _ _ _).2.2.1 = alt4
        generalize (sepGo item' delim C.eoi' _ _ _ _ _ _).2.2.1 = alt4'
        generalize (sepGo item delim C.eoi _ _ _ _ _ _).2.2.2.2.2 = err4
        generalize (sepGo item' delim C.eoi' _ _ _ _ _ _).2.2.2.2.2 = err4'
        rcases sepDelim_rel (alt := alt4) (alt' := alt4') hd (hw3.trans hu2)
            (Nat.le_trans (hw3.trans (hw2.trans hw)).length_le hn) with ht | ⟨w5, hw5, j1, j2⟩
        · left
          exact touch_ok.2 (ht.imp mergeAlts_left id)
        · exact rel_ok (w := w5) rfl rfl j1 j2
    · simp only [g1, g2]
      exact rel_ok (w := w) rfl rfl rfl rfl

end Knuffel
