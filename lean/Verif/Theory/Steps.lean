import Verif.Model.Steps
import Verif.Theory.Strict
import Verif.Theory.Quiet
/-!
# Bounds on the number of looks at the stream: combinators

`Const b p`: at most `b` looks.  `Fast a p`: a success takes looks in proportion to
the characters it takes, a failure at most `a`.  `Slow a p`: a failure takes looks
in proportion to the remaining text.  `Lin a p`: always in proportion to the
remaining text.  All under the condition that every comment opened in the
remaining text is closed.
-/

set_option linter.unusedSectionVars false
set_option linter.unusedVariables false

namespace Knuffel.Steps
open Cst

variable {O α β γ : Type}

/-- Every comment that is opened is closed. -/
def Closed (s : List (Tok O)) : Prop := ∀ u v, chars s = u ++ '/' :: '*' :: v → afterComment 1 v ≠ none

theorem Closed.suf {s t : List (Tok O)} (h : Closed s) (hs : t <:+ s) : Closed t := by
  intro u v hv
  obtain ⟨w, rfl⟩ := hs
  exact h (chars w ++ u) v (by rw [chars_append, hv, List.append_assoc])

/-- At most `b` looks. -/
structure Const (b : Nat) (p : PS O α) : Prop where
  cost : ∀ eoi s, p.cost eoi s ≤ b
  suf : Suf p.run

/-- Looks in proportion to the characters taken, failures immediate. -/
structure Fast (a : Nat) (p : PS O α) : Prop where
  ok : ∀ eoi s x, Closed s → (p.run eoi s).out = .ok x →
    p.cost eoi s + a * (p.run eoi s).rest.length ≤ a * s.length + a
  err : ∀ eoi s e, Closed s → (p.run eoi s).out = .error e → p.cost eoi s ≤ a
  suf : Suf p.run

/-- Looks in proportion to the characters taken, failures in proportion to the text. -/
structure Slow (a : Nat) (p : PS O α) : Prop where
  ok : ∀ eoi s x, Closed s → (p.run eoi s).out = .ok x →
    p.cost eoi s + a * (p.run eoi s).rest.length ≤ a * s.length + a
  err : ∀ eoi s e, Closed s → (p.run eoi s).out = .error e → p.cost eoi s ≤ a * s.length + a
  suf : Suf p.run

/-- Looks in proportion to the remaining text. -/
structure Lin (a : Nat) (p : PS O α) : Prop where
  cost : ∀ eoi s, Closed s → p.cost eoi s ≤ a * s.length + a
  suf : Suf p.run

theorem Const.fast {b} {p : PS O α} (h : Const b p) : Fast b p :=
  ⟨fun eoi s _ _ _ => by
    have h1 := h.cost eoi s
    have h2 := Nat.mul_le_mul_left b (h.suf eoi s).length_le
    omega, fun eoi s _ _ _ => h.cost eoi s, h.suf⟩

theorem Fast.slow {a} {p : PS O α} (h : Fast a p) : Slow a p :=
  ⟨h.ok, fun eoi s e hc he => by have := h.err eoi s e hc he; omega, h.suf⟩

theorem Slow.lin {a} {p : PS O α} (h : Slow a p) : Lin a p :=
  ⟨fun eoi s hc => by
    cases hp : (p.run eoi s).out with
    | ok x => have := h.ok eoi s x hc hp; omega
    | error e => exact h.err eoi s e hc hp, h.suf⟩

theorem Fast.lin {a} {p : PS O α} (h : Fast a p) : Lin a p := h.slow.lin
theorem Const.lin {a} {p : PS O α} (h : Const a p) : Lin a p := h.fast.lin

theorem Const.mono {a b} {p : PS O α} (h : Const a p) (hab : a ≤ b) : Const b p :=
  ⟨fun eoi s => Nat.le_trans (h.cost eoi s) hab, h.suf⟩

theorem Lin.mono {a b} {p : PS O α} (h : Lin a p) (hab : a ≤ b) : Lin b p :=
  ⟨fun eoi s hc => by
    have := h.cost eoi s hc; have := Nat.mul_le_mul_right s.length hab; omega, h.suf⟩

/-! ### Primitives -/

theorem const_just {c} : Const 1 (just c : PS O Char) := ⟨fun _ _ => Nat.le_refl _, suf_just⟩
theorem const_filter {f} : Const 1 (filter f : PS O Char) := ⟨fun _ _ => Nat.le_refl _, suf_filter⟩
theorem const_noneOf {c} : Const 1 (noneOf c : PS O Char) := const_filter
theorem const_filterMap {f : Sp O → Char → Except (PErr O) α} : Const 1 (filterMap f) :=
  ⟨fun _ _ => Nat.le_refl _, suf_filterMap⟩
theorem const_endP : Const 1 (endP : PS O Unit) := ⟨fun _ _ => Nat.le_refl _, suf_endP⟩

theorem strCost_le : ∀ (cs : Str) (s : List (Tok O)), strCost cs s ≤ cs.length
  | [], s => by simp [strCost]
  | c :: cs, [] => by simp [strCost]
  | c :: cs, (x, _) :: t => by
    have := strCost_le cs t
    simp only [strCost, List.length_cons]; split <;> omega

theorem const_justStr {cs} : Const cs.length (justStr cs : PS O Unit) :=
  ⟨fun _ s => strCost_le cs s, suf_justStr⟩

/-! ### Mapping -/

theorem Const.pmap {b} {f : α → β} {p : PS O α} (h : Const b p) : Const b (pmap f p) := ⟨h.cost, suf_pmap h.suf⟩
theorem Const.ignored {b} {p : PS O α} (h : Const b p) : Const b (ignored p) := h.pmap
theorem Const.mapErr {b} {f} {p : PS O α} (h : Const b p) : Const b (mapErr f p) := ⟨h.cost, suf_mapErr h.suf⟩
theorem Const.mapErrWithSpan {b} {f} {p : PS O α} (h : Const b p) : Const b (mapErrWithSpan f p) :=
  ⟨h.cost, suf_mapErrWithSpan h.suf⟩
theorem Const.mapWithSpan {b} {f : α → Sp O → β} {p : PS O α} (h : Const b p) : Const b (mapWithSpan f p) :=
  ⟨h.cost, suf_mapWithSpan h.suf⟩
theorem Const.tryMap {b} {f : α → Sp O → Except (PErr O) β} {p : PS O α} (h : Const b p) : Const b (tryMap f p) :=
  ⟨h.cost, suf_tryMap h.suf⟩
theorem Const.orNot {b} {p : PS O α} (h : Const b p) : Const b (orNot p) := ⟨h.cost, suf_orNot h.suf⟩
theorem Const.rewind {b} {p : PS O α} (h : Const b p) : Const b (rewind p) := ⟨h.cost, suf_rewind h.suf⟩

theorem Lin.pmap {b} {f : α → β} {p : PS O α} (h : Lin b p) : Lin b (pmap f p) := ⟨h.cost, suf_pmap h.suf⟩
theorem Lin.ignored {b} {p : PS O α} (h : Lin b p) : Lin b (ignored p) := h.pmap
theorem Lin.mapErr {b} {f} {p : PS O α} (h : Lin b p) : Lin b (mapErr f p) := ⟨h.cost, suf_mapErr h.suf⟩
theorem Lin.mapErrWithSpan {b} {f} {p : PS O α} (h : Lin b p) : Lin b (mapErrWithSpan f p) :=
  ⟨h.cost, suf_mapErrWithSpan h.suf⟩
theorem Lin.mapWithSpan {b} {f : α → Sp O → β} {p : PS O α} (h : Lin b p) : Lin b (mapWithSpan f p) :=
  ⟨h.cost, suf_mapWithSpan h.suf⟩
theorem Lin.tryMap {b} {f : α → Sp O → Except (PErr O) β} {p : PS O α} (h : Lin b p) : Lin b (tryMap f p) :=
  ⟨h.cost, suf_tryMap h.suf⟩
theorem Lin.validate {b} {f : α → Sp O → List (PErr O)} {p : PS O α} (h : Lin b p) : Lin b (validate f p) :=
  ⟨h.cost, suf_validate h.suf⟩
theorem Lin.orNot {b} {p : PS O α} (h : Lin b p) : Lin b (orNot p) := ⟨h.cost, suf_orNot h.suf⟩

/-- A mapping keeps the outcome. -/
theorem pmap_ok {f : α → β} {p : PS O α} {eoi s x} (h : ((pmap f p).run eoi s).out = .ok x) :
    ∃ y, (p.run eoi s).out = .ok y := by
  cases hp : (p.run eoi s).out with
  | ok y => exact ⟨y, rfl⟩
  | error e => simp [pmap, Knuffel.pmap, hp] at h
theorem pmap_err {f : α → β} {p : PS O α} {eoi s x} (h : ((pmap f p).run eoi s).out = .error x) :
    ∃ y, (p.run eoi s).out = .error y := by
  cases hp : (p.run eoi s).out with
  | ok y => simp [pmap, Knuffel.pmap, hp] at h
  | error e => exact ⟨e, rfl⟩
theorem mapErr_ok {f} {p : PS O α} {eoi s x} (h : ((mapErr f p).run eoi s).out = .ok x) :
    ∃ y, (p.run eoi s).out = .ok y := by
  cases hp : (p.run eoi s).out with
  | ok y => exact ⟨y, rfl⟩
  | error e => simp [mapErr, Knuffel.mapErr, hp] at h
theorem mapErr_err {f} {p : PS O α} {eoi s x} (h : ((mapErr f p).run eoi s).out = .error x) :
    ∃ y, (p.run eoi s).out = .error y := by
  cases hp : (p.run eoi s).out with
  | ok y => simp [mapErr, Knuffel.mapErr, hp] at h
  | error e => exact ⟨e, rfl⟩

theorem Fast.pmap {b} {f : α → β} {p : PS O α} (h : Fast b p) : Fast b (pmap f p) :=
  ⟨fun eoi s x hc hx => (pmap_ok hx).elim fun y hy => h.ok eoi s y hc hy,
   fun eoi s x hc hx => (pmap_err hx).elim fun y hy => h.err eoi s y hc hy, suf_pmap h.suf⟩
theorem Fast.ignored {b} {p : PS O α} (h : Fast b p) : Fast b (ignored p) := h.pmap
theorem Fast.mapErr {b} {f} {p : PS O α} (h : Fast b p) : Fast b (mapErr f p) :=
  ⟨fun eoi s x hc hx => (mapErr_ok hx).elim fun y hy => h.ok eoi s y hc hy,
   fun eoi s x hc hx => (mapErr_err hx).elim fun y hy => h.err eoi s y hc hy, suf_mapErr h.suf⟩
theorem Slow.pmap {b} {f : α → β} {p : PS O α} (h : Slow b p) : Slow b (pmap f p) :=
  ⟨fun eoi s x hc hx => (pmap_ok hx).elim fun y hy => h.ok eoi s y hc hy,
   fun eoi s x hc hx => (pmap_err hx).elim fun y hy => h.err eoi s y hc hy, suf_pmap h.suf⟩

/-! ### Sequence -/

/-- What a sequence does. -/
theorem bind_cases (p : PS O α) (f : α → PS O β) (eoi s) :
    (∃ e e', (p.run eoi s).out = .error e ∧ ((bind p f).run eoi s).out = .error e' ∧
      ((bind p f).run eoi s).rest = (p.run eoi s).rest ∧ (bind p f).cost eoi s = p.cost eoi s) ∨
    (∃ a alt, (p.run eoi s).out = .ok (a, alt) ∧
      (bind p f).cost eoi s = p.cost eoi s + (f a).cost eoi (p.run eoi s).rest ∧
      ((bind p f).run eoi s).rest = ((f a).run eoi (p.run eoi s).rest).rest ∧
      ((∃ x y, ((bind p f).run eoi s).out = .ok x ∧ ((f a).run eoi (p.run eoi s).rest).out = .ok y) ∨
       (∃ x y, ((bind p f).run eoi s).out = .error x ∧
          ((f a).run eoi (p.run eoi s).rest).out = .error y))) := by
  cases hp : (p.run eoi s).out with
  | error e =>
    refine .inl ⟨e, e, rfl, ?_⟩
    simp [bind, Knuffel.bind, hp]
  | ok x =>
    obtain ⟨a, alt⟩ := x
    refine .inr ⟨a, alt, rfl, ?_⟩
    cases hq : ((f a).run eoi (p.run eoi s).rest).out with
    | error e => simp [bind, Knuffel.bind, hp, hq]
    | ok y => obtain ⟨b, alt2⟩ := y; simp [bind, Knuffel.bind, hp, hq]

theorem Const.bind {a b} {p : PS O α} {f : α → PS O β} (hp : Const a p) (hf : ∀ x, Const b (f x)) :
    Const (a + b) (bind p f) := by
  refine ⟨fun eoi s => ?_, suf_bind hp.suf (fun x => (hf x).suf)⟩
  have h1 := hp.cost eoi s
  rcases bind_cases p f eoi s with ⟨e, e', _, _, _, h⟩ | ⟨x, alt, _, h, _⟩
  · omega
  · have := (hf x).cost eoi (p.run eoi s).rest; omega

theorem Lin.bind {a b} {p : PS O α} {f : α → PS O β} (hp : Lin a p) (hf : ∀ x, Lin b (f x)) :
    Lin (a + b) (bind p f) := by
  refine ⟨fun eoi s hc => ?_, suf_bind hp.suf (fun x => (hf x).suf)⟩
  have h1 := hp.cost eoi s hc
  have hs := hp.suf eoi s
  rw [Nat.add_mul]
  rcases bind_cases p f eoi s with ⟨e, e', _, _, _, h⟩ | ⟨x, alt, _, h, _⟩
  · omega
  · have h2 := (hf x).cost eoi (p.run eoi s).rest (hc.suf hs)
    have h3 := Nat.mul_le_mul_left b hs.length_le
    omega

theorem Slow.bind {a b} {p : PS O α} {f : α → PS O β} (hp : Slow a p) (hf : ∀ x, Slow b (f x)) :
    Slow (a + b) (bind p f) := by
  have key : ∀ eoi s, Closed s → _ := fun eoi s hc => bind_cases p f eoi s
  refine ⟨fun eoi s x hc hx => ?_, fun eoi s e hc hx => ?_, suf_bind hp.suf (fun x => (hf x).suf)⟩
  · rcases bind_cases p f eoi s with ⟨e, e', _, h, _⟩ | ⟨y, alt, h1, h2, h3, ⟨_, z, _, h4⟩ | ⟨_, _, h4, _⟩⟩
    · rw [h] at hx; exact absurd hx (by simp)
    · have k1 := hp.ok eoi s _ hc h1
      have k2 := (hf y).ok eoi _ z (hc.suf (hp.suf eoi s)) h4
      have k3 := ((hf y).suf eoi (p.run eoi s).rest).length_le
      have k4 := (hp.suf eoi s).length_le
      have k5 := Nat.mul_le_mul_left a k3
      have k6 := Nat.mul_le_mul_left b k4
      rw [h2, h3, Nat.add_mul, Nat.add_mul]
      omega
    · rw [h4] at hx; exact absurd hx (by simp)
  · rcases bind_cases p f eoi s with ⟨e, e', h0, h, _, hh⟩ | ⟨y, alt, h1, h2, h3, ⟨_, z, h4, _⟩ | ⟨_, z, _, h4⟩⟩
    · have := hp.err eoi s _ hc h0
      rw [hh, Nat.add_mul]; omega
    · rw [h4] at hx; exact absurd hx (by simp)
    · have k1 := hp.ok eoi s _ hc h1
      have k2 := (hf y).err eoi _ z (hc.suf (hp.suf eoi s)) h4
      have k4 := (hp.suf eoi s).length_le
      have k6 := Nat.mul_le_mul_left b k4
      rw [h2, Nat.add_mul]
      omega

/-- After a parser with bounded looks the failures stay immediate. -/
theorem Fast.bind_const {a b} {p : PS O α} {f : α → PS O β} (hp : Const a p) (hf : ∀ x, Fast b (f x)) :
    Fast (a + b) (bind p f) := by
  have hs := hp.fast.slow.bind (fun x => (hf x).slow)
  refine ⟨hs.ok, fun eoi s e hc hx => ?_, hs.suf⟩
  have k0 := hp.cost eoi s
  rcases bind_cases p f eoi s with ⟨e, e', h0, h, _, hh⟩ | ⟨y, alt, h1, h2, h3, ⟨_, z, h4, _⟩ | ⟨_, z, _, h4⟩⟩
  · omega
  · rw [h4] at hx; exact absurd hx (by simp)
  · have k2 := (hf y).err eoi _ z (hc.suf (hp.suf eoi s)) h4
    omega

theorem Const.seq {a b} {p : PS O α} {q : PS O β} (hp : Const a p) (hq : Const b q) : Const (a + b) (seq p q) :=
  hp.bind fun _ => hq.pmap
theorem Const.ignoreThen {a b} {p : PS O α} {q : PS O β} (hp : Const a p) (hq : Const b q) :
    Const (a + b) (ignoreThen p q) := hp.bind fun _ => hq
theorem Const.thenIgnore {a b} {p : PS O α} {q : PS O β} (hp : Const a p) (hq : Const b q) :
    Const (a + b) (thenIgnore p q) := hp.bind fun _ => hq.pmap
theorem Const.delimitedBy {a b c} {p : PS O α} {l : PS O β} {r : PS O γ} (hp : Const a p) (hl : Const b l)
    (hr : Const c r) : Const (b + a + c) (delimitedBy p l r) := (hl.ignoreThen hp).thenIgnore hr
theorem Lin.seq {a b} {p : PS O α} {q : PS O β} (hp : Lin a p) (hq : Lin b q) : Lin (a + b) (seq p q) :=
  hp.bind fun _ => hq.pmap
theorem Lin.ignoreThen {a b} {p : PS O α} {q : PS O β} (hp : Lin a p) (hq : Lin b q) :
    Lin (a + b) (ignoreThen p q) := hp.bind fun _ => hq
theorem Lin.thenIgnore {a b} {p : PS O α} {q : PS O β} (hp : Lin a p) (hq : Lin b q) :
    Lin (a + b) (thenIgnore p q) := hp.bind fun _ => hq.pmap
theorem Lin.delimitedBy {a b c} {p : PS O α} {l : PS O β} {r : PS O γ} (hp : Lin a p) (hl : Lin b l)
    (hr : Lin c r) : Lin (b + a + c) (delimitedBy p l r) := (hl.ignoreThen hp).thenIgnore hr

/-! ### Alternatives -/

theorem Const.orP {a b} {p q : PS O α} (hp : Const a p) (hq : Const b q) : Const (a + b) (orP p q) :=
  ⟨fun eoi s => by
    have h1 := hp.cost eoi s; have h2 := hq.cost eoi s
    simp only [Steps.orP]; split <;> omega, suf_orP hp.suf hq.suf⟩

theorem Lin.orP {a b} {p q : PS O α} (hp : Lin a p) (hq : Lin b q) : Lin (a + b) (orP p q) :=
  ⟨fun eoi s hc => by
    have h1 := hp.cost eoi s hc; have h2 := hq.cost eoi s hc
    simp only [Steps.orP, Nat.add_mul]; split <;> omega, suf_orP hp.suf hq.suf⟩

/-- What an alternative does if the first parser records no errors. -/
theorem orP_cases {p : PS O α} (hq : Quiet p.run) (q : PS O α) (eoi s) :
    ((∃ x, (p.run eoi s).out = .ok x) ∧ (orP p q).run eoi s = p.run eoi s ∧
      (orP p q).cost eoi s = p.cost eoi s) ∨
    (∃ e, (p.run eoi s).out = .error e ∧ (orP p q).cost eoi s = p.cost eoi s + q.cost eoi s ∧
      ((∃ x y, ((orP p q).run eoi s).out = .ok x ∧ (q.run eoi s).out = .ok y ∧
          ((orP p q).run eoi s).rest = (q.run eoi s).rest) ∨
        ∃ x y, ((orP p q).run eoi s).out = .error x ∧ (q.run eoi s).out = .error y)) := by
  have h0 := hq eoi s
  cases hp : (p.run eoi s).out with
  | ok x =>
    have hc : (p.run eoi s).clean = true := clean_iff.2 ⟨h0, x, hp⟩
    exact .inl ⟨⟨x, rfl⟩, by simp [orP, Knuffel.orP, hc], by simp [orP, hc]⟩
  | error e =>
    have hc : (p.run eoi s).clean = false := by
      rw [Bool.eq_false_iff]; intro h; obtain ⟨_, x, hx⟩ := clean_iff.1 h; rw [hp] at hx; simp at hx
    refine .inr ⟨e, rfl, by simp [orP, hc], ?_⟩
    cases hb : (q.run eoi s).out with
    | ok y =>
      obtain ⟨y, alt⟩ := y
      refine .inl ?_
      cases hbc : (q.run eoi s).clean with
      | true => simp [orP, Knuffel.orP, hc, hbc, hb]
      | false =>
        have hpref : preferA (p.run eoi s) (q.run eoi s) = false := by simp [preferA, hp, hb]
        simp [orP, Knuffel.orP, hc, hbc, hpref, takeA, hb]
    | error e' =>
      refine .inr ?_
      have hbc : (q.run eoi s).clean = false := by
        rw [Bool.eq_false_iff]; intro h; obtain ⟨_, x, hx⟩ := clean_iff.1 h; rw [hb] at hx; simp at hx
      cases hpref : preferA (p.run eoi s) (q.run eoi s) <;>
        simp [orP, Knuffel.orP, hc, hbc, hpref, takeA, hb, hp]

theorem Fast.orP {a b} {p q : PS O α} (hq0 : Quiet p.run) (hp : Fast a p) (hq : Fast b q) :
    Fast (a + b) (orP p q) := by
  refine ⟨fun eoi s x hc hx => ?_, fun eoi s x hc hx => ?_, suf_orP hp.suf hq.suf⟩
  · have l1 := Nat.mul_le_mul_left b (hp.suf eoi s).length_le
    have l2 := Nat.mul_le_mul_left a (hq.suf eoi s).length_le
    rw [Nat.add_mul, Nat.add_mul]
    rcases orP_cases hq0 q eoi s with ⟨⟨y, h1⟩, h2, h3⟩ | ⟨e, h1, h2, ⟨_, y, h3, h4, h5⟩ | ⟨_, y, h3, _⟩⟩
    · have := hp.ok eoi s y hc h1; rw [h2, h3]; omega
    · have := hp.err eoi s e hc h1; have := hq.ok eoi s y hc h4; rw [h2, h5]; omega
    · rw [h3] at hx; exact absurd hx (by simp)
  · rcases orP_cases hq0 q eoi s with ⟨⟨y, h1⟩, h2, h3⟩ | ⟨e, h1, h2, ⟨_, y, h3, _⟩ | ⟨_, y, h3, h4⟩⟩
    · rw [h2, h1] at hx; exact absurd hx (by simp)
    · rw [h3] at hx; exact absurd hx (by simp)
    · have := hp.err eoi s e hc h1; have := hq.err eoi s y hc h4; omega

theorem Slow.orP {a b} {p q : PS O α} (hq0 : Quiet p.run) (hp : Fast a p) (hq : Slow b q) :
    Slow (a + b) (orP p q) := by
  refine ⟨fun eoi s x hc hx => ?_, fun eoi s x hc hx => ?_, suf_orP hp.suf hq.suf⟩
  · have l1 := Nat.mul_le_mul_left b (hp.suf eoi s).length_le
    have l2 := Nat.mul_le_mul_left a (hq.suf eoi s).length_le
    rw [Nat.add_mul, Nat.add_mul]
    rcases orP_cases hq0 q eoi s with ⟨⟨y, h1⟩, h2, h3⟩ | ⟨e, h1, h2, ⟨_, y, h3, h4, h5⟩ | ⟨_, y, h3, _⟩⟩
    · have := hp.ok eoi s y hc h1; rw [h2, h3]; omega
    · have := hp.err eoi s e hc h1; have := hq.ok eoi s y hc h4; rw [h2, h5]; omega
    · rw [h3] at hx; exact absurd hx (by simp)
  · rw [Nat.add_mul]
    rcases orP_cases hq0 q eoi s with ⟨⟨y, h1⟩, h2, h3⟩ | ⟨e, h1, h2, ⟨_, y, h3, _⟩ | ⟨_, y, h3, h4⟩⟩
    · rw [h2, h1] at hx; exact absurd hx (by simp)
    · rw [h3] at hx; exact absurd hx (by simp)
    · have := hp.err eoi s e hc h1; have := hq.err eoi s y hc h4; omega

theorem suf_choiceS {ps : List (PS O α)} (h : ∀ p ∈ ps, Suf p.run) : Suf (choice ps).run :=
  suf_choice (by simpa using h)

theorem Lin.choice2 {a b} {p q : PS O α} (hp : Lin a p) (hq : Lin b q) : Lin (a + b) (choice [p, q]) := by
  refine ⟨fun eoi s hc => ?_, suf_choiceS (by simp [hp.suf, hq.suf])⟩
  have h1 := hp.cost eoi s hc; have h2 := hq.cost eoi s hc
  simp only [choice, choiceCost, Nat.add_mul]
  cases (p.run eoi s).out <;> cases (q.run eoi s).out <;> simp only <;> omega

theorem Lin.choice3 {a b c} {p q r : PS O α} (hp : Lin a p) (hq : Lin b q) (hr : Lin c r) :
    Lin (a + b + c) (choice [p, q, r]) := by
  refine ⟨fun eoi s hc => ?_, suf_choiceS (by simp [hp.suf, hq.suf, hr.suf])⟩
  have h1 := hp.cost eoi s hc; have h2 := hq.cost eoi s hc; have h3 := hr.cost eoi s hc
  simp only [choice, choiceCost, Nat.add_mul]
  cases (p.run eoi s).out <;> cases (q.run eoi s).out <;> cases (r.run eoi s).out <;> simp only <;> omega

theorem Lin.choice4 {a b c d} {p q r t : PS O α} (hp : Lin a p) (hq : Lin b q) (hr : Lin c r) (ht : Lin d t) :
    Lin (a + b + c + d) (choice [p, q, r, t]) := by
  refine ⟨fun eoi s hc => ?_, suf_choiceS (by simp [hp.suf, hq.suf, hr.suf, ht.suf])⟩
  have h1 := hp.cost eoi s hc; have h2 := hq.cost eoi s hc; have h3 := hr.cost eoi s hc
  have h4 := ht.cost eoi s hc
  simp only [choice, choiceCost, Nat.add_mul]
  cases (p.run eoi s).out <;> cases (q.run eoi s).out <;> cases (r.run eoi s).out <;>
    cases (t.run eoi s).out <;> simp only <;> omega

/-! ### Repetition -/

theorem repCost_max {b} {p : PS O α} (hp : Const b p) {m eoi} : ∀ fuel count s, count ≤ m →
    repCost p (some m) eoi fuel count s + b * count ≤ b * m := by
  intro fuel
  induction fuel with
  | zero => intro count s h; simp only [repCost]; have := Nat.mul_le_mul_left b h; omega
  | succ fuel ih =>
    intro count s h
    rw [repCost]
    split
    · have := Nat.mul_le_mul_left b h; omega
    · rename_i hne
      have hlt : count < m := by
        rcases Nat.lt_or_ge count m with h | h'
        · exact h
        · exact absurd (by rw [show m = count by omega]) hne
      have h1 := hp.cost eoi s
      have h2 := Nat.mul_le_mul_left b (show count + 1 ≤ m from hlt)
      rw [Nat.mul_add, Nat.mul_one] at h2
      cases hpo : (p.run eoi s).out with
      | error e => simp only; omega
      | ok x =>
        simp only
        split
        · have := ih (count + 1) (p.run eoi s).rest hlt
          rw [Nat.mul_add, Nat.mul_one] at this; omega
        · omega

theorem Const.repeatedMax {b m mn} {p : PS O α} (hp : Const b p) : Const (b * m) (repeatedB mn (some m) p) :=
  ⟨fun eoi s => by simpa [repeatedB] using repCost_max hp (m := m) (eoi := eoi) (s.length + 1) 0 s (Nat.zero_le _),
   suf_repeatedB hp.suf⟩

theorem repCost_slow {a} {p : PS O α} (hp : Slow a p) (he : Eats 1 p.run) {mx eoi} : ∀ fuel count s, Closed s →
    repCost p mx eoi fuel count s ≤ (a + a) * s.length + a := by
  intro fuel
  induction fuel with
  | zero => intro count s _; simp [repCost]
  | succ fuel ih =>
    intro count s hc
    rw [repCost, Nat.add_mul]
    split
    · omega
    · cases hpo : (p.run eoi s).out with
      | error e => have := hp.err eoi s e hc hpo; simp only; omega
      | ok x =>
        have h1 := hp.ok eoi s x hc hpo
        have h3 := Nat.mul_le_mul_left a (he eoi s x hpo)
        rw [Nat.mul_add, Nat.mul_one] at h3
        simp only
        split
        · have := ih (count + 1) (p.run eoi s).rest (hc.suf (hp.suf eoi s))
          rw [Nat.add_mul] at this; omega
        · omega

theorem Slow.repeatedLin {a mn mx} {p : PS O α} (hp : Slow a p) (he : Eats 1 p.run) :
    Lin (a + a) (repeatedB mn mx p) :=
  ⟨fun eoi s hc => by
    have := repCost_slow hp he (mx := mx) (eoi := eoi) (s.length + 1) 0 s hc
    simp only [repeatedB]; omega, suf_repeatedB hp.suf⟩

/-- The loop for parsers that fail at once: the looks are in proportion to the
characters taken. -/
theorem repCost_fast {a} {p : PS O α} (hp : Fast a p) (he : Eats 1 p.run) {mn mx eoi} :
    ∀ fuel outs errs alt pan s x, Closed s → (repGo p.run mn mx eoi fuel outs errs alt pan s).out = .ok x →
    repCost p mx eoi fuel outs.length s +
      (a + a) * (repGo p.run mn mx eoi fuel outs errs alt pan s).rest.length ≤ (a + a) * s.length + a := by
  intro fuel
  induction fuel with
  | zero => intro outs errs alt pan s x _ _; simp [repCost, repGo]
  | succ fuel ih =>
    intro outs errs alt pan s x hc hx
    rw [repCost]
    rw [repGo] at hx ⊢
    split
    · rename_i h
      simp only [h, ↓reduceIte] at hx ⊢
      omega
    · rename_i h
      simp only [h, ↓reduceIte] at hx ⊢
      cases hpo : (p.run eoi s).out with
      | error e =>
        simp only [hpo] at hx ⊢
        by_cases hm : outs.length < mn
        · simp [hm] at hx
        · simp only [hm, ↓reduceIte]
          have := hp.err eoi s e hc hpo
          omega
      | ok y =>
        obtain ⟨y, aalt⟩ := y
        have h1 := hp.ok eoi s _ hc hpo
        have h2 := he eoi s _ hpo
        have hl : (p.run eoi s).rest.length < s.length := by omega
        simp only [hpo, hl, ↓reduceIte] at hx ⊢
        have h3 := ih (outs ++ [y]) _ _ _ _ x (hc.suf (hp.suf eoi s)) hx
        rw [List.length_append, List.length_singleton] at h3
        have h4 := Nat.mul_le_mul_left a h2
        rw [Nat.mul_add, Nat.mul_one] at h4
        simp only [Nat.add_mul] at h3 ⊢
        omega

theorem Fast.repeated {a} {p : PS O α} (hp : Fast a p) (he : Eats 1 p.run) : Fast (a + a) (repeated p) := by
  refine ⟨fun eoi s x hc hx => ?_, fun eoi s e hc hx => ?_, suf_repeated hp.suf⟩
  · have h := repCost_fast hp he (mn := 0) (mx := none) (eoi := eoi) (s.length + 1) [] [] none false s x hc hx
    have h' : (Steps.repeated p).cost eoi s + (a + a) * ((Steps.repeated p).run eoi s).rest.length
        ≤ (a + a) * s.length + a := h
    omega
  · exfalso
    have : ∀ fuel outs errs alt pan s e, (repGo p.run 0 none eoi fuel outs errs alt pan s).out ≠ .error e := by
      intro fuel
      induction fuel with
      | zero => intro outs errs alt pan s e h; simp [repGo] at h
      | succ fuel ih =>
        intro outs errs alt pan s e h
        rw [repGo] at h
        cases hpo : (p.run eoi s).out with
        | error e' => simp [hpo] at h
        | ok y =>
          simp only [hpo] at h
          split at h
          · simp at h
          · split at h
            · exact ih _ _ _ _ _ _ h
            · simp at h
    exact this _ _ _ _ _ _ _ hx

/-- At least one: a failure is that of the first run. -/
theorem Fast.repeated1 {a} {p : PS O α} (hp : Fast a p) (he : Eats 1 p.run) :
    Fast (a + a) (repeatedB 1 none p) := by
  refine ⟨fun eoi s x hc hx => ?_, fun eoi s e hc hx => ?_, suf_repeatedB hp.suf⟩
  · have h := repCost_fast hp he (mn := 1) (mx := none) (eoi := eoi) (s.length + 1) [] [] none false s x hc hx
    have h' : (Steps.repeatedB 1 none p).cost eoi s + (a + a) * ((Steps.repeatedB 1 none p).run eoi s).rest.length
        ≤ (a + a) * s.length + a := h
    omega
  · cases hpo : (p.run eoi s).out with
    | error e' =>
      have h1 := hp.err eoi s e' hc hpo
      have : (Steps.repeatedB 1 none p).cost eoi s = p.cost eoi s := by
        simp [Steps.repeatedB, repCost, hpo]
      omega
    | ok y =>
      exfalso
      have : ∀ fuel outs errs alt pan s e, 1 ≤ outs.length →
          (repGo p.run 1 none eoi fuel outs errs alt pan s).out ≠ .error e := by
        intro fuel
        induction fuel with
        | zero => intro outs errs alt pan s e _ h; simp [repGo] at h
        | succ fuel ih =>
          intro outs errs alt pan s e hl h
          rw [repGo] at h
          cases hpo : (p.run eoi s).out with
          | error e' =>
            have : ¬ outs.length < 1 := by omega
            simp [hpo, this] at h
          | ok y =>
            simp only [hpo] at h
            split at h
            · simp at h
            · split at h
              · exact ih _ _ _ _ _ _ (by simp) h
              · simp at h
      obtain ⟨y, aalt⟩ := y
      have h2 := he eoi s _ hpo
      have hl : (p.run eoi s).rest.length < s.length := by omega
      have hx' : (repGo p.run 1 none eoi (s.length + 1) [] [] none false s).out = .error e := hx
      rw [repGo] at hx'
      simp only [hpo, hl, ↓reduceIte] at hx'
      exact this _ _ _ _ _ _ _ (by simp) hx'

/-! ### Until -/

theorem untilCost_le {b} {p : PS O β} (hp : Const b p) {eoi} : ∀ fuel outs alt pan s x,
    (takeUntilGo p.run eoi fuel outs alt pan s).out = .ok x →
    untilCost p eoi fuel s + (b + 1) * (takeUntilGo p.run eoi fuel outs alt pan s).rest.length ≤
      (b + 1) * s.length + (b + 1) := by
  intro fuel
  induction fuel with
  | zero => intro outs alt pan s x hx; simp [takeUntilGo] at hx
  | succ fuel ih =>
    intro outs alt pan s x hx
    rw [untilCost.eq_def]
    simp only
    rw [takeUntilGo] at hx ⊢
    have h1 := hp.cost eoi s
    cases hpo : (p.run eoi s).out with
    | ok y =>
      have h2 := Nat.mul_le_mul_left (b + 1) (hp.suf eoi s).length_le
      simp only [hpo]
      omega
    | error e =>
      simp only [hpo] at hx ⊢
      cases s with
      | nil => simp at hx
      | cons c t =>
        simp only at hx ⊢
        have := ih _ _ _ t x hx
        rw [List.length_cons, Nat.mul_add, Nat.mul_one]
        omega

/-- If `p` succeeds at the end of input then reading until `p` always succeeds. -/
theorem takeUntil_total {p : PS O β} {eoi} (hend : ∃ x, (p.run eoi []).out = .ok x) :
    ∀ fuel outs alt pan s e, s.length < fuel → (takeUntilGo p.run eoi fuel outs alt pan s).out ≠ .error e := by
  intro fuel
  induction fuel with
  | zero => intro outs alt pan s e h; omega
  | succ fuel ih =>
    intro outs alt pan s e hs h
    rw [takeUntilGo] at h
    cases hpo : (p.run eoi s).out with
    | ok y => simp [hpo] at h
    | error e' =>
      simp only [hpo] at h
      cases s with
      | nil => obtain ⟨x, hx⟩ := hend; rw [hx] at hpo; simp at hpo
      | cons c t => exact ih _ _ _ _ _ (by simp at hs; omega) h

theorem Fast.takeUntil {b} {p : PS O β} (hp : Const b p) (hend : ∀ eoi, ∃ x, (p.run eoi []).out = .ok x) :
    Fast (b + 1) (takeUntil p) :=
  ⟨fun eoi s x _ hx => untilCost_le hp _ _ _ _ _ x hx,
   fun eoi s e _ hx => absurd hx (takeUntil_total (hend eoi) _ _ _ _ _ e (Nat.lt_succ_self _)),
   suf_takeUntil hp.suf⟩

theorem skipCost_le (u : List Char) : ∀ s : List (Tok O), skipCost u s ≤ s.length + 1
  | [] => by simp [skipCost]
  | t :: ts => by
    have := skipCost_le u ts
    simp only [skipCost, List.length_cons]; split <;> omega

theorem skipCost_some (u : List Char) : ∀ (s t : List (Tok O)), skipTo u s = some t →
    skipCost u s + t.length ≤ s.length + 1
  | [], t, h => by simp [skipTo] at h
  | x :: xs, t, h => by
    simp only [skipTo] at h
    simp only [skipCost, List.length_cons]
    by_cases hx : u.contains x.1 = true
    · simp only [hx, ↓reduceIte, Option.some.injEq] at h ⊢
      subst h; simp; omega
    · simp only [hx, Bool.false_eq_true, ↓reduceIte] at h ⊢
      have := skipCost_some u xs t h
      omega

theorem Slow.recover {b} {u} {fb : α} {p : PS O α} (hp : Const b p) :
    Slow (b + 1) (recoverSkipUntil u fb p) := by
  refine ⟨fun eoi s x _ hx => ?_, fun eoi s e _ hx => ?_, suf_recoverSkipUntil hp.suf⟩
  · have h1 := hp.cost eoi s
    simp only [recoverSkipUntil, Knuffel.recoverSkipUntil] at hx ⊢
    cases hpo : (p.run eoi s).out with
    | ok y =>
      simp only
      have h2 := Nat.mul_le_mul_left (b + 1) (hp.suf eoi s).length_le
      omega
    | error e =>
      simp only [hpo] at hx ⊢
      cases hs : skipTo u s with
      | none => simp [hs] at hx
      | some t =>
        simp only
        have h3 := skipCost_some u s t hs
        have h4 : t.length ≤ s.length := by
          have : skipCost u s ≥ 1 := by cases s <;> simp [skipCost]
          omega
        have h5 := Nat.mul_le_mul_left b h4
        rw [Nat.add_mul, Nat.add_mul]; omega
  · have h1 := hp.cost eoi s
    simp only [recoverSkipUntil, Knuffel.recoverSkipUntil] at hx ⊢
    cases hpo : (p.run eoi s).out with
    | ok y => simp [hpo] at hx
    | error e =>
      have := skipCost_le u s
      simp only
      rw [Nat.add_mul]
      omega

end Knuffel.Steps
