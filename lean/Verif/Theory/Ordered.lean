import Verif.Spec.Ordered
import Verif.Theory.TruthDoc
import Verif.Theory.BlameDoc
/-!
# The order of the diagnostics: combinators

An error is *flat* if it is where the reading had to stop; the others point further back, at
the beginning of something unclosed or of a word that cannot stand there.  `Rd B F`: on
success the recorded errors are in the text that was read, and an alternative error is flat or
lies in the rest, and then `B` holds of the rest; a failure that is not flat implies `F` of the
text.
-/

set_option linter.unusedSimpArgs false
set_option linter.unusedSectionVars false
set_option linter.unusedVariables false

namespace Knuffel.Ordered
open Cst

variable {α β γ : Type} {text : Str}

/-- Where the error begins. -/
abbrev first (e : PErr Nat) : Nat := e.place.start
/-- Where the error ends. -/
abbrev last (e : PErr Nat) : Nat := e.place.stop

/-- The number of bytes before the rest `s` of the text. -/
def off (text : Str) (s : List (Tok Nat)) : Nat := byteLen text - byteLen (chars s)

/-- The number of bytes before the last `n` tokens of the text. -/
def offr (text : Str) (n : Nat) : Nat := off text ((offsetToks 0 text).drop ((offsetToks 0 text).length - n))

theorem byteLen_suf {s t : List (Tok Nat)} (h : t <:+ s) : byteLen (chars t) ≤ byteLen (chars s) := by
  obtain ⟨u, rfl⟩ := h
  rw [chars_append, byteLen_append]; omega

theorem off_mono {s t : List (Tok Nat)} (h : t <:+ s) : off text s ≤ off text t := by
  have := byteLen_suf h
  unfold off; omega

theorem suf_drop {s all : List (Tok Nat)} (h : s <:+ all) : all.drop (all.length - s.length) = s := by
  obtain ⟨u, rfl⟩ := h
  simp

theorem offr_eq {s : List (Tok Nat)} (h : s <:+ offsetToks 0 text) : offr text s.length = off text s := by
  unfold offr; rw [suf_drop h]

theorem drop_suf {l : List (Tok Nat)} {m n : Nat} (h : m ≤ n) : l.drop n <:+ l.drop m := by
  obtain ⟨k, rfl⟩ := Nat.exists_eq_add_of_le h
  rw [← List.drop_drop]
  exact List.drop_suffix _ _

theorem offr_mono {m n : Nat} (h : m ≤ n) : offr text n ≤ offr text m :=
  off_mono (drop_suf (by omega))

theorem off_toks {pre post : Str} (h : text = pre ++ post) (k : Nat) : off text (offsetToks k post) = byteLen pre := by
  unfold off; rw [chars_offsetToks, h, byteLen_append]; omega

theorem head_span {c : Char} {sp : Sp Nat} {t : List (Tok Nat)} (h : (c, sp) :: t <:+ offsetToks 0 text) :
    sp.start = off text ((c, sp) :: t) ∧ sp.stop = off text t := by
  obtain ⟨pre, post, h1, h2⟩ := offset_suffix h
  cases post with
  | nil => simp [offsetToks] at h2
  | cons d post =>
    rw [h2, off_toks h1]
    simp only [offsetToks, List.cons.injEq, Prod.mk.injEq] at h2
    obtain ⟨⟨rfl, rfl⟩, rfl⟩ := h2
    refine ⟨by simp, ?_⟩
    rw [off_toks (pre := pre ++ [c]) (by simp [h1])]
    simp [byteLen_append, byteLen]

theorem since_start {s t : List (Tok Nat)} (h : s <:+ offsetToks 0 text) :
    (spanSince (offsetEoi text) s t).start = off text s := by
  cases s with
  | nil => simp [spanSince, off, offsetEoi, chars, byteLen]
  | cons x s => exact (head_span h).1

theorem since_stop {s t : List (Tok Nat)} (h : s <:+ offsetToks 0 text) (ht : t <:+ s) (hlt : t.length < s.length) :
    (spanSince (offsetEoi text) s t).stop = off text t := by
  obtain ⟨pre, post, h1, rfl⟩ := offset_suffix h
  obtain ⟨w, post', rfl, rfl⟩ := offset_suffix ht
  have hw : w ≠ [] := by rintro rfl; simp [offsetToks_len] at hlt
  rw [offset_since_takes hw, off_toks (pre := pre ++ w) (by simp [h1])]
  simp [byteLen_append]

theorem off_nil : off text [] = byteLen text := by simp [off, chars, byteLen]

theorem off_le (s : List (Tok Nat)) : off text s ≤ byteLen text := by unfold off; omega

/-! ### Recorded errors in order -/

/-- The errors are in this order between the two places. -/
def Steps : Nat → List (Loc Nat) → Nat → Prop
  | a, [], b => a ≤ b
  | a, e :: es, b => a ≤ first e.err ∧ first e.err < last e.err ∧ Steps (last e.err) es b

theorem Steps.le {a b : Nat} {l : List (Loc Nat)} (h : Steps a l b) : a ≤ b := by
  induction l generalizing a with
  | nil => exact h
  | cons e l ih => exact Nat.le_trans h.1 (Nat.le_trans (Nat.le_of_lt h.2.1) (ih h.2.2))

theorem Steps.append {a b c : Nat} {l m : List (Loc Nat)} (h : Steps a l b) (h2 : Steps b m c) : Steps a (l ++ m) c := by
  induction l generalizing a with
  | nil =>
    have hab : a ≤ b := h
    cases m with
    | nil => exact Nat.le_trans hab h2
    | cons e m => exact ⟨Nat.le_trans hab h2.1, h2.2⟩
  | cons e l ih => exact ⟨h.1, h.2.1, ih h.2.2⟩

theorem Steps.mono {a a' b b' : Nat} {l : List (Loc Nat)} (h : Steps a l b) (ha : a' ≤ a) (hb : b ≤ b') : Steps a' l b' := by
  have h1 : Steps a' [] a := ha
  have h2 : Steps b [] b' := hb
  have := (h1.append h).append h2
  simpa using this

theorem steps_nil {a b : Nat} (h : a ≤ b) : Steps a [] b := h

theorem Steps.mem {a b : Nat} {l : List (Loc Nat)} (h : Steps a l b) : ∀ e ∈ l, a ≤ first e.err ∧ last e.err ≤ b := by
  induction l generalizing a with
  | nil => simp
  | cons e l ih =>
    intro x hx
    rcases List.mem_cons.1 hx with rfl | hx
    · exact ⟨h.1, h.2.2.le⟩
    · have := ih h.2.2 x hx
      have h1 := h.1
      have h2 := h.2.1
      exact ⟨by omega, this.2⟩

theorem Steps.inOrder {a b : Nat} {l : List (Loc Nat)} (h : Steps a l b) : InOrder (l.map (·.err)) := by
  induction l generalizing a with
  | nil => exact List.Pairwise.nil
  | cons e l ih =>
    refine List.Pairwise.cons ?_ (ih h.2.2)
    intro x hx
    obtain ⟨y, hy, rfl⟩ := List.mem_map.1 hx
    exact (h.2.2.mem y hy).1

/-! ### Flat errors -/

/-- The error begins where the reading had to stop, or later. -/
def Flat (text : Str) (l : Loc Nat) : Prop := offr text l.rem ≤ first l.err

theorem Flat.since {l : Loc Nat} {s : List (Tok Nat)} (h : Flat text l) (hs : s <:+ offsetToks 0 text)
    (hl : l.rem ≤ s.length) : off text s ≤ first l.err := by
  rw [← offr_eq hs]
  exact Nat.le_trans (offr_mono hl) h

/-- The world of parsers that record nothing and have flat errors only. -/
def flatW (text : Str) (n : Nat) : World Nat where
  eoi := offsetEoi text
  I s := s <:+ offsetToks 0 text ∧ s.length ≤ n
  Q l := l.rem ≤ n ∧ Flat text l
  E _ := False
  suf h1 h2 := ⟨h2.trans h1.1, Nat.le_trans h2.length_le h1.2⟩
  eoiQ h := ⟨h.2, by
    show offr text _ ≤ byteLen text
    rw [offr_eq h.1]; exact off_le _⟩
  chQ h := ⟨h.2, by
    show offr text _ ≤ _
    have := offr_eq h.1
    simp only [List.length_cons] at this
    rw [this]
    exact Nat.le_of_eq (head_span h.1).1.symm⟩
  exQ h := h
  EQ h := h.elim

/-- Records nothing and has flat errors only. -/
def Fl (text : Str) (p : P Nat α) : Prop := ∀ n, Tr (flatW text n) p

/-- Merging two errors gives the place of one of them. -/
theorem max_cases (a b : Loc Nat) : ((a.max b).rem = a.rem ∧ first (a.max b).err = first a.err) ∨
    ((a.max b).rem = b.rem ∧ first (a.max b).err = first b.err) := by
  unfold Loc.max
  split
  · exact Or.inl ⟨rfl, rfl⟩
  · split
    · exact Or.inr ⟨rfl, rfl⟩
    · have : a.rem = b.rem := by omega
      split
      · rename_i e he
        cases ha : a.err <;> cases hb : b.err <;> rw [ha, hb] at he <;>
          simp only [PErr.merge, Option.some.injEq, reduceCtorEq] at he <;> subst he
        all_goals first
          | exact Or.inl ⟨rfl, rfl⟩
          | exact Or.inr ⟨this, rfl⟩
      · exact Or.inl ⟨rfl, rfl⟩

theorem max_ind {K : Nat → Nat → Prop} {a b : Loc Nat} (ha : K a.rem (first a.err)) (hb : K b.rem (first b.err)) :
    K (a.max b).rem (first (a.max b).err) := by
  rcases max_cases a b with ⟨h1, h2⟩ | ⟨h1, h2⟩ <;> rw [h1, h2] <;> assumption

theorem maxO_ind {K : Nat → Nat → Prop} {a : Loc Nat} {o : Option (Loc Nat)} (ha : K a.rem (first a.err))
    (ho : ∀ b, o = some b → K b.rem (first b.err)) : K (a.maxO o).rem (first (a.maxO o).err) := by
  cases o with
  | none => exact ha
  | some b => exact max_ind ha (ho b rfl)

theorem mergeAlts_ind {K : Nat → Nat → Prop} {a b : Option (Loc Nat)} (ha : ∀ l, a = some l → K l.rem (first l.err))
    (hb : ∀ l, b = some l → K l.rem (first l.err)) : ∀ l, mergeAlts a b = some l → K l.rem (first l.err) := by
  intro l hl
  cases a with
  | none => exact hb l (by simpa [mergeAlts] using hl)
  | some a => cases b with
    | none => exact ha l (by simpa [mergeAlts] using hl)
    | some b =>
      simp only [mergeAlts, Option.some.injEq] at hl
      subst hl
      exact max_ind (hb b rfl) (ha a rfl)

/-! ### Reading -/

/-- See the head of the file: the recorded errors are between the places `a` and `g` of the
rest, and a failure begins at `o` or later. -/
structure Rd (text : Str) (a : Nat) (g : List (Tok Nat) → Nat) (o : Nat) (B F : List (Tok Nat) → Prop)
    (s : List (Tok Nat)) (r : PRes Nat α) : Prop where
  suf : r.rest <:+ s
  steps : ∀ x, r.out = .ok x → Steps a r.errs (g r.rest)
  ok : ∀ a alt, r.out = .ok (a, alt) → ∀ l, alt = some l →
    l.rem ≤ s.length ∧ (Flat text l ∨ (off text r.rest ≤ first l.err ∧ B r.rest))
  err : ∀ e, r.out = .error e → e.rem ≤ s.length ∧ o ≤ first e.err ∧ (Flat text e ∨ F s)

/-- On all ends of the text. -/
def R (text : Str) (B F : List (Tok Nat) → Prop) (p : P Nat α) : Prop :=
  ∀ s, s <:+ offsetToks 0 text → Rd text (off text s) (off text) (off text s) B F s (p (offsetEoi text) s)

/-- The same with other places for the recorded errors. -/
def RG (text : Str) (γ : List (Tok Nat) → Nat) (B F : List (Tok Nat) → Prop) (p : P Nat α) : Prop :=
  ∀ s, s <:+ offsetToks 0 text → Rd text (γ s) γ (off text s) B F s (p (offsetEoi text) s)

/-- Never. -/
abbrev No : List (Tok Nat) → Prop := fun _ => False

variable {a0 o : Nat} {g g1 : List (Tok Nat) → Nat} {B F B' F' B1 F1 B2 F2 : List (Tok Nat) → Prop}

theorem Rd.weaken {s} {r : PRes Nat α} (h : Rd text a0 g o B F s r) (hB : B r.rest → B' r.rest) (hF : F s → F' s) :
    Rd text a0 g o B' F' s r :=
  ⟨h.suf, h.steps, fun a alt ho l hl => ⟨(h.ok a alt ho l hl).1, (h.ok a alt ho l hl).2.imp_right (And.imp_right hB)⟩,
    fun e he => ⟨(h.err e he).1, (h.err e he).2.1, (h.err e he).2.2.imp_right hF⟩⟩

theorem R.weaken {p : P Nat α} (h : R text B F p) (hB : ∀ s, B s → B' s) (hF : ∀ s, F s → F' s) : R text B' F' p :=
  fun s hs => (h s hs).weaken (hB _) (hF _)

theorem Fl.r {p : P Nat α} (h : Fl text p) : R text No No p := by
  intro s hs
  have h1 := h s.length s ⟨hs, Nat.le_refl _⟩
  have hnil : (p (offsetEoi text) s).errs = [] := by
    cases hl : (p (offsetEoi text) s).errs with
    | nil => rfl
    | cons e l => exact (h1.errs e (by show e ∈ (p (offsetEoi text) s).errs; simp [hl])).elim
  refine ⟨h1.suf, ?_, ?_, ?_⟩
  · intro x _
    rw [hnil]
    exact off_mono h1.suf
  · intro a alt ho l hl
    have := trR_ok h1 ho l hl
    exact ⟨this.1, Or.inl this.2⟩
  · intro e he
    have := trR_error h1 he
    exact ⟨this.1, this.2.since hs this.1, Or.inl this.2⟩

theorem Fl.any {p : P Nat α} (h : Fl text p) : R text B F p := h.r.weaken (fun _ => False.elim) (fun _ => False.elim)

/-! ### Combinators -/

theorem Rd.pmap {f : α → β} {p : P Nat α} {s} (h : Rd text a0 g o B F s (p (offsetEoi text) s)) :
    Rd text a0 g o B F s (pmap f p (offsetEoi text) s) := by
  refine ⟨h.suf, ?_, ?_, ?_⟩
  · intro x hx
    cases ho : (p (offsetEoi text) s).out with
    | error e => simp [Knuffel.pmap, ho] at hx
    | ok y => exact h.steps y ho
  · intro a alt hx l hl
    cases ho : (p (offsetEoi text) s).out with
    | error e => simp [Knuffel.pmap, ho] at hx
    | ok y =>
      simp only [Knuffel.pmap, ho, Except.ok.injEq, Prod.mk.injEq] at hx
      exact h.ok y.1 y.2 ho l (by rw [hx.2]; exact hl)
  · intro e hx
    cases ho : (p (offsetEoi text) s).out with
    | ok y => simp [Knuffel.pmap, ho] at hx
    | error e' =>
      simp only [Knuffel.pmap, ho, Except.error.injEq] at hx
      subst hx
      exact h.err e' ho

theorem R.pmap {f : α → β} {p : P Nat α} (h : R text B F p) : R text B F (Knuffel.pmap f p) := fun s hs => (h s hs).pmap
theorem R.ignored {p : P Nat α} (h : R text B F p) : R text B F (Knuffel.ignored p) := h.pmap

theorem Rd.mapWithSpan {f : α → Sp Nat → β} {p : P Nat α} {s} (h : Rd text a0 g o B F s (p (offsetEoi text) s)) :
    Rd text a0 g o B F s (mapWithSpan f p (offsetEoi text) s) := by
  refine ⟨h.suf, ?_, ?_, ?_⟩
  · intro x hx
    cases ho : (p (offsetEoi text) s).out with
    | error e => simp [Knuffel.mapWithSpan, ho] at hx
    | ok y => exact h.steps y ho
  · intro a alt hx l hl
    cases ho : (p (offsetEoi text) s).out with
    | error e => simp [Knuffel.mapWithSpan, ho] at hx
    | ok y =>
      simp only [Knuffel.mapWithSpan, ho, Except.ok.injEq, Prod.mk.injEq] at hx
      exact h.ok y.1 y.2 ho l (by rw [hx.2]; exact hl)
  · intro e hx
    cases ho : (p (offsetEoi text) s).out with
    | ok y => simp [Knuffel.mapWithSpan, ho] at hx
    | error e' =>
      simp only [Knuffel.mapWithSpan, ho, Except.error.injEq] at hx
      subst hx
      exact h.err e' ho

theorem R.spanned {p : P Nat α} (h : R text B F p) : R text B F (Knuffel.spanned p) := fun s hs => (h s hs).mapWithSpan

/-- A changed error that begins in the text read. -/
theorem Rd.mapErrWithSpan {f : PErr Nat → Sp Nat → PErr Nat} {p : P Nat α} {s} (h : Rd text a0 g o B F1 s (p (offsetEoi text) s))
    (hf : ∀ e, (p (offsetEoi text) s).out = .error e →
      o ≤ first (f e.err (spanSince (offsetEoi text) s (p (offsetEoi text) s).rest)) ∧
      (Flat text ⟨e.rem, f e.err (spanSince (offsetEoi text) s (p (offsetEoi text) s).rest)⟩ ∨ F s)) :
    Rd text a0 g o B F s (Knuffel.mapErrWithSpan f p (offsetEoi text) s) := by
  refine ⟨h.suf, ?_, ?_, ?_⟩
  · intro x hx
    cases ho : (p (offsetEoi text) s).out with
    | error e => simp [Knuffel.mapErrWithSpan, ho] at hx
    | ok y => exact h.steps y ho
  · intro a alt hx l hl
    cases ho : (p (offsetEoi text) s).out with
    | error e => simp [Knuffel.mapErrWithSpan, ho] at hx
    | ok y =>
      simp only [Knuffel.mapErrWithSpan, ho, Except.ok.injEq] at hx
      exact h.ok a alt (by rw [ho, hx]) l hl
  · intro e hx
    cases ho : (p (offsetEoi text) s).out with
    | ok y => simp [Knuffel.mapErrWithSpan, ho] at hx
    | error e' =>
      simp only [Knuffel.mapErrWithSpan, ho, Except.error.injEq] at hx
      subst hx
      exact ⟨(h.err e' ho).1, (hf e' ho).1, (hf e' ho).2⟩

theorem Rd.mapErr {f : PErr Nat → PErr Nat} {p : P Nat α} {s} (h : Rd text a0 g o B F s (p (offsetEoi text) s))
    (hf : ∀ e, first (f e) = first e) : Rd text a0 g o B F s (Knuffel.mapErr f p (offsetEoi text) s) := by
  refine ⟨h.suf, ?_, ?_, ?_⟩
  · intro x hx
    cases ho : (p (offsetEoi text) s).out with
    | error e => simp [Knuffel.mapErr, ho] at hx
    | ok y => exact h.steps y ho
  · intro a alt hx l hl
    cases ho : (p (offsetEoi text) s).out with
    | error e => simp [Knuffel.mapErr, ho] at hx
    | ok y =>
      simp only [Knuffel.mapErr, ho, Except.ok.injEq] at hx
      exact h.ok a alt (by rw [ho, hx]) l hl
  · intro e hx
    cases ho : (p (offsetEoi text) s).out with
    | ok y => simp [Knuffel.mapErr, ho] at hx
    | error e' =>
      simp only [Knuffel.mapErr, ho, Except.error.injEq] at hx
      subst hx
      have := h.err e' ho
      refine ⟨this.1, ?_, ?_⟩
      · show _ ≤ first (f e'.err); rw [hf]; exact this.2.1
      · refine this.2.2.imp_left ?_
        intro h1
        show offr text e'.rem ≤ first (f e'.err)
        rw [hf]; exact h1

theorem first_withExpectedKind {k} (e : PErr Nat) : first (e.withExpectedKind k) = first e := by cases e <;> rfl

theorem Rd.tryMap {f : α → Sp Nat → Except (PErr Nat) β} {p : P Nat α} {s} (h : Rd text a0 g o B F s (p (offsetEoi text) s))
    (hf : ∀ a alt e, (p (offsetEoi text) s).out = .ok (a, alt) →
      f a (spanSince (offsetEoi text) s (p (offsetEoi text) s).rest) = .error e → o ≤ first e ∧ F s) :
    Rd text a0 g o B F s (Knuffel.tryMap f p (offsetEoi text) s) := by
  refine ⟨h.suf, ?_, ?_, ?_⟩
  · intro x hx
    cases ho : (p (offsetEoi text) s).out with
    | error e => simp [Knuffel.tryMap, ho] at hx
    | ok y => exact h.steps y ho
  · intro a alt hx l hl
    cases ho : (p (offsetEoi text) s).out with
    | error e => simp [Knuffel.tryMap, ho] at hx
    | ok y =>
      simp only [Knuffel.tryMap, ho] at hx
      split at hx
      · simp only [Except.ok.injEq, Prod.mk.injEq] at hx
        exact h.ok y.1 y.2 ho l (by rw [hx.2]; exact hl)
      · cases hx
  · intro e hx
    cases ho : (p (offsetEoi text) s).out with
    | ok y =>
      simp only [Knuffel.tryMap, ho] at hx
      split at hx
      · cases hx
      · rename_i e' he'
        simp only [Except.error.injEq] at hx
        subst hx
        have := hf y.1 y.2 e' ho he'
        exact ⟨h.suf.length_le, this.1, Or.inr this.2⟩
    | error e' =>
      simp only [Knuffel.tryMap, ho, Except.error.injEq] at hx
      subst hx
      exact h.err e' ho

/-- What fails does not succeed. -/
theorem nok {p : P Nat α} {s x} {Q : Prop} (h : Fails p (offsetEoi text) s) (ho : (p (offsetEoi text) s).out = .ok x) : Q := by
  obtain ⟨e, he⟩ := h
  rw [ho] at he; cases he

/-- A sequence: if the alternative error of the first is not flat then the second fails, or
reads nothing and is followed by what makes the next fail. -/
theorem Rd.bind {p : P Nat α} {f : α → P Nat β} {s} {o2 : Nat} (hs : s <:+ offsetToks 0 text) (hos : o ≤ off text s)
    (hoo : o ≤ o2) (h1 : Rd text a0 g1 o B1 F1 s (p (offsetEoi text) s))
    (h2 : ∀ a alt, (p (offsetEoi text) s).out = .ok (a, alt) →
      Rd text (g1 (p (offsetEoi text) s).rest) g o2 B F2 (p (offsetEoi text) s).rest (f a (offsetEoi text) (p (offsetEoi text) s).rest))
    (hB : ∀ a alt, (p (offsetEoi text) s).out = .ok (a, alt) → B1 (p (offsetEoi text) s).rest →
      ∀ y, (f a (offsetEoi text) (p (offsetEoi text) s).rest).out = .ok y →
        (f a (offsetEoi text) (p (offsetEoi text) s).rest).rest = (p (offsetEoi text) s).rest ∧ B (p (offsetEoi text) s).rest)
    (hF1 : F1 s → F s)
    (hF2 : ∀ a alt, (p (offsetEoi text) s).out = .ok (a, alt) → B1 (p (offsetEoi text) s).rest ∨ F2 (p (offsetEoi text) s).rest → F s) :
    Rd text a0 g o B F s (Knuffel.bind p f (offsetEoi text) s) := by
  cases ho : (p (offsetEoi text) s).out with
  | error e =>
    have hb : Knuffel.bind p f (offsetEoi text) s = ⟨(p (offsetEoi text) s).panicked, (p (offsetEoi text) s).errs, .error e, (p (offsetEoi text) s).rest⟩ := by
      simp [Knuffel.bind, ho]
    rw [hb]
    refine ⟨h1.suf, ?_, ?_, ?_⟩
    · intro x hx; cases hx
    · intro a alt hx; cases hx
    · intro e' hx
      simp only [Except.error.injEq] at hx
      subst hx
      have := h1.err e ho
      exact ⟨this.1, this.2.1, this.2.2.imp_right hF1⟩
  | ok x =>
    obtain ⟨a, alt⟩ := x
    have h2' := h2 a alt ho
    have hok := h1.ok a alt ho
    have hst := h1.steps _ ho
    have hsuf := h1.suf
    have hlen := hsuf.length_le
    have hB' := hB a alt ho
    have hF2' := hF2 a alt ho
    cases ho2 : (f a (offsetEoi text) (p (offsetEoi text) s).rest).out with
    | error e =>
      have hb : Knuffel.bind p f (offsetEoi text) s = ⟨(p (offsetEoi text) s).panicked || (f a (offsetEoi text) (p (offsetEoi text) s).rest).panicked || e.clashO alt,
          (p (offsetEoi text) s).errs ++ (f a (offsetEoi text) (p (offsetEoi text) s).rest).errs, .error (e.maxO alt), (f a (offsetEoi text) (p (offsetEoi text) s).rest).rest⟩ := by
        simp [Knuffel.bind, ho, ho2]
      rw [hb]
      refine ⟨h2'.suf.trans hsuf, ?_, ?_, ?_⟩
      · intro x hx; cases hx
      · intro a alt hx; cases hx
      · intro e' hx
        simp only [Except.error.injEq] at hx
        subst hx
        have he := h2'.err e ho2
        refine maxO_ind (K := fun r f => r ≤ s.length ∧ o ≤ f ∧ (offr text r ≤ f ∨ F s)) ?_ ?_
        · refine ⟨by omega, Nat.le_trans hoo he.2.1, he.2.2.imp id fun h => hF2' (Or.inr h)⟩
        · intro b hb'
          have hb2 := hok b hb'
          refine ⟨hb2.1, ?_, hb2.2.imp id fun h => hF2' (Or.inl h.2)⟩
          rcases hb2.2 with h | h
          · exact Nat.le_trans hos (h.since hs hb2.1)
          · exact Nat.le_trans (Nat.le_trans hos (off_mono hsuf)) h.1
    | ok y =>
      obtain ⟨b, alt2⟩ := y
      have hb : Knuffel.bind p f (offsetEoi text) s = ⟨(p (offsetEoi text) s).panicked || (f a (offsetEoi text) (p (offsetEoi text) s).rest).panicked || clashAlts alt alt2,
          (p (offsetEoi text) s).errs ++ (f a (offsetEoi text) (p (offsetEoi text) s).rest).errs, .ok (b, mergeAlts alt alt2), (f a (offsetEoi text) (p (offsetEoi text) s).rest).rest⟩ := by
        simp [Knuffel.bind, ho, ho2]
      rw [hb]
      refine ⟨h2'.suf.trans hsuf, ?_, ?_, ?_⟩
      · intro x _; exact hst.append (h2'.steps _ ho2)
      · intro a' alt' hx
        simp only [Except.ok.injEq, Prod.mk.injEq] at hx
        obtain ⟨rfl, rfl⟩ := hx
        refine mergeAlts_ind (K := fun r f => r ≤ s.length ∧ (offr text r ≤ f ∨ _ ≤ f ∧ B _)) ?_ ?_
        · intro l hl
          have := hok l hl
          refine ⟨this.1, this.2.imp id ?_⟩
          rintro ⟨hl1, h⟩
          obtain ⟨h3, h4⟩ := hB' h _ ho2
          rw [h3]
          exact ⟨hl1, h4⟩
        · intro l hl
          have := h2'.ok b alt2 ho2 l hl
          exact ⟨by omega, this.2⟩
      · intro e hx; cases hx

/-- If no alternative error of the first can be other than flat. -/
theorem R.bind0 {p : P Nat α} {f : α → P Nat β} (h1 : R text No F p) (h2 : ∀ a, R text B F2 (f a))
    (hF : ∀ s a alt, (p (offsetEoi text) s).out = .ok (a, alt) → F2 (p (offsetEoi text) s).rest → F s) :
    R text B F (Knuffel.bind p f) := by
  intro s hs
  refine Rd.bind hs (Nat.le_refl _) (off_mono (h1 s hs).suf) (h1 s hs) (fun a alt _ => h2 a _ ((h1 s hs).suf.trans hs)) (fun _ _ _ h => h.elim) id ?_
  rintro a alt ho (h | h)
  · exact h.elim
  · exact hF s a alt ho h

theorem takeA_ok {a b : PRes Nat α} {x alt} (h : a.out = .ok (x, alt)) :
    (takeA a b).out = .ok (x, mergeAlts alt b.altOrErr) ∧ (takeA a b).errs = a.errs ∧ (takeA a b).rest = a.rest := by
  simp [takeA, h]
theorem takeA_error {a b : PRes Nat α} {e} (h : a.out = .error e) :
    (takeA a b).out = .error (e.maxO b.altOrErr) ∧ (takeA a b).errs = a.errs ∧ (takeA a b).rest = a.rest := by
  simp [takeA, h]

/-- Take the result of one alternative, the other has failed flat if this one has succeeded. -/
theorem Rd.takeA {s} {a b : PRes Nat α} (hs : s <:+ offsetToks 0 text) (h1 : Rd text a0 g o B F1 s a) (h2 : Rd text a0 g o B2 F2 s b)
    (hb : ∀ x, a.out = .ok x → (∃ e, b.out = .error e) ∧ ¬ F2 s)
    (he : ∀ e, a.out = .error e → ∃ e', b.out = .error e')
    (hF : F1 s ∨ F2 s → F s) : Rd text a0 g o B F s (Knuffel.takeA a b) := by
  cases ho : a.out with
  | ok x =>
    obtain ⟨x, alt⟩ := x
    obtain ⟨t1, t2, t3⟩ := takeA_ok (b := b) ho
    refine ⟨by rw [t3]; exact h1.suf, ?_, ?_, ?_⟩
    · intro y _; rw [t2, t3]; exact h1.steps _ ho
    · intro y alt' hy
      rw [t1] at hy
      simp only [Except.ok.injEq, Prod.mk.injEq] at hy
      obtain ⟨rfl, rfl⟩ := hy
      rw [t3]
      refine mergeAlts_ind (K := fun r f => r ≤ s.length ∧ (offr text r ≤ f ∨ _ ≤ f ∧ B _)) (h1.ok _ _ ho) ?_
      intro l hl
      obtain ⟨⟨e, hbe⟩, hn⟩ := hb _ ho
      simp only [PRes.altOrErr, hbe, Option.some.injEq] at hl
      subst hl
      have := h2.err e hbe
      exact ⟨this.1, this.2.2.imp id fun h => absurd h hn⟩
    · intro e he'; rw [t1] at he'; cases he'
  | error e =>
    obtain ⟨t1, t2, t3⟩ := takeA_error (b := b) ho
    refine ⟨by rw [t3]; exact h1.suf, ?_, ?_, ?_⟩
    · intro y hy; rw [t1] at hy; cases hy
    · intro y alt hy; rw [t1] at hy; cases hy
    · intro e' he'
      rw [t1] at he'
      simp only [Except.error.injEq] at he'
      subst he'
      obtain ⟨e2, hbe⟩ := he _ ho
      refine maxO_ind (K := fun r f => r ≤ s.length ∧ o ≤ f ∧ (offr text r ≤ f ∨ F s)) ?_ ?_
      · have := h1.err e ho
        exact ⟨this.1, this.2.1, this.2.2.imp id fun h => hF (Or.inl h)⟩
      · intro l hl
        simp only [PRes.altOrErr, hbe, Option.some.injEq] at hl
        subst hl
        have := h2.err e2 hbe
        exact ⟨this.1, this.2.1, this.2.2.imp id fun h => hF (Or.inr h)⟩

/-- Two alternatives that exclude each other. -/
theorem Rd.orP {p q : P Nat α} {s} (hs : s <:+ offsetToks 0 text) (h1 : Rd text a0 g o B F1 s (p (offsetEoi text) s))
    (h2 : Rd text a0 g o B F2 s (q (offsetEoi text) s))
    (hpq : ∀ x, (p (offsetEoi text) s).out = .ok x → (p (offsetEoi text) s).errs = [] ∨ Fails q (offsetEoi text) s ∧ ¬ F2 s)
    (hqp : ∀ x, (q (offsetEoi text) s).out = .ok x → ¬ F1 s)
    (hF : F1 s ∨ F2 s → F s) : Rd text a0 g o B F s (Knuffel.orP p q (offsetEoi text) s) := by
  unfold Knuffel.orP
  simp only
  by_cases hc : (p (offsetEoi text) s).clean
  · rw [if_pos hc]
    exact h1.weaken id fun h => hF (Or.inl h)
  · rw [if_neg hc]
    replace hpq : ∀ x, (p (offsetEoi text) s).out = .ok x → Fails q (offsetEoi text) s ∧ ¬ F2 s := by
      intro x hx
      rcases hpq x hx with h | h
      · exact absurd (clean_iff.2 ⟨h, ⟨x, hx⟩⟩) hc
      · exact h
    by_cases hc2 : (q (offsetEoi text) s).clean
    · rw [if_pos hc2]
      obtain ⟨hq0, ⟨y, hq⟩⟩ := clean_iff.1 hc2
      obtain ⟨y, alt⟩ := y
      have hp : ∃ e, (p (offsetEoi text) s).out = .error e := by
        cases ho : (p (offsetEoi text) s).out with
        | error e => exact ⟨e, rfl⟩
        | ok x =>
          obtain ⟨e, he⟩ := (hpq x ho).1
          rw [hq] at he; cases he
      obtain ⟨e, hp⟩ := hp
      have hn := hqp _ hq
      simp only [hq]
      refine ⟨h2.suf, ?_, ?_, ?_⟩
      · intro z _
        have := h2.steps _ hq
        rw [hq0] at this
        exact this
      · intro z alt' hz
        simp only [Except.ok.injEq, Prod.mk.injEq] at hz
        obtain ⟨rfl, rfl⟩ := hz
        refine mergeAlts_ind (K := fun r f => r ≤ s.length ∧ (offr text r ≤ f ∨ _ ≤ f ∧ B _)) (h2.ok _ _ hq) ?_
        intro l hl
        simp only [PRes.altOrErr, hp, Option.some.injEq] at hl
        subst hl
        have := h1.err e hp
        exact ⟨this.1, this.2.2.imp id fun h => absurd h hn⟩
      · intro e' h; cases h
    · rw [if_neg hc2]
      have hpq' : ∀ x y, (p (offsetEoi text) s).out = .ok x → (q (offsetEoi text) s).out = .ok y → False := by
        intro x y hx hy
        obtain ⟨e, he⟩ := (hpq x hx).1
        rw [hy] at he; cases he
      split
      · rename_i hpr
        refine Rd.takeA hs h1 h2 hpq ?_ hF
        intro e he
        cases ho : (q (offsetEoi text) s).out with
        | error e' => exact ⟨e', rfl⟩
        | ok y => simp [preferA, he, ho] at hpr
      · rename_i hpr
        refine Rd.takeA hs h2 h1 ?_ ?_ (fun h => hF h.symm)
        · intro y hy
          refine ⟨?_, hqp y hy⟩
          cases ho : (p (offsetEoi text) s).out with
          | error e' => exact ⟨e', rfl⟩
          | ok x => exact (hpq' x y ho hy).elim
        · intro e he
          cases ho : (p (offsetEoi text) s).out with
          | error e' => exact ⟨e', rfl⟩
          | ok x =>
            obtain ⟨x, alt⟩ := x
            simp [preferA, he, ho] at hpr

theorem Rd.choiceGo {s} : ∀ {ps : List (P Nat α)} {alt pan}, (∀ p ∈ ps, Rd text a0 g o B F s (p (offsetEoi text) s)) →
    (∀ l, alt = some l → l.rem ≤ s.length ∧ o ≤ first l.err ∧ (Flat text l ∨ F s)) → (alt = none → ps ≠ []) →
    Rd text a0 g o B F s (Knuffel.choiceGo alt pan ps (offsetEoi text) s) ∧
      (∀ e, (Knuffel.choiceGo alt pan ps (offsetEoi text) s).out = .error e → (Knuffel.choiceGo alt pan ps (offsetEoi text) s).errs = []) := by
  intro ps
  induction ps with
  | nil =>
    intro alt pan h ha hn
    cases alt with
    | none => exact absurd rfl (hn rfl)
    | some e =>
      simp only [Knuffel.choiceGo]
      refine ⟨⟨List.suffix_rfl, ?_, ?_, ?_⟩, ?_⟩
      · intro x hx; cases hx
      · intro a alt hx; cases hx
      · intro e' hx
        simp only [Except.error.injEq] at hx
        subst hx
        exact ha e rfl
      · intro e' _; simp
  | cons p ps ih =>
    intro alt pan h ha hn
    have h1 := h p (by simp)
    unfold Knuffel.choiceGo
    simp only
    cases ho : (p (offsetEoi text) s).out with
    | ok x =>
      simp only
      refine ⟨⟨h1.suf, fun _ _ => h1.steps _ ho, ?_, ?_⟩, ?_⟩
      · intro a alt hx
        simp only [Except.ok.injEq] at hx
        exact h1.ok a alt (by rw [ho, hx])
      · intro e hx; cases hx
      · intro e hx; cases hx
    | error e =>
      simp only
      refine ih (fun q hq => h q (by simp [hq])) ?_ ?_
      · exact mergeAlts_ind (K := fun r f => r ≤ s.length ∧ o ≤ f ∧ (offr text r ≤ f ∨ F s)) ha
          (fun l hl => by simp only [Option.some.injEq] at hl; subst hl; exact h1.err e ho)
      · intro hm
        cases alt <;> simp [mergeAlts] at hm

theorem Rd.choice {s} {ps : List (P Nat α)} (h : ∀ p ∈ ps, Rd text a0 g o B F s (p (offsetEoi text) s)) (hn : ps ≠ []) :
    Rd text a0 g o B F s (Knuffel.choice ps (offsetEoi text) s) :=
  (Rd.choiceGo h (by simp) (fun _ => hn)).1

theorem choice_errs {ps : List (P Nat α)} {eoi : Sp Nat} {s e} (h : (Knuffel.choice ps eoi s).out = .error e) :
    (Knuffel.choice ps eoi s).errs = [] := by
  unfold Knuffel.choice at h ⊢
  generalize (none : Option (Loc Nat)) = alt at h ⊢
  generalize false = pan at h ⊢
  induction ps generalizing alt pan with
  | nil => cases alt <;> rfl
  | cons p ps ih =>
    unfold Knuffel.choiceGo at h ⊢
    simp only at h ⊢
    cases ho : (p eoi s).out with
    | ok x => simp [ho] at h
    | error e => simp only [ho] at h ⊢; exact ih _ _ h

theorem R.choice3 {p q r : P Nat α} (h1 : R text B F1 p) (h2 : R text B F2 q) (h3 : R text B F r)
    (hF1 : ∀ s, F1 s → F' s) (hF2 : ∀ s, F2 s → F' s) (hF : ∀ s, F s → F' s) : R text B F' (Knuffel.choice [p, q, r]) := by
  intro s hs
  refine Rd.choice ?_ (by simp)
  intro x hx
  simp only [List.mem_cons, List.not_mem_nil, or_false] at hx
  rcases hx with rfl | rfl | rfl
  · exact (h1 s hs).weaken id (hF1 s)
  · exact (h2 s hs).weaken id (hF2 s)
  · exact (h3 s hs).weaken id (hF s)

theorem Rd.orNot {p : P Nat α} {s} (h : Rd text (off text s) (off text) (off text s) B F s (p (offsetEoi text) s)) :
    Rd text (off text s) (off text) (off text s) (fun t => B t ∨ F t) F' s (Knuffel.orNot p (offsetEoi text) s) := by
  unfold Knuffel.orNot
  simp only
  cases ho : (p (offsetEoi text) s).out with
  | ok x =>
    obtain ⟨a, alt⟩ := x
    refine ⟨h.suf, fun _ _ => h.steps _ ho, ?_, ?_⟩
    · intro a' alt' hx
      simp only [Except.ok.injEq, Prod.mk.injEq] at hx
      obtain ⟨rfl, rfl⟩ := hx
      intro l hl
      have := h.ok a alt ho l hl
      exact ⟨this.1, this.2.imp id fun h => ⟨h.1, Or.inl h.2⟩⟩
    · intro e hx; cases hx
  | error e =>
    refine ⟨List.suffix_rfl, fun _ _ => Nat.le_refl _, ?_, ?_⟩
    · intro a' alt' hx
      simp only [Except.ok.injEq, Prod.mk.injEq] at hx
      obtain ⟨rfl, rfl⟩ := hx
      intro l hl
      simp only [Option.some.injEq] at hl
      subst hl
      have := h.err e ho
      exact ⟨this.1, this.2.2.imp id fun h => ⟨this.2.1, Or.inr h⟩⟩
    · intro e hx; cases hx

theorem R.orNot {p : P Nat α} (h : R text B F p) : R text (fun t => B t ∨ F t) F' (Knuffel.orNot p) :=
  fun s hs => (h s hs).orNot

/-- A repetition (of at least `mn ≤ 1`): where the alternative error is not flat the next round fails. -/
theorem Rd.repGo {p : P Nat α} {mn : Nat} {γ : List (Tok Nat) → Nat} (hmn : mn ≤ 1) (h : RG text γ B F p)
    (hB : ∀ s, s <:+ offsetToks 0 text → B s → Fails p (offsetEoi text) s)
    (hq : ∀ s e, (p (offsetEoi text) s).out = .error e → (p (offsetEoi text) s).errs = []) (s0 : List (Tok Nat)) (hs0 : s0 <:+ offsetToks 0 text) :
    ∀ fuel {outs errs alt pan s}, s <:+ s0 → (outs = [] → s = s0) → Steps (γ s0) errs (γ s) →
      (∀ l, alt = some l → l.rem ≤ s0.length ∧ (Flat text l ∨ (off text s ≤ first l.err ∧ B s))) →
      Rd text (γ s0) γ (off text s0) (fun t => B t ∨ F t) F s0 (Knuffel.repGo p mn none (offsetEoi text) fuel outs errs alt pan s) := by
  intro fuel
  induction fuel with
  | zero =>
    intro outs errs alt pan s hs ho hst ha
    refine ⟨hs, fun _ _ => hst, ?_, ?_⟩
    · intro a alt' hx
      simp only [Knuffel.repGo, Except.ok.injEq, Prod.mk.injEq] at hx
      obtain ⟨rfl, rfl⟩ := hx
      intro l hl
      exact ⟨(ha l hl).1, (ha l hl).2.imp id fun h => ⟨h.1, Or.inl h.2⟩⟩
    · intro e hx; simp [Knuffel.repGo] at hx
  | succ fuel ih =>
    intro outs errs alt pan s hs ho hst ha
    have hsA := hs.trans hs0
    have h1 := h s hsA
    have hlen := hs.length_le
    unfold Knuffel.repGo
    simp only [reduceCtorEq, if_false]
    cases hp : (p (offsetEoi text) s).out with
    | ok x =>
      obtain ⟨a, aalt⟩ := x
      simp only
      have ha' : ∀ l, mergeAlts alt aalt = some l → l.rem ≤ s0.length ∧
          (Flat text l ∨ (off text (p (offsetEoi text) s).rest ≤ first l.err ∧ B (p (offsetEoi text) s).rest)) := by
        refine mergeAlts_ind (K := fun r f => r ≤ s0.length ∧ (offr text r ≤ f ∨ _ ≤ f ∧ B _)) ?_ ?_
        · intro l hl
          refine ⟨(ha l hl).1, (ha l hl).2.imp id ?_⟩
          rintro ⟨-, hb⟩
          obtain ⟨e, he⟩ := hB s hsA hb
          rw [hp] at he; cases he
        · intro l hl
          have := h1.ok a aalt hp l hl
          exact ⟨by omega, this.2⟩
      split
      · rename_i hlt
        refine ih (h1.suf.trans hs) (by simp) (hst.append (h1.steps _ hp)) ha'
      · refine ⟨h1.suf.trans hs, fun _ _ => hst.append (h1.steps _ hp), ?_, ?_⟩
        · intro a alt' hx
          simp only [Except.ok.injEq, Prod.mk.injEq] at hx
          obtain ⟨rfl, rfl⟩ := hx
          intro l hl
          exact ⟨(ha' l hl).1, (ha' l hl).2.imp id fun h => ⟨h.1, Or.inl h.2⟩⟩
        · intro e hx; cases hx
    | error e =>
      simp only
      have hqe := hq s e hp
      have he := h1.err e hp
      split
      · rename_i hlt
        have : outs = [] := by
          cases outs with
          | nil => rfl
          | cons _ _ => simp at hlt; omega
        have hss := ho this
        subst hss
        refine ⟨h1.suf, ?_, ?_, ?_⟩
        · intro x hx; cases hx
        · intro x alt hx; cases hx
        · intro e' hx
          simp only [Except.error.injEq] at hx
          subst hx
          exact he
      · refine ⟨hs, fun _ _ => hst, ?_, ?_⟩
        · intro a alt' hx
          simp only [Except.ok.injEq, Prod.mk.injEq] at hx
          obtain ⟨rfl, rfl⟩ := hx
          refine mergeAlts_ind (K := fun r f => r ≤ s0.length ∧ (offr text r ≤ f ∨ _ ≤ f ∧ (B _ ∨ F _))) ?_ ?_
          · intro l hl
            exact ⟨(ha l hl).1, (ha l hl).2.imp id fun h => ⟨h.1, Or.inl h.2⟩⟩
          · rw [hqe]
            intro l hl
            simp only [List.head?_nil, mergeAlts, Option.some.injEq] at hl
            subst hl
            exact ⟨by omega, he.2.2.imp id fun h => ⟨he.2.1, Or.inr h⟩⟩
        · intro e hx; cases hx

theorem RG.repeatedB {p : P Nat α} {mn : Nat} {γ : List (Tok Nat) → Nat} (hmn : mn ≤ 1) (h : RG text γ B F p)
    (hB : ∀ s, s <:+ offsetToks 0 text → B s → Fails p (offsetEoi text) s)
    (hq : ∀ s e, (p (offsetEoi text) s).out = .error e → (p (offsetEoi text) s).errs = []) :
    RG text γ (fun t => B t ∨ F t) F (Knuffel.repeatedB mn none p) := by
  intro s hs
  exact Rd.repGo hmn h hB hq s hs _ List.suffix_rfl (fun _ => rfl) (Nat.le_refl _) (by simp)

theorem R.repeatedB {p : P Nat α} {mn : Nat} (hmn : mn ≤ 1) (h : R text B F p)
    (hB : ∀ s, s <:+ offsetToks 0 text → B s → Fails p (offsetEoi text) s)
    (hq : ∀ s e, (p (offsetEoi text) s).out = .error e → (p (offsetEoi text) s).errs = []) :
    R text (fun t => B t ∨ F t) F (Knuffel.repeatedB mn none p) := by
  intro s hs
  exact RG.repeatedB (γ := off text) hmn h hB hq s hs

/-- A repetition of at least none does not fail. -/
theorem R.repeated {p : P Nat α} (h : R text B F p)
    (hB : ∀ s, s <:+ offsetToks 0 text → B s → Fails p (offsetEoi text) s)
    (hq : ∀ s e, (p (offsetEoi text) s).out = .error e → (p (offsetEoi text) s).errs = []) :
    R text (fun t => B t ∨ F t) F' (Knuffel.repeated p) := by
  intro s hs
  have h1 := R.repeatedB (mn := 0) (by omega) h hB hq s hs
  refine ⟨h1.suf, h1.steps, h1.ok, ?_⟩
  intro e he
  exact absurd ⟨e, he⟩ not_fails_repeated

end Knuffel.Ordered
