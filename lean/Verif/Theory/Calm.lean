import Verif.Theory.Quiet
/-!
# Parsers that do not panic

The only panics of the parser are the `todo!` in the merging of two errors one
of which is a plain message, and repetitions without progress.  `Calm L p`: on
inputs of at most `L` tokens `p` does not panic and its error or alternative
error is not a message; such parsers can be combined without panic.
-/

set_option linter.unusedSimpArgs false
set_option linter.unusedSectionVars false

namespace Knuffel

variable {O α β γ : Type}

/-- Not a message. -/
def PErr.plain : PErr O → Bool
  | .unexpected .. => true
  | .unclosed .. => true
  | _ => false

theorem PErr.merge_plain {a b : PErr O} (ha : a.plain = true) (hb : b.plain = true) :
    ∃ c, a.merge b = some c ∧ c.plain = true := by
  cases a <;> cases b <;> simp_all [PErr.plain, PErr.merge]

/-- Merging gives one of the two, or there is a merged error. -/
theorem Loc.max_rem (a b : Loc O) : (a.max b).rem = a.rem ∧ a.rem ≤ b.rem ∨ (a.max b) = b ∧ b.rem < a.rem := by
  unfold Loc.max
  split
  · left; exact ⟨rfl, by omega⟩
  · split
    · right; exact ⟨rfl, by omega⟩
    · left; split <;> exact ⟨rfl, by omega⟩

/-- An optional error that is not a message. -/
def OPlain (o : Option (Loc O)) : Prop := ∀ e, o = some e → e.err.plain = true

theorem oplain_none : OPlain (none : Option (Loc O)) := by intro e h; cases h
theorem oplain_some {e : Loc O} : OPlain (some e) ↔ e.err.plain = true :=
  ⟨fun h => h e rfl, fun h e' he => by injection he with he; subst he; exact h⟩

theorem Loc.max_plain {a b : Loc O} (ha : a.err.plain = true) (hb : b.err.plain = true) :
    (a.max b).err.plain = true := by
  unfold Loc.max
  obtain ⟨c, h1, h2⟩ := PErr.merge_plain ha hb
  split
  · exact ha
  · split
    · exact hb
    · simp [h1, h2]

theorem Loc.clash_plain {a b : Loc O} (ha : a.err.plain = true) (hb : b.err.plain = true) :
    a.clash b = false := by
  obtain ⟨c, h1, h2⟩ := PErr.merge_plain ha hb
  simp [Loc.clash, h1]

theorem Loc.clash_ne {a b : Loc O} (h : a.rem ≠ b.rem) : a.clash b = false := by
  simp [Loc.clash, h]

theorem maxO_plain {a : Loc O} {o : Option (Loc O)} (ha : a.err.plain = true) (ho : OPlain o) :
    (a.maxO o).err.plain = true ∧ a.clashO o = false := by
  cases o with
  | none => exact ⟨ha, rfl⟩
  | some b => exact ⟨Loc.max_plain ha (ho b rfl), Loc.clash_plain ha (ho b rfl)⟩

theorem mergeAlts_plain {a b : Option (Loc O)} (ha : OPlain a) (hb : OPlain b) :
    OPlain (mergeAlts a b) ∧ clashAlts a b = false := by
  cases a with
  | none => cases b with
    | none => exact ⟨ha, rfl⟩
    | some b => exact ⟨hb, rfl⟩
  | some a => cases b with
    | none => exact ⟨ha, rfl⟩
    | some b =>
      exact ⟨oplain_some.2 (Loc.max_plain (hb b rfl) (ha a rfl)), Loc.clash_plain (hb b rfl) (ha a rfl)⟩

/-- No panic, and the error or alternative error is not a message. -/
structure CalmR (r : PRes O α) : Prop where
  np : r.panicked = false
  plain : OPlain r.altOrErr

/-- On inputs of at most `L` tokens. -/
def Calm (L : Nat) (p : P O α) : Prop := ∀ eoi s, s.length ≤ L → CalmR (p eoi s)

theorem Calm.mono {L M : Nat} {p : P O α} (h : Calm L p) (hm : M ≤ L) : Calm M p :=
  fun eoi s hs => h eoi s (by omega)

theorem calmR_pok {a : α} {s : List (Tok O)} : CalmR (pok a s) := ⟨rfl, oplain_none⟩
theorem calmR_pfail {e : PErr O} {s t : List (Tok O)} (h : e.plain = true) :
    CalmR (pfail s e t : PRes O α) := ⟨rfl, oplain_some.2 h⟩

section
variable {L : Nat}

theorem calm_just (c) : Calm L (just c : P O Char) := by
  intro eoi s _; unfold just
  split
  · split
    · exact calmR_pok
    · exact calmR_pfail rfl
  · exact calmR_pfail rfl

theorem calm_justStr (cs) : Calm L (justStr cs : P O Unit) := by
  induction cs with
  | nil => intro eoi s _; exact calmR_pok
  | cons c cs ih =>
    intro eoi s hs; unfold justStr
    split
    · split
      · exact ih _ _ (by simp at hs; omega)
      · exact calmR_pfail rfl
    · exact calmR_pfail rfl

theorem calm_filter (f) : Calm L (filter f : P O Char) := by
  intro eoi s _; unfold filter
  split
  · split
    · exact calmR_pok
    · exact calmR_pfail rfl
  · exact calmR_pfail rfl

theorem calm_filterMap {f : Sp O → Char → Except (PErr O) α}
    (h : ∀ sp c e, f sp c = .error e → e.plain = true) : Calm L (filterMap f) := by
  intro eoi s _; unfold filterMap
  split
  · split
    · exact calmR_pok
    · exact calmR_pfail (h _ _ _ (by assumption))
  · exact calmR_pfail rfl

theorem calm_endP : Calm L (endP : P O Unit) := by
  intro eoi s _; unfold endP
  split
  · exact calmR_pfail rfl
  · exact calmR_pok

theorem calmR_ok {r : PRes O α} {a alt} (h : CalmR r) (ho : r.out = .ok (a, alt)) : OPlain alt := by
  have := h.plain; simpa [PRes.altOrErr, ho] using this
theorem calmR_error {r : PRes O α} {e} (h : CalmR r) (ho : r.out = .error e) : e.err.plain = true := by
  have := h.plain; simpa [PRes.altOrErr, ho, oplain_some] using this

theorem calm_pmap {f : α → β} {p : P O α} (h : Calm L p) : Calm L (pmap f p) := by
  intro eoi s hs
  have h1 := h eoi s hs
  refine ⟨h1.np, ?_⟩
  cases ho : (p eoi s).out with
  | error e => simpa [pmap, PRes.altOrErr, ho] using oplain_some.2 (calmR_error h1 ho)
  | ok x => simpa [pmap, PRes.altOrErr, ho] using calmR_ok h1 ho

theorem calm_ignored {p : P O α} (h : Calm L p) : Calm L (ignored p) := calm_pmap h

theorem calm_mapErr {f : PErr O → PErr O} {p : P O α} (h : Calm L p)
    (hf : ∀ e, e.plain = true → (f e).plain = true) : Calm L (mapErr f p) := by
  intro eoi s hs
  have h1 := h eoi s hs
  refine ⟨h1.np, ?_⟩
  cases ho : (p eoi s).out with
  | error e => simpa [mapErr, PRes.altOrErr, ho, oplain_some] using hf _ (calmR_error h1 ho)
  | ok x => simpa [mapErr, PRes.altOrErr, ho] using calmR_ok h1 ho

theorem calm_mapErrWithSpan {f : PErr O → Sp O → PErr O} {p : P O α} (h : Calm L p)
    (hf : ∀ e sp, e.plain = true → (f e sp).plain = true) : Calm L (mapErrWithSpan f p) := by
  intro eoi s hs
  have h1 := h eoi s hs
  refine ⟨h1.np, ?_⟩
  cases ho : (p eoi s).out with
  | error e => simpa [mapErrWithSpan, PRes.altOrErr, ho, oplain_some] using hf _ _ (calmR_error h1 ho)
  | ok x => simpa [mapErrWithSpan, PRes.altOrErr, ho] using calmR_ok h1 ho

theorem calm_mapWithSpan {f : α → Sp O → β} {p : P O α} (h : Calm L p) : Calm L (mapWithSpan f p) := by
  intro eoi s hs
  have h1 := h eoi s hs
  refine ⟨h1.np, ?_⟩
  cases ho : (p eoi s).out with
  | error e => simpa [mapWithSpan, PRes.altOrErr, ho, oplain_some] using (calmR_error h1 ho)
  | ok x => simpa [mapWithSpan, PRes.altOrErr, ho] using calmR_ok h1 ho

theorem calm_spanned {p : P O α} (h : Calm L p) : Calm L (spanned p) := calm_mapWithSpan h

theorem calm_tryMap {f : α → Sp O → Except (PErr O) β} {p : P O α} (h : Calm L p)
    (hf : ∀ a sp e, f a sp = .error e → e.plain = true) : Calm L (tryMap f p) := by
  intro eoi s hs
  have h1 := h eoi s hs
  refine ⟨h1.np, ?_⟩
  cases ho : (p eoi s).out with
  | error e => simpa [tryMap, PRes.altOrErr, ho, oplain_some] using (calmR_error h1 ho)
  | ok x =>
    cases hx : f x.1 (spanSince eoi s (p eoi s).rest) with
    | error e => simpa [tryMap, PRes.altOrErr, ho, hx, oplain_some] using hf _ _ _ hx
    | ok y => simpa [tryMap, PRes.altOrErr, ho, hx] using calmR_ok h1 ho

theorem calm_validate {f : α → Sp O → List (PErr O)} {p : P O α} (h : Calm L p) :
    Calm L (validate f p) := by
  intro eoi s hs
  have h1 := h eoi s hs
  unfold validate
  cases ho : (p eoi s).out with
  | error e => exact ⟨by simpa [ho] using h1.np, by simpa [PRes.altOrErr, ho, oplain_some] using (calmR_error h1 ho)⟩
  | ok x => exact ⟨by simpa [ho] using h1.np, by simpa [PRes.altOrErr, ho] using calmR_ok h1 ho⟩

/-- Sequencing, at one input. -/
theorem calmR_bind {p : P O α} {f : α → P O β} {eoi : Sp O} {s} (h1 : CalmR (p eoi s))
    (h2 : ∀ a alt, (p eoi s).out = .ok (a, alt) → CalmR (f a eoi (p eoi s).rest)) :
    CalmR (bind p f eoi s) := by
  unfold bind
  cases ho : (p eoi s).out with
  | error e => exact ⟨by simpa [ho] using h1.np, by simpa [PRes.altOrErr, ho, oplain_some] using (calmR_error h1 ho)⟩
  | ok x =>
    obtain ⟨a, alt1⟩ := x
    have h3 := h2 a alt1 ho
    have hp1 := calmR_ok h1 ho
    cases ho2 : (f a eoi (p eoi s).rest).out with
    | error e =>
      have := maxO_plain (calmR_error h3 ho2) hp1
      exact ⟨by simp [ho, ho2, h1.np, h3.np, this.2],
        by simpa [PRes.altOrErr, ho, ho2, oplain_some] using this.1⟩
    | ok y =>
      have := mergeAlts_plain hp1 (calmR_ok h3 ho2)
      exact ⟨by simp [ho, ho2, h1.np, h3.np, this.2], by simpa [PRes.altOrErr, ho, ho2] using this.1⟩

theorem calm_bind {p : P O α} {f : α → P O β} (h1 : Calm L p) (hs : Suf p) (h2 : ∀ a, Calm L (f a)) :
    Calm L (bind p f) := fun eoi s hl =>
  calmR_bind (h1 eoi s hl) (fun a _ _ => h2 a eoi _ (by have := (hs eoi s).length_le; omega))

theorem calm_seq {p : P O α} {q : P O β} (h1 : Calm L p) (hs : Suf p) (h2 : Calm L q) :
    Calm L (seq p q) := calm_bind h1 hs (fun _ => calm_pmap h2)
theorem calm_ignoreThen {p : P O α} {q : P O β} (h1 : Calm L p) (hs : Suf p) (h2 : Calm L q) :
    Calm L (ignoreThen p q) := calm_bind h1 hs (fun _ => h2)
theorem calm_thenIgnore {p : P O α} {q : P O β} (h1 : Calm L p) (hs : Suf p) (h2 : Calm L q) :
    Calm L (thenIgnore p q) := calm_bind h1 hs (fun _ => calm_pmap h2)

theorem calmR_altOrErr {r : PRes O α} (h : CalmR r) : OPlain r.altOrErr := h.plain

theorem calmR_takeA {a b : PRes O α} (ha : CalmR a) (hb : CalmR b) : CalmR (takeA a b) := by
  unfold takeA
  split
  · rename_i x alt hx
    have := mergeAlts_plain (calmR_ok ha hx) hb.plain
    exact ⟨by simp [ha.np, hb.np, this.2], by simpa [PRes.altOrErr] using this.1⟩
  · rename_i e hx
    have := maxO_plain (calmR_error ha hx) hb.plain
    exact ⟨by simp [ha.np, hb.np, this.2], by simpa [PRes.altOrErr, oplain_some] using this.1⟩

/-- The choice of two, at one input. -/
theorem calmR_orP {p q : P O α} {eoi : Sp O} {s} (h1 : CalmR (p eoi s)) (h2 : CalmR (q eoi s)) :
    CalmR (orP p q eoi s) := by
  unfold orP
  simp only
  split
  · exact h1
  · split
    · split
      · rename_i x alt hx
        have := mergeAlts_plain (calmR_ok h2 hx) h1.plain
        exact ⟨by simp [h1.np, h2.np, this.2], by simpa [PRes.altOrErr] using this.1⟩
      · rename_i e hx
        exact ⟨by simp [h1.np, h2.np], by simpa [PRes.altOrErr, oplain_some] using calmR_error h2 hx⟩
    · split
      · exact calmR_takeA h1 h2
      · exact calmR_takeA h2 h1

theorem calm_orP {p q : P O α} (h1 : Calm L p) (h2 : Calm L q) : Calm L (orP p q) :=
  fun eoi s hs => calmR_orP (h1 eoi s hs) (h2 eoi s hs)

theorem calmR_choiceGo {eoi : Sp O} {s} {ps : List (P O α)} : ∀ {alt pan},
    (∀ p ∈ ps, CalmR (p eoi s)) → OPlain alt → pan = false → (ps ≠ [] ∨ alt ≠ none) →
    CalmR (choiceGo alt pan ps eoi s) := by
  induction ps with
  | nil =>
    intro alt pan _ ha hp hn
    cases alt with
    | none => simp at hn
    | some e => exact ⟨hp, by simpa [PRes.altOrErr, choiceGo] using ha⟩
  | cons p ps ih =>
    intro alt pan h ha hp hn
    have h1 := h p (by simp)
    unfold choiceGo
    cases ho : (p eoi s).out with
    | ok x => exact ⟨by simp [ho, hp, h1.np], by simpa [PRes.altOrErr, ho] using calmR_ok h1 ho⟩
    | error e =>
      simp only [ho]
      have := mergeAlts_plain ha (oplain_some.2 (calmR_error h1 ho))
      refine ih (fun q hq => h q (by simp [hq])) this.1 (by simp [hp, h1.np, this.2]) (Or.inr ?_)
      cases alt <;> simp [mergeAlts]

theorem calm_choice {ps : List (P O α)} (hn : ps ≠ []) (h : ∀ p ∈ ps, Calm L p) : Calm L (choice ps) :=
  fun eoi s hs => calmR_choiceGo (fun p hp => h p hp eoi s hs) oplain_none rfl (Or.inl hn)

theorem calmR_orNot {p : P O α} {eoi : Sp O} {s} (h : CalmR (p eoi s)) : CalmR (orNot p eoi s) := by
  unfold orNot
  cases ho : (p eoi s).out with
  | error e => exact ⟨by simpa [ho] using h.np, by simpa [PRes.altOrErr, ho, oplain_some] using (calmR_error h ho)⟩
  | ok x => exact ⟨by simpa [ho] using h.np, by simpa [PRes.altOrErr, ho] using calmR_ok h ho⟩

theorem calm_orNot {p : P O α} (h : Calm L p) : Calm L (orNot p) :=
  fun eoi s hs => calmR_orNot (h eoi s hs)

theorem calm_rewind {p : P O α} (h : Calm L p) : Calm L (rewind p) := by
  intro eoi s hs
  have h1 := h eoi s hs
  unfold rewind
  cases ho : (p eoi s).out with
  | error e => exact ⟨by simpa [ho] using h1.np, by simpa [PRes.altOrErr, ho, oplain_some] using (calmR_error h1 ho)⟩
  | ok x => exact ⟨by simpa [ho] using h1.np, by simpa [PRes.altOrErr, ho] using calmR_ok h1 ho⟩

/-- Failures do not come with emitted errors. -/
def FailQuiet (p : P O α) : Prop := ∀ eoi s e, (p eoi s).out = .error e → (p eoi s).errs = []

theorem Quiet.failQuiet {p : P O α} (h : Quiet p) : FailQuiet p := fun eoi s _ _ => h eoi s

theorem calmR_repGo {p : P O α} (hp : Calm L p) (hc : Consumes p) (hq : FailQuiet p) {mn mx eoi} :
    ∀ fuel {outs errs alt pan s}, s.length < fuel → s.length ≤ L → OPlain alt → pan = false →
    CalmR (repGo p mn mx eoi fuel outs errs alt pan s) := by
  intro fuel
  induction fuel with
  | zero => intro _ _ _ _ _ h; omega
  | succ n ih =>
    intro outs errs alt pan s hf hL ha hpan
    unfold repGo
    split
    · exact ⟨hpan, by simpa [PRes.altOrErr] using ha⟩
    · have h1 := hp eoi s hL
      cases ho : (p eoi s).out with
      | ok x =>
        have hlt := hc eoi s x ho
        have hm := mergeAlts_plain ha (calmR_ok h1 ho)
        simp only [ho, hlt, if_true]
        exact ih (by omega) (by omega) hm.1 (by simp [hpan, h1.np, hm.2])
      | error e =>
        have he := calmR_error h1 ho
        simp only [ho]
        split
        · exact ⟨by simp [hpan, h1.np], by simpa [PRes.altOrErr, oplain_some] using he⟩
        · have hm := mergeAlts_plain ha (oplain_some.2 he)
          simp only [hq eoi s e ho, List.head?_nil]
          have e1 : mergeAlts (some e) none = some e := rfl
          have e2 : clashAlts (some e) none = false := rfl
          rw [e1, e2]
          exact ⟨by simp [hpan, h1.np, hm.2], by simpa [PRes.altOrErr] using hm.1⟩

theorem calm_repeatedB {mn mx} {p : P O α} (hp : Calm L p) (hc : Consumes p) (hq : FailQuiet p) :
    Calm L (repeatedB mn mx p) := fun eoi s hs =>
  calmR_repGo hp hc hq _ (by omega) hs oplain_none rfl

theorem calm_repeated {p : P O α} (hp : Calm L p) (hc : Consumes p) (hq : FailQuiet p) :
    Calm L (repeated p) := calm_repeatedB hp hc hq

theorem calmR_takeUntilGo {p : P O β} (hp : Calm L p) {eoi} :
    ∀ fuel {outs alt pan s}, s.length < fuel → s.length ≤ L → OPlain alt → pan = false →
    CalmR (takeUntilGo p eoi fuel outs alt pan s) := by
  intro fuel
  induction fuel with
  | zero => intro _ _ _ _ h; omega
  | succ n ih =>
    intro outs alt pan s hf hL ha hpan
    unfold takeUntilGo
    have h1 := hp eoi s hL
    cases ho : (p eoi s).out with
    | ok x =>
      have hm := mergeAlts_plain ha (calmR_ok h1 ho)
      exact ⟨by simp [ho, hpan, h1.np, hm.2], by simpa [PRes.altOrErr, ho] using hm.1⟩
    | error e =>
      have he := calmR_error h1 ho
      simp only [ho]
      cases s with
      | nil => exact ⟨by simp [hpan, h1.np], by simpa [PRes.altOrErr, oplain_some] using he⟩
      | cons x t =>
        have hm := mergeAlts_plain ha (oplain_some.2 he)
        exact ih (by simp at hf; omega) (by simp at hL; omega) hm.1 (by simp [hpan, h1.np, hm.2])

theorem calm_takeUntil {p : P O β} (hp : Calm L p) : Calm L (takeUntil p) := fun eoi s hs =>
  calmR_takeUntilGo hp _ (by omega) hs oplain_none rfl

/-! ### The lexical part of the grammar -/

theorem plain_withNoExpected {e : PErr O} (h : e.plain = true) : e.withNoExpected.plain = true := by
  cases e <;> simp_all [PErr.plain, PErr.withNoExpected]
theorem plain_withExpectedKind {k} {e : PErr O} (h : e.plain = true) : (e.withExpectedKind k).plain = true := by
  cases e <;> simp_all [PErr.plain, PErr.withExpectedKind]
theorem plain_withExpectedToken {k} {e : PErr O} (h : e.plain = true) : (e.withExpectedToken k).plain = true := by
  cases e <;> simp_all [PErr.plain, PErr.withExpectedToken]

theorem calm_beginComment (c) : Calm L (beginComment c : P O Unit) :=
  calm_ignoreThen (calm_mapErr (calm_just _) (fun _ => plain_withNoExpected)) (suf_mapErr suf_just)
    (calm_ignored (calm_just _))

theorem calm_newline : Calm L (newline : P O Unit) :=
  calm_mapErr (calm_ignored (calm_orP (calm_orP (calm_orP (calm_orP (calm_orP
    (calm_ignoreThen (calm_orNot (calm_just _)) (suf_orNot suf_just) (calm_just _)) (calm_just _)) (calm_just _))
    (calm_just _)) (calm_just _)) (calm_just _))) (fun _ => plain_withExpectedKind)

theorem calm_comment : Calm L (comment : P O Unit) :=
  calm_ignored (calm_seq (calm_beginComment _) suf_beginComment
    (calm_takeUntil (calm_orP calm_newline calm_endP)))

theorem eats_mlCommentItem (n : Nat) : Eats 1 (choice [
    mlCommentRec n,
    ignored (noneOf '*'),
    ignored (thenIgnore (just '*') (rewind (noneOf '/')))] : P O Unit) := by
  refine eats_choice ?_
  intro p hp
  simp only [List.mem_cons, List.not_mem_nil, or_false] at hp
  rcases hp with rfl | rfl | rfl
  · exact (eats_mlCommentRec n).mono (by decide)
  · exact eats_ignored eats_filter
  · exact eats_ignored (eats_thenIgnore (k := 0) eats_just eats_rewind)

theorem calm_mlCommentRec : ∀ n, ∀ eoi s, s.length < n → CalmR (mlCommentRec n eoi s : PRes O Unit) := by
  intro n
  induction n with
  | zero => intro _ _ h; omega
  | succ n ih =>
    intro eoi s hs
    have hloop : n ≠ 0 → Calm (n - 1) (ignored (repeated (choice [
        mlCommentRec n,
        ignored (noneOf '*'),
        ignored (thenIgnore (just '*') (rewind (noneOf '/')))])) : P O Unit) := by
      intro hn
      refine calm_ignored (calm_repeated (calm_choice (by simp) ?_) (eats_mlCommentItem n).consumes
        (quiet_choice ?_).failQuiet)
      · intro p hp
        simp at hp
        rcases hp with rfl | rfl | rfl
        · exact fun eoi s hs => ih eoi s (by omega)
        · exact calm_ignored (calm_filter _)
        · exact calm_ignored (calm_thenIgnore (calm_just _) suf_just (calm_rewind (calm_filter _)))
      · intro p hp
        simp at hp
        rcases hp with rfl | rfl | rfl
        · exact quiet_mlCommentRec n
        · exact quiet_ignored (quiet_filter _)
        · exact quiet_ignored (quiet_thenIgnore (quiet_just _) (quiet_rewind (quiet_filter _)))
    unfold mlCommentRec delimitedBy
    refine calmR_bind (calmR_bind (calm_beginComment (L := s.length) _ eoi s (Nat.le_refl _)) ?_) ?_
    · intro a alt ho
      have := eats_beginComment eoi s _ ho
      refine hloop (by omega) eoi _ (by omega)
    · intro a alt ho
      exact calm_pmap (calm_justStr (L := _) _) eoi _ (Nat.le_refl _)

section
variable [Offset O]

theorem plain_getD_merge {e f : PErr O} (h : e.plain = true) (hf : f.plain = true) :
    ((e.merge f).getD e).plain = true := by
  obtain ⟨c, h1, h2⟩ := PErr.merge_plain h hf
  simp [h1, h2]

theorem calm_mlComment : Calm L (mlComment : P O Unit) := by
  intro eoi s hs
  have h := calm_mlCommentRec (O := O) (s.length + 1) eoi s (by omega)
  have : Calm (O := O) (α := Unit) s.length (fun eoi' s' =>
      if s'.length ≤ s.length then mlCommentRec (s.length + 1) eoi' s' else pok () s') := by
    intro eoi' s' hs'
    simp only [hs', if_true]
    exact calm_mlCommentRec _ _ _ (by omega)
  unfold mlComment
  have h1 := h
  refine ⟨h1.np, ?_⟩
  cases ho : (mlCommentRec (s.length + 1) eoi s).out with
  | error e =>
    have := calmR_error h1 ho
    simp only [mapErrWithSpan, PRes.altOrErr, ho, oplain_some]
    unfold mlCommentErr
    split
    · exact plain_getD_merge this rfl
    · exact this
  | ok x => simpa [mapErrWithSpan, PRes.altOrErr, ho] using calmR_ok h1 ho

theorem calm_ws : Calm L (ws : P O Unit) :=
  calm_mapErr (calm_orP (calm_ignored (calm_repeatedB (calm_ignored (calm_filter _))
    (eats_ignored eats_filter).consumes (quiet_ignored (quiet_filter _)).failQuiet)) calm_mlComment)
    (fun _ => plain_withExpectedKind)

theorem calm_escLine : Calm L (escLine : P O Unit) :=
  calm_ignoreThen (calm_ignoreThen (calm_just _) suf_just
      (calm_repeated calm_ws eats_ws.consumes quiet_ws.failQuiet))
    (suf_ignoreThen suf_just (suf_repeated suf_ws)) (calm_orP calm_comment calm_newline)

theorem calm_nodeSpace : Calm L (nodeSpace : P O Unit) := calm_orP calm_ws calm_escLine

theorem calm_nodeSpaces {mn mx} : Calm L (repeatedB mn mx (nodeSpace : P O Unit)) :=
  calm_repeatedB calm_nodeSpace eats_nodeSpace.consumes quiet_nodeSpace.failQuiet

theorem calm_lineSpace : Calm L (lineSpace : P O Unit) :=
  calm_orP (calm_orP calm_newline calm_ws) calm_comment

theorem calm_lines : Calm L (repeated (lineSpace : P O Unit)) :=
  calm_repeated calm_lineSpace eats_lineSpace.consumes quiet_lineSpace.failQuiet

theorem calm_nodeTerminator : Calm L (nodeTerminator : P O Unit) := by
  refine calm_choice (by simp) ?_
  intro p hp
  simp at hp
  rcases hp with rfl | rfl | rfl | rfl
  · exact calm_newline
  · exact calm_comment
  · exact calm_ignored (calm_just _)
  · exact calm_endP

theorem calm_rawString : Calm L (rawString : P O Str) := by
  refine calm_pmap (calm_bind (calm_thenIgnore (calm_ignoreThen (calm_just _) suf_just
    (calm_pmap (calm_repeated (calm_just _) eats_just.consumes (quiet_just _).failQuiet)))
      (suf_ignoreThen suf_just (suf_pmap (suf_repeated suf_just))) (calm_just _))
      (suf_thenIgnore (suf_ignoreThen suf_just (suf_pmap (suf_repeated suf_just))) suf_just) ?_)
  intro n
  refine calm_mapErrWithSpan (calm_takeUntil (calm_ignoreThen (calm_just _) suf_just (calm_ignored
    (calm_repeatedB (calm_just _) eats_just.consumes (quiet_just _).failQuiet)))) ?_
  intro e sp he
  unfold rawStringErr
  split
  · exact plain_getD_merge he rfl
  · exact he

theorem plain_escSimple {sp : Sp O} {c e} (h : escSimple sp c = .error e) : e.plain = true := by
  unfold escSimple at h
  repeat' split at h
  all_goals first | (simp at h; done) | (injection h with h; subst h; rfl)

theorem plain_hexDigit {sp : Sp O} {c e} (h : hexDigit sp c = .error e) : e.plain = true := by
  unfold hexDigit at h
  split at h
  · simp at h
  · injection h with h; subst h; rfl

/-- The digits of a `\u{...}` escape with the braces. -/
def hexBraces : P O (List Char) :=
  delimitedBy (repeatedB 1 (some 6) (filterMap hexDigit)) (just '{') (just '}')

theorem calm_hexBraces : Calm L (hexBraces : P O (List Char)) :=
  calm_thenIgnore (calm_ignoreThen (calm_just _) suf_just
    (calm_repeatedB (calm_filterMap (fun _ _ _ => plain_hexDigit)) eats_filterMap.consumes
      (quiet_filterMap _).failQuiet)) (suf_ignoreThen suf_just (suf_repeatedB suf_filterMap)) (calm_just _)

theorem quiet_hexBraces : Quiet (hexBraces : P O (List Char)) :=
  quiet_delimitedBy (quiet_repeatedB (quiet_filterMap _)) (quiet_just _) (quiet_just _)

theorem hexBraces_mem {eoi : Sp O} {s x} (h : (hexBraces eoi s).out = .ok x) : ∃ sp, ('}', sp) ∈ s := by
  obtain ⟨a, alt⟩ := x
  have hok : Ok hexBraces eoi s a (hexBraces eoi s).rest := ⟨quiet_hexBraces eoi s, ⟨alt, h⟩, rfl⟩
  unfold hexBraces delimitedBy at hok
  obtain ⟨t1, _, h1, h2⟩ := ok_thenIgnore.1 hok
  obtain ⟨sp, h3, _⟩ := ok_just.1 h2
  have hsuf : (ignoreThen (just '{') (repeatedB 1 (some 6) (filterMap hexDigit)) eoi s).rest <:+ s :=
    suf_ignoreThen suf_just (suf_repeatedB suf_filterMap) eoi s
  rw [h1.2.2] at hsuf
  exact ⟨sp, hsuf.mem (by rw [h3]; simp)⟩

theorem skipTo_isSome {u : List Char} {s : List (Tok O)} {c : Char} (hc : u.contains c = true) {sp : Sp O}
    (h : (c, sp) ∈ s) : ∃ t, skipTo u s = some t := by
  induction s with
  | nil => simp at h
  | cons x s ih =>
    unfold skipTo
    split
    · exact ⟨_, rfl⟩
    · rename_i hx
      rcases List.mem_cons.1 h with h | h
      · subst h; exact absurd hc hx
      · exact ih h

theorem calm_hexEsc : Calm L (recoverSkipUntil ['}', '"', '\\'] '\x00'
    (tryMap hexToChar (hexBraces : P O (List Char)))) := by
  intro eoi s hs
  have h1 := calm_hexBraces (O := O) eoi s hs
  unfold recoverSkipUntil
  cases ho : (hexBraces eoi s).out with
  | error e =>
    have he := calmR_error h1 ho
    have ht : (tryMap hexToChar hexBraces eoi s).out = .error e := by simp [tryMap, ho]
    have hp : (tryMap hexToChar hexBraces eoi s).panicked = false := h1.np
    simp only [ht, hp]
    split
    · exact ⟨rfl, by simpa [PRes.altOrErr] using oplain_none⟩
    · exact ⟨rfl, by simpa [PRes.altOrErr, oplain_some] using he⟩
  | ok x =>
    have hp : (tryMap hexToChar hexBraces eoi s).panicked = false := h1.np
    cases hx : hexToChar x.1 (spanSince eoi s (hexBraces eoi s).rest) with
    | ok c =>
      have ht : (tryMap hexToChar hexBraces eoi s).out = .ok (c, x.2) := by simp [tryMap, ho, hx]
      simp only [ht, hp]
      exact ⟨rfl, by simpa [PRes.altOrErr] using calmR_ok h1 ho⟩
    | error e =>
      have ht : (tryMap hexToChar hexBraces eoi s).out = .error ⟨(hexBraces eoi s).rest.length, e⟩ := by
        simp [tryMap, ho, hx]
      obtain ⟨sp, hm⟩ := hexBraces_mem ho
      obtain ⟨t, hsk⟩ := skipTo_isSome (u := ['}', '"', '\\']) (by decide) hm
      simp only [ht, hp, hsk]
      exact ⟨rfl, by simpa [PRes.altOrErr] using oplain_none⟩

theorem failQuiet_hexEsc : FailQuiet (recoverSkipUntil ['}', '"', '\\'] '\x00'
    (tryMap hexToChar (hexBraces : P O (List Char)))) := by
  intro eoi s e h
  unfold recoverSkipUntil at h ⊢
  have hq : (tryMap hexToChar hexBraces eoi s).errs = [] := quiet_tryMap quiet_hexBraces eoi s
  cases ho : (tryMap hexToChar hexBraces eoi s).out with
  | ok x => simp [ho] at h
  | error e' =>
    simp only [ho] at h ⊢
    split at h
    · simp at h
    · simpa using hq

theorem calm_escChar : Calm L (escChar : P O Char) :=
  calm_orP (calm_filterMap (fun _ _ _ => plain_escSimple)) (calm_ignoreThen (calm_just _) suf_just calm_hexEsc)

theorem failQuiet_ignoreThen {p : P O α} {q : P O β} (hp : Quiet p) (hq : FailQuiet q) :
    FailQuiet (ignoreThen p q) := by
  intro eoi s e h
  unfold ignoreThen bind at h ⊢
  cases ho : (p eoi s).out with
  | error e' => simpa [ho] using hp eoi s
  | ok x =>
    simp only [ho] at h ⊢
    cases ho2 : (q eoi (p eoi s).rest).out with
    | error e2 => simp [ho2, hp eoi s, hq _ _ _ ho2]
    | ok y => simp [ho2] at h

theorem failQuiet_orP {p q : P O α} (hp : FailQuiet p) (hq : FailQuiet q) : FailQuiet (orP p q) := by
  have key : ∀ (a b : PRes O α), (∀ e, a.out = .error e → a.errs = []) →
      ∀ e, (takeA a b).out = .error e → (takeA a b).errs = [] := by
    intro a b ha e h
    unfold takeA at h ⊢
    cases ho : a.out with
    | ok x => simp [ho] at h
    | error e' => simpa [ho] using ha _ ho
  intro eoi s e h
  unfold orP at h ⊢
  simp only at h ⊢
  split at h
  · rename_i hc; simp only [hc, if_true]; exact hp _ _ _ h
  · rename_i hc
    simp only [hc, if_false, Bool.false_eq_true] at h ⊢
    split at h
    · rename_i hc2
      cases ho : (q eoi s).out with
      | ok x => simp [ho] at h
      | error e' => simp [PRes.clean, ho] at hc2
    · rename_i hc2
      simp only [hc2, if_false, Bool.false_eq_true] at h ⊢
      split at h
      · rename_i hpr; simp only [hpr, if_true]; exact key _ _ (hp eoi s) _ h
      · rename_i hpr
        simp only [hpr, if_false, Bool.false_eq_true]; exact key _ _ (hq eoi s) _ h

theorem failQuiet_escChar : FailQuiet (escChar : P O Char) :=
  failQuiet_orP (quiet_filterMap _).failQuiet (failQuiet_ignoreThen (quiet_just _) failQuiet_hexEsc)

theorem failQuiet_strChar : FailQuiet (strChar : P O Char) :=
  failQuiet_orP (quiet_filter _).failQuiet (failQuiet_ignoreThen (quiet_just _) failQuiet_escChar)

theorem calm_strChar : Calm L (strChar : P O Char) :=
  calm_orP (calm_filter _) (calm_ignoreThen (calm_just _) suf_just calm_escChar)

theorem calm_escapedString : Calm L (escapedString : P O Str) := by
  refine calm_ignoreThen (calm_just _) suf_just (calm_mapErrWithSpan (calm_thenIgnore
    (calm_repeated calm_strChar eats_strChar.consumes failQuiet_strChar) (suf_repeated suf_strChar)
    (calm_just _)) ?_)
  intro e sp he
  unfold stringErr
  split
  · exact plain_getD_merge he rfl
  · exact he

theorem calm_string : Calm L (string : P O Str) := calm_orP calm_rawString calm_escapedString
end

theorem plain_checkKeyword {s : Str} {sp : Sp O} {e} (h : checkKeyword s sp = .error e) : e.plain = true := by
  unfold checkKeyword at h
  split at h
  · injection h with h; subst h; rfl
  · simp at h

theorem calm_sign : Calm L (sign : P O Char) := calm_orP (calm_just _) (calm_just _)
theorem calm_idChar : Calm L (idChar : P O Char) := calm_mapErr (calm_filter _) (fun _ => plain_withExpectedKind)
theorem quiet_idChar : Quiet (idChar : P O Char) := quiet_mapErr (quiet_filter _)
theorem quiet_sign : Quiet (sign : P O Char) := quiet_orP (quiet_just _) (quiet_just _)
theorem calm_idSansDig : Calm L (idSansDig : P O Char) :=
  calm_mapErr (calm_filter _) (fun _ => plain_withExpectedKind)
theorem calm_idSansSignDig : Calm L (idSansSignDig : P O Char) :=
  calm_mapErr (calm_filter _) (fun _ => plain_withExpectedKind)
theorem calm_idChars : Calm L (repeated idChar : P O (List Char)) :=
  calm_repeated calm_idChar eats_idChar.consumes quiet_idChar.failQuiet

theorem calm_bareIdent : Calm L (bareIdent : P O Str) := by
  refine calm_tryMap (calm_choice (by simp) ?_) (fun _ _ _ => plain_checkKeyword)
  intro p hp
  simp at hp
  rcases hp with rfl | rfl | rfl
  · exact calm_pmap (calm_seq calm_sign suf_sign (calm_seq calm_idSansDig suf_idSansDig calm_idChars))
  · exact calm_repeatedB calm_sign eats_sign.consumes quiet_sign.failQuiet
  · exact calm_pmap (calm_seq calm_idSansSignDig suf_idSansSignDig calm_idChars)

theorem calm_digits (r) : Calm L (digits r : P O (List Char)) :=
  calm_repeated (calm_filter _) eats_filter.consumes (quiet_filter _).failQuiet
theorem calm_optSign : Calm L (optSign : P O (Option Char)) := calm_orNot (calm_orP (calm_just _) (calm_just _))

theorem calm_decimalNumber : Calm L (decimalNumber : P O Literal) := by
  unfold decimalNumber
  refine calm_pmap (calm_seq (calm_seq (calm_seq (calm_seq calm_optSign suf_optSign (calm_filter _))
    (suf_seq suf_optSign suf_filter) (calm_digits _)) (suf_seq (suf_seq suf_optSign suf_filter) suf_digits)
    (calm_orNot (calm_pmap (calm_seq (calm_seq (calm_just _) suf_just (calm_filter _))
      (suf_seq suf_just suf_filter) (calm_digits _)))))
    (suf_seq (suf_seq (suf_seq suf_optSign suf_filter) suf_digits)
      (suf_orNot (suf_pmap (suf_seq (suf_seq suf_just suf_filter) suf_digits))))
    (calm_orNot (calm_pmap (calm_seq (calm_seq (calm_orP (calm_just _) (calm_just _))
      (suf_orP suf_just suf_just) calm_optSign)
      (suf_seq (suf_orP suf_just suf_just) suf_optSign) (calm_digits _)))))

theorem calm_radixDigits (m r x) : Calm L (radixDigits m r x : P O (Radix × List Char)) :=
  calm_ignoreThen (calm_just _) suf_just (calm_pmap (calm_seq (calm_filter _) suf_filter (calm_digits _)))

theorem calm_radixNumber : Calm L (radixNumber : P O Literal) := by
  refine calm_pmap (calm_seq (calm_thenIgnore calm_optSign suf_optSign (calm_just _))
    (suf_thenIgnore suf_optSign suf_just) (calm_choice (by simp) ?_))
  intro p hp
  simp at hp
  rcases hp with rfl | rfl | rfl <;> exact calm_radixDigits _ _ _

theorem calm_number : Calm L (number : P O Literal) := calm_orP calm_radixNumber calm_decimalNumber

theorem calm_keyword : Calm L (keyword : P O Literal) := by
  refine calm_choice (by simp) ?_
  intro p hp
  simp at hp
  rcases hp with rfl | rfl | rfl <;>
    exact calm_pmap (calm_mapErr (calm_justStr _) (fun _ => plain_withExpectedToken))

theorem plain_checkNumber {x : Option Str} {sp : Sp O} {e} (h : checkNumber x sp = .error e) :
    e.plain = true := by
  unfold checkNumber at h
  split at h
  · simp at h
  · injection h with h; subst h; rfl

section
variable [Offset O]

theorem calm_ident : Calm L (ident : P O Str) := by
  refine calm_tryMap (calm_choice (by simp) ?_) (fun _ _ _ => plain_checkNumber)
  intro p hp
  simp at hp
  rcases hp with rfl | rfl | rfl
  · exact calm_pmap calm_number
  · exact calm_pmap calm_bareIdent
  · exact calm_pmap calm_string

theorem calm_literal : Calm L (literal : P O Literal) := by
  refine calm_choice (by simp) ?_
  intro p hp
  simp at hp
  rcases hp with rfl | rfl | rfl
  · exact calm_pmap calm_string
  · exact calm_keyword
  · exact calm_number

theorem calm_typeName : Calm L (typeName : P O TypeName) :=
  calm_pmap (calm_thenIgnore (calm_ignoreThen (calm_just _) suf_just calm_ident)
    (suf_ignoreThen suf_just suf_ident) (calm_just _))

theorem calm_typeNameValue : Calm L (typeNameValue : P O (Value (Sp O))) :=
  calm_pmap (calm_seq (calm_spanned calm_typeName) (suf_spanned suf_typeName) (calm_spanned calm_literal))

theorem calm_value : Calm L (value : P O (Value (Sp O))) :=
  calm_orP calm_typeNameValue (calm_pmap (calm_spanned calm_literal))

theorem calm_optValue : Calm L (optValue : P O (Option (Value (Sp O)))) :=
  calm_orNot (calm_ignoreThen (calm_just _) suf_just calm_value)

end
end

end Knuffel
