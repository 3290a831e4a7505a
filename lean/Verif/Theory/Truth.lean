import Verif.Theory.Calm
/-!
# A logic of errors

`World`: a predicate `Q` on errors, and the streams `I` on which the parsers are run.
`Tr W p`: run on such a stream, all errors of `p` (emitted, fatal or alternative) satisfy
`Q`, and the rest is a suffix.
-/

set_option linter.unusedSimpArgs false
set_option linter.unusedSectionVars false

namespace Knuffel

variable {O α β γ : Type}

/-- A predicate `Q` on located errors that does not depend on the expected tokens of an
`unexpected`, and that holds of the errors the primitive parsers make; and a stronger
predicate `E` for the emitted errors. -/
structure World (O : Type) where
  eoi : Sp O
  I : List (Tok O) → Prop
  Q : Loc O → Prop
  E : Loc O → Prop
  suf : ∀ {s t}, I s → t <:+ s → I t
  eoiQ : ∀ {s l ex}, I s → Q ⟨s.length, .unexpected l eoi .eoi ex⟩
  chQ : ∀ {l c sp t ex}, I ((c, sp) :: t) → Q ⟨t.length + 1, .unexpected l sp (.char c) ex⟩
  exQ : ∀ {n l s f ex ex'}, Q ⟨n, .unexpected l s f ex⟩ → Q ⟨n, .unexpected l s f ex'⟩
  EQ : ∀ {e}, E e → Q e

variable {W : World O}

theorem World.merge {n} {a b c : PErr O} (ha : W.Q ⟨n, a⟩) (hb : W.Q ⟨n, b⟩) (h : a.merge b = some c) : W.Q ⟨n, c⟩ := by
  cases a <;> cases b <;> simp only [PErr.merge, Option.some.injEq, reduceCtorEq] at h <;>
    first
    | (subst h; exact W.exQ ha)
    | (subst h; exact ha)
    | (subst h; exact hb)

/-- Holds of the optional error. -/
def World.QO (W : World O) (o : Option (Loc O)) : Prop := ∀ e, o = some e → W.Q e

theorem World.qo_none : W.QO none := by intro e h; cases h
theorem World.qo_some {e : Loc O} : W.QO (some e) ↔ W.Q e :=
  ⟨fun h => h e rfl, fun h e' he => by injection he with he; subst he; exact h⟩

theorem World.max {a b : Loc O} (ha : W.Q a) (hb : W.Q b) : W.Q (a.max b) := by
  unfold Loc.max
  split
  · exact ha
  · split
    · exact hb
    · split
      · rename_i h1 h2 _ e he
        have : b.rem = a.rem := by omega
        exact World.merge ha (by rw [← this]; exact hb) he
      · exact ha

theorem World.maxO {a : Loc O} {o : Option (Loc O)} (ha : W.Q a) (ho : W.QO o) : W.Q (a.maxO o) := by
  cases o with
  | none => exact ha
  | some b => exact World.max ha (World.qo_some.1 ho)

theorem World.mergeAlts {a b : Option (Loc O)} (ha : W.QO a) (hb : W.QO b) : W.QO (mergeAlts a b) := by
  cases a with
  | none => cases b with
    | none => exact ha
    | some b => exact hb
  | some a => cases b with
    | none => exact ha
    | some b => exact World.qo_some.2 (World.max (World.qo_some.1 hb) (World.qo_some.1 ha))

theorem World.mergeAltsL {l : List (Loc O)} (hl : ∀ e ∈ l, W.Q e) : ∀ {a : Option (Loc O)}, W.QO a →
    W.QO (mergeAltsL a l) := by
  induction l with
  | nil => intro a ha; exact ha
  | cons b l ih =>
    intro a ha
    exact ih (fun e he => hl e (by simp [he])) (World.mergeAlts ha (World.qo_some.2 (hl b (by simp))))

/-- All errors of a result satisfy the predicate, and the rest is a suffix. -/
structure TrR (W : World O) (s : List (Tok O)) (r : PRes O α) : Prop where
  suf : r.rest <:+ s
  errs : ∀ e ∈ r.errs, W.E e
  alt : W.QO r.altOrErr

/-- On all streams of the world. -/
def Tr (W : World O) (p : P O α) : Prop := ∀ s, W.I s → TrR W s (p W.eoi s)

theorem trR_ok {s} {r : PRes O α} {a alt} (h : TrR W s r) (ho : r.out = .ok (a, alt)) : W.QO alt := by
  have := h.alt; simpa [PRes.altOrErr, ho] using this
theorem trR_error {s} {r : PRes O α} {e} (h : TrR W s r) (ho : r.out = .error e) : W.Q e := by
  have := h.alt; simpa [PRes.altOrErr, ho, World.qo_some] using this
theorem trR_error' {s} {r : PRes O α} {e} (h : TrR W s r) (ho : r.out = .error e) : W.QO (some e) :=
  World.qo_some.2 (trR_error h ho)

theorem TrR.mono {s s'} {r : PRes O α} (h : TrR W s r) (hs : s <:+ s') : TrR W s' r :=
  ⟨h.suf.trans hs, h.errs, h.alt⟩

/-- A result that is a success. -/
theorem trR_mk_ok {s t : List (Tok O)} {pan errs} {a : α} {alt} (h1 : t <:+ s) (h2 : ∀ e ∈ errs, W.E e)
    (h3 : W.QO alt) : TrR W s ⟨pan, errs, .ok (a, alt), t⟩ := ⟨h1, h2, h3⟩
/-- A result that is a failure. -/
theorem trR_mk_error {s t : List (Tok O)} {pan errs} {e : Loc O} (h1 : t <:+ s) (h2 : ∀ e ∈ errs, W.E e)
    (h3 : W.Q e) : TrR (α := α) W s ⟨pan, errs, .error e, t⟩ := ⟨h1, h2, World.qo_some.2 h3⟩

theorem trR_pok {a : α} {s t : List (Tok O)} (h : t <:+ s) : TrR W s (pok a t) :=
  ⟨h, by simp [pok], World.qo_none⟩
theorem trR_pfail {e : PErr O} {s t : List (Tok O)} (ht : t <:+ s) (h : W.Q ⟨s.length, e⟩) :
    TrR W s (pfail s e t : PRes O α) := ⟨ht, by simp [pfail], World.qo_some.2 h⟩

theorem tail_suf {x : Tok O} {t : List (Tok O)} : t <:+ x :: t := List.suffix_cons _ _
theorem append_mem {P : Loc O → Prop} {a b : List (Loc O)} (ha : ∀ e ∈ a, P e) (hb : ∀ e ∈ b, P e) :
    ∀ e ∈ a ++ b, P e := by
  intro e he; rcases List.mem_append.1 he with h | h
  · exact ha e h
  · exact hb e h

theorem tr_just (c) : Tr W (just c) := by
  intro s hs; unfold just
  split
  · split
    · exact trR_pok tail_suf
    · exact trR_pfail tail_suf (W.chQ hs)
  · exact trR_pfail List.suffix_rfl (W.eoiQ (s := []) hs)

theorem tr_justStr (cs) : Tr W (justStr cs) := by
  induction cs with
  | nil => intro s _; exact trR_pok List.suffix_rfl
  | cons c cs ih =>
    intro s hs; unfold justStr
    split
    · split
      · exact (ih _ (W.suf hs tail_suf)).mono tail_suf
      · exact trR_pfail tail_suf (W.chQ hs)
    · exact trR_pfail List.suffix_rfl (W.eoiQ (s := []) hs)

theorem tr_filter (f) : Tr W (filter f) := by
  intro s hs; unfold filter
  split
  · split
    · exact trR_pok tail_suf
    · exact trR_pfail tail_suf (W.chQ hs)
  · exact trR_pfail List.suffix_rfl (W.eoiQ (s := []) hs)

theorem tr_filterMap {f : Sp O → Char → Except (PErr O) α}
    (h : ∀ sp c t e, W.I ((c, sp) :: t) → f sp c = .error e → W.Q ⟨t.length + 1, e⟩) : Tr W (filterMap f) := by
  intro s hs; unfold filterMap
  split
  · split
    · exact trR_pok tail_suf
    · exact trR_pfail tail_suf (h _ _ _ _ hs (by assumption))
  · exact trR_pfail List.suffix_rfl (W.eoiQ (s := []) hs)

theorem tr_endP : Tr W endP := by
  intro s hs; unfold endP
  split
  · exact trR_pfail tail_suf (W.chQ hs)
  · exact trR_pok List.suffix_rfl

theorem trR_pmap {f : α → β} {p : P O α} {s} (h1 : TrR W s (p W.eoi s)) : TrR W s (pmap f p W.eoi s) := by
  refine ⟨h1.suf, h1.errs, ?_⟩
  cases ho : (p W.eoi s).out with
  | error e => simpa [pmap, PRes.altOrErr, ho] using trR_error' h1 ho
  | ok x => simpa [pmap, PRes.altOrErr, ho] using trR_ok h1 ho

theorem tr_pmap {f : α → β} {p : P O α} (h : Tr W p) : Tr W (pmap f p) := fun s hs => trR_pmap (h s hs)

theorem tr_ignored {p : P O α} (h : Tr W p) : Tr W (ignored p) := tr_pmap h

theorem tr_mapErr {f : PErr O → PErr O} {p : P O α} (h : Tr W p)
    (hf : ∀ n e, W.Q ⟨n, e⟩ → W.Q ⟨n, f e⟩) : Tr W (mapErr f p) := by
  intro s hs
  have h1 := h s hs
  refine ⟨h1.suf, h1.errs, ?_⟩
  cases ho : (p W.eoi s).out with
  | error e => simpa [mapErr, PRes.altOrErr, ho, World.qo_some] using hf _ _ (trR_error h1 ho)
  | ok x => simpa [mapErr, PRes.altOrErr, ho] using trR_ok h1 ho

theorem q_withNoExpected {n} {e : PErr O} (h : W.Q ⟨n, e⟩) : W.Q ⟨n, e.withNoExpected⟩ := by
  cases e with
  | unexpected => exact W.exQ h
  | _ => exact h
theorem q_withExpectedKind {k} {n} {e : PErr O} (h : W.Q ⟨n, e⟩) : W.Q ⟨n, e.withExpectedKind k⟩ := by
  cases e with
  | unexpected => exact W.exQ h
  | _ => exact h
theorem q_withExpectedToken {k} {n} {e : PErr O} (h : W.Q ⟨n, e⟩) : W.Q ⟨n, e.withExpectedToken k⟩ := by
  cases e with
  | unexpected => exact W.exQ h
  | _ => exact h

/-- At one input. -/
theorem trR_mapErrWithSpan {f : PErr O → Sp O → PErr O} {p : P O α} {s} (h1 : TrR W s (p W.eoi s))
    (hf : ∀ e, (p W.eoi s).out = .error e → W.Q e → W.Q ⟨e.rem, f e.err (spanSince W.eoi s (p W.eoi s).rest)⟩) :
    TrR W s (mapErrWithSpan f p W.eoi s) := by
  refine ⟨h1.suf, h1.errs, ?_⟩
  cases ho : (p W.eoi s).out with
  | error e => simpa [mapErrWithSpan, PRes.altOrErr, ho, World.qo_some] using hf _ ho (trR_error h1 ho)
  | ok x => simpa [mapErrWithSpan, PRes.altOrErr, ho] using trR_ok h1 ho

theorem tr_mapWithSpan {f : α → Sp O → β} {p : P O α} (h : Tr W p) : Tr W (mapWithSpan f p) := by
  intro s hs
  have h1 := h s hs
  refine ⟨h1.suf, h1.errs, ?_⟩
  cases ho : (p W.eoi s).out with
  | error e => simpa [mapWithSpan, PRes.altOrErr, ho, World.qo_some] using (trR_error h1 ho)
  | ok x => simpa [mapWithSpan, PRes.altOrErr, ho] using trR_ok h1 ho

theorem tr_spanned {p : P O α} (h : Tr W p) : Tr W (spanned p) := tr_mapWithSpan h

/-- At one input. -/
theorem trR_tryMap {f : α → Sp O → Except (PErr O) β} {p : P O α} {s} (h1 : TrR W s (p W.eoi s))
    (hf : ∀ a alt e, (p W.eoi s).out = .ok (a, alt) → f a (spanSince W.eoi s (p W.eoi s).rest) = .error e →
      W.Q ⟨(p W.eoi s).rest.length, e⟩) :
    TrR W s (tryMap f p W.eoi s) := by
  refine ⟨h1.suf, h1.errs, ?_⟩
  cases ho : (p W.eoi s).out with
  | error e => simpa [tryMap, PRes.altOrErr, ho, World.qo_some] using (trR_error h1 ho)
  | ok x =>
    cases hx : f x.1 (spanSince W.eoi s (p W.eoi s).rest) with
    | error e => simpa [tryMap, PRes.altOrErr, ho, hx, World.qo_some] using hf _ x.2 _ ho hx
    | ok y => simpa [tryMap, PRes.altOrErr, ho, hx] using trR_ok h1 ho

/-- At one input. -/
theorem trR_validate {f : α → Sp O → List (PErr O)} {p : P O α} {s} (h1 : TrR W s (p W.eoi s))
    (hf : ∀ a alt, (p W.eoi s).out = .ok (a, alt) → ∀ e ∈ f a (spanSince W.eoi s (p W.eoi s).rest),
      W.E ⟨(p W.eoi s).rest.length, e⟩) :
    TrR W s (validate f p W.eoi s) := by
  unfold validate
  cases ho : (p W.eoi s).out with
  | error e => simpa [ho] using trR_mk_error h1.suf h1.errs (trR_error h1 ho)
  | ok x =>
    obtain ⟨a, alt⟩ := x
    simp only [ho]
    refine trR_mk_ok h1.suf (append_mem h1.errs ?_) (trR_ok h1 ho)
    intro e he
    obtain ⟨e', h', rfl⟩ := List.mem_map.1 he
    exact hf a alt ho e' h'

/-- Sequencing, at one input. -/
theorem trR_bind {p : P O α} {f : α → P O β} {s} (h1 : TrR W s (p W.eoi s))
    (h2 : ∀ a alt, (p W.eoi s).out = .ok (a, alt) → TrR W (p W.eoi s).rest (f a W.eoi (p W.eoi s).rest)) :
    TrR W s (bind p f W.eoi s) := by
  unfold bind
  cases ho : (p W.eoi s).out with
  | error e => simpa [ho] using trR_mk_error h1.suf h1.errs (trR_error h1 ho)
  | ok x =>
    obtain ⟨a, alt1⟩ := x
    have h3 := h2 a alt1 ho
    have hp1 := trR_ok h1 ho
    cases ho2 : (f a W.eoi (p W.eoi s).rest).out with
    | error e =>
      simp only [ho, ho2]
      exact trR_mk_error (h3.suf.trans h1.suf) (append_mem h1.errs h3.errs) (World.maxO (trR_error h3 ho2) hp1)
    | ok y =>
      simp only [ho, ho2]
      exact trR_mk_ok (h3.suf.trans h1.suf) (append_mem h1.errs h3.errs) (World.mergeAlts hp1 (trR_ok h3 ho2))

theorem tr_bind {p : P O α} {f : α → P O β} (h1 : Tr W p) (h2 : ∀ a, Tr W (f a)) :
    Tr W (bind p f) := fun s hs =>
  trR_bind (h1 s hs) (fun a _ _ => h2 a _ (W.suf hs (h1 s hs).suf))

theorem tr_seq {p : P O α} {q : P O β} (h1 : Tr W p) (h2 : Tr W q) : Tr W (seq p q) :=
  tr_bind h1 (fun _ => tr_pmap h2)
theorem tr_ignoreThen {p : P O α} {q : P O β} (h1 : Tr W p) (h2 : Tr W q) : Tr W (ignoreThen p q) :=
  tr_bind h1 (fun _ => h2)
theorem tr_thenIgnore {p : P O α} {q : P O β} (h1 : Tr W p) (h2 : Tr W q) : Tr W (thenIgnore p q) :=
  tr_bind h1 (fun _ => tr_pmap h2)
theorem tr_delimitedBy {p : P O α} {l : P O β} {r : P O γ} (h1 : Tr W p) (h2 : Tr W l) (h3 : Tr W r) :
    Tr W (delimitedBy p l r) := tr_thenIgnore (tr_ignoreThen h2 h1) h3

theorem trR_takeA {s} {a b : PRes O α} (ha : TrR W s a) (hb : TrR W s b) : TrR W s (takeA a b) := by
  unfold takeA
  split
  · rename_i x alt hx
    exact trR_mk_ok ha.suf ha.errs (World.mergeAlts (trR_ok ha hx) hb.alt)
  · rename_i e hx
    exact trR_mk_error ha.suf ha.errs (World.maxO (trR_error ha hx) hb.alt)

/-- The choice of two, at one input. -/
theorem trR_orP {p q : P O α} {s} (h1 : TrR W s (p W.eoi s)) (h2 : TrR W s (q W.eoi s)) :
    TrR W s (orP p q W.eoi s) := by
  unfold orP
  simp only
  split
  · exact h1
  · split
    · split
      · rename_i x alt hx
        exact trR_mk_ok h2.suf (by simp) (World.mergeAlts (trR_ok h2 hx) h1.alt)
      · rename_i e hx
        exact trR_mk_error h2.suf h2.errs (trR_error h2 hx)
    · split
      · exact trR_takeA h1 h2
      · exact trR_takeA h2 h1

theorem tr_orP {p q : P O α} (h1 : Tr W p) (h2 : Tr W q) : Tr W (orP p q) :=
  fun s hs => trR_orP (h1 s hs) (h2 s hs)

theorem trR_choiceGo {s} (hs : W.I s) {ps : List (P O α)} : ∀ {alt pan},
    (∀ p ∈ ps, TrR W s (p W.eoi s)) → W.QO alt → TrR W s (choiceGo alt pan ps W.eoi s) := by
  induction ps with
  | nil =>
    intro alt pan _ ha
    cases alt with
    | none => exact trR_mk_error List.suffix_rfl (by simp) (W.eoiQ hs)
    | some e => exact trR_mk_error List.suffix_rfl (by simp) (World.qo_some.1 ha)
  | cons p ps ih =>
    intro alt pan h ha
    have h1 := h p (by simp)
    unfold choiceGo
    cases ho : (p W.eoi s).out with
    | ok x =>
      simp only [ho]
      exact trR_mk_ok h1.suf h1.errs (trR_ok h1 ho)
    | error e =>
      simp only [ho]
      exact ih (fun q hq => h q (by simp [hq])) (World.mergeAlts ha (trR_error' h1 ho))

theorem tr_choice {ps : List (P O α)} (h : ∀ p ∈ ps, Tr W p) : Tr W (choice ps) :=
  fun s hs => trR_choiceGo hs (fun p hp => h p hp s hs) World.qo_none

theorem tr_choice3 {p q r : P O α} (h1 : Tr W p) (h2 : Tr W q) (h3 : Tr W r) : Tr W (choice [p, q, r]) := by
  refine tr_choice ?_
  intro x hx
  simp only [List.mem_cons, List.not_mem_nil, or_false] at hx
  rcases hx with rfl | rfl | rfl <;> assumption

theorem trR_orNot {p : P O α} {s} (h : TrR W s (p W.eoi s)) : TrR W s (orNot p W.eoi s) := by
  unfold orNot
  cases ho : (p W.eoi s).out with
  | error e => simpa [ho] using trR_mk_ok List.suffix_rfl (by simp) (trR_error' h ho)
  | ok x => simpa [ho] using trR_mk_ok h.suf h.errs (trR_ok h ho)

theorem tr_orNot {p : P O α} (h : Tr W p) : Tr W (orNot p) := fun s hs => trR_orNot (h s hs)

theorem tr_rewind {p : P O α} (h : Tr W p) : Tr W (rewind p) := by
  intro s hs
  have h1 := h s hs
  unfold rewind
  cases ho : (p W.eoi s).out with
  | error e => simpa [ho] using trR_mk_error h1.suf h1.errs (trR_error h1 ho)
  | ok x => simpa [ho] using trR_mk_ok List.suffix_rfl h1.errs (trR_ok h1 ho)

theorem World.head {l : List (Loc O)} (hl : ∀ e ∈ l, W.E e) : W.QO l.head? := by
  intro e he
  exact W.EQ (hl e (List.mem_of_mem_head? he))

theorem trR_repGo {p : P O α} (hp : Tr W p) {mn mx} :
    ∀ fuel {outs errs alt pan s}, W.I s → W.QO alt → (∀ e ∈ errs, W.E e) →
    TrR W s (repGo p mn mx W.eoi fuel outs errs alt pan s) := by
  intro fuel
  induction fuel with
  | zero => intro _ _ _ _ s _ ha he; exact trR_mk_ok List.suffix_rfl he ha
  | succ n ih =>
    intro outs errs alt pan s hs ha he
    unfold repGo
    split
    · exact trR_mk_ok List.suffix_rfl he ha
    · have h1 := hp s hs
      cases ho : (p W.eoi s).out with
      | ok x =>
        have hm := World.mergeAlts ha (trR_ok h1 ho)
        simp only [ho]
        split
        · exact (ih (W.suf hs h1.suf) hm (append_mem he h1.errs)).mono h1.suf
        · exact trR_mk_ok h1.suf (append_mem he h1.errs) hm
      | error e =>
        have hq := trR_error h1 ho
        simp only [ho]
        split
        · exact trR_mk_error h1.suf (append_mem he h1.errs) hq
        · exact trR_mk_ok List.suffix_rfl he
            (World.mergeAlts ha (World.mergeAlts (World.qo_some.2 hq) (World.head h1.errs)))

theorem tr_repeatedB {mn mx} {p : P O α} (hp : Tr W p) : Tr W (repeatedB mn mx p) := fun s hs =>
  trR_repGo hp _ hs World.qo_none (by simp)

theorem tr_repeated {p : P O α} (hp : Tr W p) : Tr W (repeated p) := tr_repeatedB hp

theorem trR_takeUntilGo {p : P O β} (hp : Tr W p) :
    ∀ fuel {outs alt pan s}, W.I s → W.QO alt → TrR W s (takeUntilGo p W.eoi fuel outs alt pan s) := by
  intro fuel
  induction fuel with
  | zero => intro _ _ _ s hs _; exact trR_mk_error List.suffix_rfl (by simp) (W.eoiQ hs)
  | succ n ih =>
    intro outs alt pan s hs ha
    unfold takeUntilGo
    have h1 := hp s hs
    cases ho : (p W.eoi s).out with
    | ok x =>
      simp only [ho]
      exact trR_mk_ok h1.suf h1.errs (World.mergeAlts ha (trR_ok h1 ho))
    | error e =>
      simp only [ho]
      cases s with
      | nil => exact trR_mk_error List.suffix_rfl h1.errs (trR_error h1 ho)
      | cons x t =>
        exact (ih (W.suf hs tail_suf) (World.mergeAlts ha (trR_error' h1 ho))).mono tail_suf

theorem tr_takeUntil {p : P O β} (hp : Tr W p) : Tr W (takeUntil p) := fun _ hs =>
  trR_takeUntilGo hp _ hs World.qo_none

theorem skipTo_suf {u : List Char} {s t : List (Tok O)} (h : skipTo u s = some t) : t <:+ s := by
  induction s with
  | nil => simp [skipTo] at h
  | cons x s ih =>
    unfold skipTo at h
    split at h
    · injection h with h; rw [← h]; exact List.suffix_rfl
    · exact (ih h).trans tail_suf

theorem tr_recoverSkipUntil {u : List Char} {fb : α} {p : P O α} (hp : Tr W p) (hE : ∀ e, W.Q e → W.E e) :
    Tr W (recoverSkipUntil u fb p) := by
  intro s hs
  have h1 := hp s hs
  unfold recoverSkipUntil
  cases ho : (p W.eoi s).out with
  | ok x => simpa [ho] using trR_mk_ok h1.suf h1.errs (trR_ok h1 ho)
  | error e =>
    simp only [ho]
    split
    · rename_i t ht
      refine trR_mk_ok (skipTo_suf ht) (append_mem h1.errs ?_) World.qo_none
      intro e' he'
      simp only [List.mem_singleton] at he'
      subst he'
      exact hE _ (trR_error h1 ho)
    · exact trR_mk_error (List.nil_suffix) h1.errs (trR_error h1 ho)

theorem sepDelim_tr {delim : P O β} (hd : Tr W delim) {alt s} (hs : W.I s) (ha : W.QO alt) :
    W.QO (sepDelim delim W.eoi alt s).1 ∧ (sepDelim delim W.eoi alt s).2.2 <:+ s := by
  have h1 := hd s hs
  unfold sepDelim
  cases ho : (delim W.eoi s).out with
  | ok x =>
    simp only [ho]
    exact ⟨World.mergeAlts ha (World.mergeAltsL (fun e he => W.EQ (h1.errs e he)) (trR_ok h1 ho)), h1.suf⟩
  | error e =>
    simp only [ho]
    exact ⟨World.mergeAlts ha (World.mergeAltsL (fun e he => W.EQ (h1.errs e he)) (trR_error' h1 ho)), List.suffix_rfl⟩

theorem sepGo_tr {item : P O α} {delim : P O β} (hi : Tr W item) (hd : Tr W delim) :
    ∀ fuel {outs errs alt pan s}, W.I s → W.QO alt → (∀ e ∈ errs, W.E e) →
    let r := sepGo item delim W.eoi fuel outs errs alt pan s
    (∀ e ∈ r.2.1, W.E e) ∧ W.QO r.2.2.1 ∧ r.2.2.2.2.1 <:+ s ∧ W.QO r.2.2.2.2.2 := by
  intro fuel
  induction fuel with
  | zero => intro _ _ _ _ s _ ha he; exact ⟨he, ha, List.suffix_rfl, World.qo_none⟩
  | succ n ih =>
    intro outs errs alt pan s hs ha he
    have h1 := hd s hs
    unfold sepGo
    cases ho : (delim W.eoi s).out with
    | error e =>
      simp only [ho]
      exact ⟨append_mem he h1.errs, ha, List.suffix_rfl, trR_error' h1 ho⟩
    | ok x =>
      simp only [ho]
      have h2 := hi _ (W.suf hs h1.suf)
      have hm := World.mergeAlts ha (trR_ok h1 ho)
      cases ho2 : (item W.eoi (delim W.eoi s).rest).out with
      | error e =>
        simp only [ho2]
        exact ⟨append_mem (append_mem he h1.errs) h2.errs, hm, List.suffix_rfl, trR_error' h2 ho2⟩
      | ok y =>
        simp only [ho2]
        split
        · have := ih (outs := outs ++ [y.1]) (pan := pan || (delim W.eoi s).panicked || (item W.eoi (delim W.eoi s).rest).panicked ||
              clashAlts alt x.2 || clashAlts (mergeAlts alt x.2) y.2) (W.suf hs (h2.suf.trans h1.suf))
            (World.mergeAlts hm (trR_ok h2 ho2)) (append_mem (append_mem he h1.errs) h2.errs)
          exact ⟨this.1, this.2.1, this.2.2.1.trans (h2.suf.trans h1.suf), this.2.2.2⟩
        · exact ⟨he, ha, List.suffix_rfl, World.qo_none⟩

theorem tr_separatedBy {item : P O α} {delim : P O β} (hi : Tr W item) (hd : Tr W delim) :
    Tr W (separatedBy item delim) := by
  intro s hs
  have h0 := sepDelim_tr hd hs World.qo_none
  unfold separatedBy
  simp only
  have hs0 := W.suf hs h0.2
  have h1 := hi _ hs0
  cases ho : (item W.eoi (sepDelim delim W.eoi none s).2.2).out with
  | error e =>
    simp only [ho]
    exact trR_mk_ok h0.2 h1.errs (World.mergeAlts h0.1 (trR_error' h1 ho))
  | ok x =>
    simp only [ho]
    have hs1 := W.suf hs0 h1.suf
    have h2 := sepGo_tr hi hd (fuel := (item W.eoi (sepDelim delim W.eoi none s).2.2).rest.length + 1) (outs := [x.1])
      (pan := (sepDelim delim W.eoi none s).2.1 || (item W.eoi (sepDelim delim W.eoi none s).2.2).panicked ||
        clashAlts (sepDelim delim W.eoi none s).1 x.2) hs1
      (World.mergeAlts h0.1 (trR_ok h1 ho)) h1.errs
    have h3 := sepDelim_tr hd (W.suf hs1 h2.2.2.1) h2.2.1
    exact trR_mk_ok (h3.2.trans (h2.2.2.1.trans (h1.suf.trans h0.2))) h2.1 (World.mergeAlts h3.1 h2.2.2.2)

theorem tr_tooDeep : Tr W (tooDeep : P O α) := fun _ hs =>
  trR_mk_error List.suffix_rfl (by simp) (W.eoiQ hs)

theorem tr_runParser {p : P O α} (h : Tr W p) {s} (hs : W.I s) {es} (hr : runParser p W.eoi s = some (.error es)) :
    ∀ e ∈ es, ∃ n, W.Q ⟨n, e⟩ := by
  have h1 := h s hs
  unfold runParser at hr
  simp only at hr
  split at hr
  · simp at hr
  · cases ho : (p W.eoi s).out with
    | ok x =>
      simp only [ho] at hr
      split at hr
      · simp at hr
      · simp only [Option.some.injEq, Except.error.injEq] at hr
        subst hr
        intro e he
        obtain ⟨e', h', rfl⟩ := List.mem_map.1 he
        exact ⟨_, W.EQ (h1.errs _ h')⟩
    | error e0 =>
      simp only [ho, Option.some.injEq, Except.error.injEq] at hr
      subst hr
      intro e he
      obtain ⟨e', h', rfl⟩ := List.mem_map.1 he
      rcases List.mem_append.1 h' with h' | h'
      · exact ⟨_, W.EQ (h1.errs _ h')⟩
      · simp only [List.mem_singleton] at h'; subst h'; exact ⟨_, trR_error h1 ho⟩

/-! ### The lexical part of the grammar -/

theorem tr_beginComment (c) : Tr W (beginComment c) :=
  tr_ignoreThen (tr_mapErr (tr_just _) (fun _ _ => q_withNoExpected)) (tr_ignored (tr_just _))

theorem tr_newline : Tr W newline :=
  tr_mapErr (tr_ignored (tr_orP (tr_orP (tr_orP (tr_orP (tr_orP
    (tr_ignoreThen (tr_orNot (tr_just _)) (tr_just _)) (tr_just _)) (tr_just _))
    (tr_just _)) (tr_just _)) (tr_just _))) (fun _ _ => q_withExpectedKind)

theorem tr_comment : Tr W comment :=
  tr_ignored (tr_seq (tr_beginComment _) (tr_takeUntil (tr_orP tr_newline tr_endP)))

theorem tr_mlCommentRec : ∀ n, Tr W (mlCommentRec n) := by
  intro n
  induction n with
  | zero => exact tr_tooDeep
  | succ n ih =>
    exact tr_delimitedBy (tr_ignored (tr_repeated (tr_choice3 ih (tr_ignored (tr_filter _))
      (tr_ignored (tr_thenIgnore (tr_just _) (tr_rewind (tr_filter _))))))) (tr_beginComment _) (tr_justStr _)

theorem tr_sign : Tr W sign := tr_orP (tr_just _) (tr_just _)
theorem tr_idChar : Tr W idChar := tr_mapErr (tr_filter _) (fun _ _ => q_withExpectedKind)
theorem tr_idSansDig : Tr W idSansDig := tr_mapErr (tr_filter _) (fun _ _ => q_withExpectedKind)
theorem tr_idSansSignDig : Tr W idSansSignDig := tr_mapErr (tr_filter _) (fun _ _ => q_withExpectedKind)

theorem tr_optSign : Tr W optSign := tr_orNot (tr_orP (tr_just _) (tr_just _))
theorem tr_digits (r) : Tr W (digits r) := tr_repeated (tr_filter _)

theorem tr_decimalNumber : Tr W decimalNumber :=
  tr_pmap (tr_seq (tr_seq (tr_seq (tr_seq tr_optSign (tr_filter _)) (tr_digits _))
    (tr_orNot (tr_pmap (tr_seq (tr_seq (tr_just _) (tr_filter _)) (tr_digits _)))))
    (tr_orNot (tr_pmap (tr_seq (tr_seq (tr_orP (tr_just _) (tr_just _)) tr_optSign) (tr_digits _)))))

theorem tr_radixDigits (m n r) : Tr W (radixDigits m n r) :=
  tr_ignoreThen (tr_just _) (tr_pmap (tr_seq (tr_filter _) (tr_digits _)))

theorem tr_radixNumber : Tr W radixNumber :=
  tr_pmap (tr_seq (tr_thenIgnore tr_optSign (tr_just _))
    (tr_choice3 (tr_radixDigits _ _ _) (tr_radixDigits _ _ _) (tr_radixDigits _ _ _)))

theorem tr_number : Tr W number := tr_orP tr_radixNumber tr_decimalNumber

theorem tr_keyword : Tr W keyword :=
  tr_choice3 (tr_pmap (tr_mapErr (tr_justStr _) (fun _ _ => q_withExpectedToken)))
    (tr_pmap (tr_mapErr (tr_justStr _) (fun _ _ => q_withExpectedToken)))
    (tr_pmap (tr_mapErr (tr_justStr _) (fun _ _ => q_withExpectedToken)))

end Knuffel
