import Verif.Theory.Position
/-!
# Where the errors of the lexical rules are located
-/

set_option linter.unusedSimpArgs false
set_option linter.unusedSectionVars false
set_option linter.unusedVariables false

namespace Knuffel

variable {O α β γ : Type}

/-- Failures at this input are located at its start (or before). -/
def At (p : P O α) (eoi : Sp O) (s : List (Tok O)) : Prop :=
  ∀ e, (p eoi s).out = .error e → s.length ≤ e.rem

/-- Failures at this input are located at most one token after its start. -/
def At1 (p : P O α) (eoi : Sp O) (s : List (Tok O)) : Prop :=
  ∀ e, (p eoi s).out = .error e → s.length ≤ e.rem + 1

theorem At.at1 {p : P O α} {eoi : Sp O} {s} (h : At p eoi s) : At1 p eoi s := fun e he => by
  have := h e he; omega

theorem Near.at {p : P O α} (h : Near 0 p) (eoi : Sp O) (s) : At p eoi s := fun e he => h eoi s e he
theorem Near.at1 {p : P O α} (h : Near 1 p) (eoi : Sp O) (s) : At1 p eoi s := fun e he => h eoi s e he

theorem bind_at_left {p : P O α} {f : α → P O β} {eoi : Sp O} {s e} (hf : Fails p eoi s)
    (h : (bind p f eoi s).out = .error e) : (p eoi s).out = .error e := by
  rcases bind_error_inv h with h | ⟨a, alt, e2, h1, _⟩
  · exact h
  · obtain ⟨e', he'⟩ := hf
    rw [he'] at h1; cases h1

theorem at_bind {p : P O α} {f : α → P O β} {eoi : Sp O} {s} (hf : Fails p eoi s) (h : At p eoi s) :
    At (bind p f) eoi s := fun e he => h e (bind_at_left hf he)
theorem at_seq {p : P O α} {q : P O β} {eoi : Sp O} {s} (hf : Fails p eoi s) (h : At p eoi s) :
    At (seq p q) eoi s := at_bind hf h
theorem at_ignoreThen {p : P O α} {q : P O β} {eoi : Sp O} {s} (hf : Fails p eoi s) (h : At p eoi s) :
    At (ignoreThen p q) eoi s := at_bind hf h
theorem at_thenIgnore {p : P O α} {q : P O β} {eoi : Sp O} {s} (hf : Fails p eoi s) (h : At p eoi s) :
    At (thenIgnore p q) eoi s := at_bind hf h
theorem at_pmap {f : α → β} {p : P O α} {eoi : Sp O} {s} (h : At p eoi s) : At (pmap f p) eoi s :=
  fun e he => h e (pmap_error.1 he)
theorem at1_pmap {f : α → β} {p : P O α} {eoi : Sp O} {s} (h : At1 p eoi s) : At1 (pmap f p) eoi s :=
  fun e he => h e (pmap_error.1 he)
theorem at_spanned {p : P O α} {eoi : Sp O} {s} (h : At p eoi s) : At (spanned p) eoi s :=
  fun e he => h e (mapWithSpan_error.1 he)
theorem at_mapErr {f} {p : P O α} {eoi : Sp O} {s} (h : At p eoi s) : At (mapErr f p) eoi s :=
  fun e he => by
    obtain ⟨e', h1, h2⟩ := mapErr_error_inv he
    rw [h2]; exact h e' h1
theorem at1_mapErr {f} {p : P O α} {eoi : Sp O} {s} (h : At1 p eoi s) : At1 (mapErr f p) eoi s :=
  fun e he => by
    obtain ⟨e', h1, h2⟩ := mapErr_error_inv he
    rw [h2]; exact h e' h1
theorem at_mapErrWithSpan {f} {p : P O α} {eoi : Sp O} {s} (h : At p eoi s) : At (mapErrWithSpan f p) eoi s :=
  fun e he => by
    obtain ⟨e', h1, h2, _⟩ := mapErrWithSpan_error_inv he
    rw [h2]; exact h e' h1
theorem at1_mapErrWithSpan {f} {p : P O α} {eoi : Sp O} {s} (h : At1 p eoi s) : At1 (mapErrWithSpan f p) eoi s :=
  fun e he => by
    obtain ⟨e', h1, h2, _⟩ := mapErrWithSpan_error_inv he
    rw [h2]; exact h e' h1
theorem at_tryMap {f : α → Sp O → Except (PErr O) β} {p : P O α} {eoi : Sp O} {s} (hf : Fails p eoi s)
    (h : At p eoi s) : At (tryMap f p) eoi s := fun e he => by
  rcases tryMap_error_inv he with h1 | ⟨a, alt, h1, _⟩
  · exact h e h1
  · obtain ⟨e', he'⟩ := hf
    rw [he'] at h1; cases h1
theorem at_validate {f : α → Sp O → List (PErr O)} {p : P O α} {eoi : Sp O} {s} (h : At p eoi s) :
    At (validate f p) eoi s := fun e he => by
  unfold validate at he
  cases ho : (p eoi s).out with
  | ok x => simp [ho] at he
  | error e' => simp [ho] at he; subst he; exact h e' ho
theorem at_orP {p q : P O α} {eoi : Sp O} {s} (h1 : At p eoi s) (h2 : At q eoi s) : At (orP p q) eoi s :=
  fun e he => by
    obtain ⟨e1, e2, h3, h4, h5⟩ := orP_error_inv he
    rcases h5 with rfl | rfl
    · exact Loc.max_lb (h1 _ h3) (h2 _ h4)
    · exact Loc.max_lb (h2 _ h4) (h1 _ h3)
theorem at1_orP {p q : P O α} {eoi : Sp O} {s} (h1 : At1 p eoi s) (h2 : At1 q eoi s) : At1 (orP p q) eoi s :=
  fun e he => by
    obtain ⟨e1, e2, h3, h4, h5⟩ := orP_error_inv he
    have h6 := h1 _ h3
    have h7 := h2 _ h4
    have h8 := Loc.max_lb (n := s.length - 1) (a := e1) (b := e2) (by omega) (by omega)
    have h9 := Loc.max_lb (n := s.length - 1) (a := e2) (b := e1) (by omega) (by omega)
    rcases h5 with rfl | rfl <;> omega
theorem at_choice {ps : List (P O α)} {eoi : Sp O} {s} (hne : ps ≠ []) (h : ∀ p ∈ ps, At p eoi s) :
    At (choice ps) eoi s := fun e he => choice_error_lb hne (fun p hp e he => h p hp e he) he
theorem at1_choice {ps : List (P O α)} {eoi : Sp O} {s} (hne : ps ≠ []) (h : ∀ p ∈ ps, At1 p eoi s) :
    At1 (choice ps) eoi s := fun e he => by
  have := choice_error_lb (n := s.length - 1) hne (fun p hp e he => by have := h p hp e he; omega) he
  omega

/-! ## Comments and newlines -/

theorem fails_just_of {c : Char} {eoi : Sp O} {s} (h : (chars s).head? ≠ some c) : Fails (just c) eoi s :=
  fails_just_head.2 h

theorem just_ok_head {c : Char} {eoi : Sp O} {s x} (h : (just c eoi s).out = .ok x) :
    (chars s).head? = some c ∧ (just c eoi s).rest.length + 1 = s.length ∧ x.2 = none := by
  unfold just at h ⊢
  cases s with
  | nil => simp [pfail] at h
  | cons y t =>
    obtain ⟨y, sp⟩ := y
    simp only at h ⊢
    by_cases hy : y = c
    · simp [hy, pok] at h ⊢; rw [← h]
    · simp [hy, pfail] at h

theorem near_beginComment (c) : Near 1 (beginComment c : P O Unit) := by
  unfold beginComment
  refine near_bind_left ?_ ?_
  · intro eoi s e he
    have := near_mapErr (near_just '/') eoi s e he
    omega
  · intro eoi s x hx e he
    have h1 := just_ok_head (mapErr_ok.1 hx)
    have h2 := near_ignored (near_just c) eoi _ e he
    have h3 : (mapErr PErr.withNoExpected (just '/') eoi s).rest = (just '/' eoi s).rest := rfl
    rw [h3] at h2
    rw [h1.2.2]; simp only [Loc.maxO]; omega

theorem at_beginComment {c} {eoi : Sp O} {s} (h : (chars s).head? ≠ some '/') :
    At (beginComment c) eoi s :=
  at_bind (fails_mapErr.2 (fails_just_of h)) (at_mapErr ((near_just _).at _ _))

theorem tight_beginComment (c) : Tight (beginComment c : P O Unit) :=
  tight_ignoreThen (tight_mapErr (tight_just _)) (tight_ignored (tight_just _)) (suf_ignored suf_just).eats0

/-- `\r?\n`. -/
def crlf : P O Char := ignoreThen (orNot (just '\r')) (just '\n')

theorem quiet_crlf : Quiet (crlf : P O Char) := quiet_ignoreThen (quiet_orNot (quiet_just _)) (quiet_just _)
theorem tight_crlf : Tight (crlf : P O Char) :=
  tight_ignoreThen (tight_orNot (tight_just _) (near_just _)) (tight_just _) suf_just.eats0

theorem near_crlf : Near 1 (crlf : P O Char) := by
  unfold crlf
  refine near_bind_left ?_ ?_
  · intro eoi s e he
    rcases orNot_inv (just '\r') eoi s with ⟨a, alt, h1, h2⟩ | ⟨e, h1, h2⟩ <;> rw [h2] at he <;> cases he
  · intro eoi s x hx e he
    have h0 := near_just '\n' eoi _ e he
    rcases orNot_inv (just '\r') eoi s with ⟨a, alt, h1, h2⟩ | ⟨e', h1, h2⟩
    · rw [h2] at hx h0
      have := just_ok_head h1
      injection hx with hx; subst hx
      simp only at this h0 ⊢
      rw [this.2.2]; simp only [Loc.maxO]; omega
    · rw [h2] at hx h0
      injection hx with hx; subst hx
      have := near_just '\r' eoi s e' h1
      have h3 := maxO_lb (n := s.length) (a := e) (o := some e') (by simpa using h0) (lb_some.2 (by omega))
      simp only; omega

theorem at_crlf {eoi : Sp O} {s} (h : (chars s).head? ≠ some '\r') : At crlf eoi s := by
  intro e he
  rcases bind_error_inv he with h1 | ⟨a, alt, e2, h1, h2, h3⟩
  · rcases orNot_inv (just '\r') eoi s with ⟨a, alt, _, h2⟩ | ⟨e, _, h2⟩ <;> rw [h2] at h1 <;> cases h1
  · rcases orNot_inv (just '\r') eoi s with ⟨a, alt, h4, h5⟩ | ⟨e', h4, h5⟩
    · exact absurd (just_ok_head h4).1 h
    · rw [h5] at h1 h2
      injection h1 with h1; injection h1 with _ h1; subst h1
      have h6 := near_just '\r' eoi s e' h4
      have h7 := near_just '\n' eoi s e2 h2
      rw [h3]
      exact maxO_lb (by omega) (lb_some.2 (by omega))

theorem near_newline : Near 1 (newline : P O Unit) :=
  near_mapErr (near_ignored
    (near_orP (near_orP (near_orP (near_orP (near_orP near_crlf
      (fun _ _ _ h => Nat.le_succ_of_le (near_just _ _ _ _ h)))
      (fun _ _ _ h => Nat.le_succ_of_le (near_just _ _ _ _ h)))
      (fun _ _ _ h => Nat.le_succ_of_le (near_just _ _ _ _ h)))
      (fun _ _ _ h => Nat.le_succ_of_le (near_just _ _ _ _ h)))
      (fun _ _ _ h => Nat.le_succ_of_le (near_just _ _ _ _ h))))

theorem at_newline {eoi : Sp O} {s} (h : (chars s).head? ≠ some '\r') : At newline eoi s :=
  at_mapErr (at_pmap (at_orP (at_orP (at_orP (at_orP (at_orP (at_crlf h)
    ((near_just _).at _ _)) ((near_just _).at _ _)) ((near_just _).at _ _)) ((near_just _).at _ _))
    ((near_just _).at _ _)))

theorem tight_newline : Tight (newline : P O Unit) := by
  have n1 : ∀ c, Near 1 (just c : P O Char) := fun c _ _ _ h => Nat.le_succ_of_le (near_just c _ _ _ h)
  refine tight_mapErr (tight_ignored ?_)
  have q1 := quiet_orP (O := O) quiet_crlf (quiet_just '\r')
  have q2 := quiet_orP (O := O) q1 (quiet_just '\x0c')
  have q3 := quiet_orP (O := O) q2 (quiet_just '\u0085')
  have q4 := quiet_orP (O := O) q3 (quiet_just ' ')
  have m1 := near_orP (O := O) near_crlf (n1 '\r')
  have m2 := near_orP m1 (n1 '\x0c')
  have m3 := near_orP m2 (n1 '\u0085')
  have m4 := near_orP m3 (n1 ' ')
  exact tight_orP q4 (tight_orP q3 (tight_orP q2 (tight_orP q1 (tight_orP quiet_crlf tight_crlf near_crlf
    (tight_just _) eats_just) m1 (tight_just _) eats_just) m2 (tight_just _) eats_just)
    m3 (tight_just _) eats_just) m4 (tight_just _) eats_just

theorem tight_lineEnd : Tight (orP newline endP : P O Unit) :=
  tight_orP' quiet_newline tight_newline near_newline tight_endP (by
    intro eoi s x hx; right
    unfold endP at hx ⊢
    cases s <;> simp_all [pok, pfail])

theorem near_lineEnd : Near 1 (orP newline endP : P O Unit) :=
  near_orP near_newline (fun _ _ _ h => Nat.le_succ_of_le (near_endP _ _ _ h))

theorem eatsEnd_lineEnd : EatsEnd 1 (orP newline endP : P O Unit) := by
  intro eoi s x hx
  rcases orP_ok_inv (x := x.1) (alt := x.2) quiet_newline hx with ⟨h1, h2⟩ | ⟨e1, alt2, h1, h2, h3, h4⟩
  · left; rw [h2]; exact eats_newline eoi s _ h1
  · right; rw [h4]
    unfold endP at h2 ⊢
    cases s <;> simp_all [pok, pfail]

theorem tight_comment : Tight (comment : P O Unit) :=
  tight_ignored (tight_seq (tight_beginComment _)
    (tight_takeUntil near_lineEnd eatsEnd_lineEnd tight_lineEnd) (suf_takeUntil (suf_orP suf_newline suf_endP)).eats0)

theorem takeUntil_error {p : P O β} {eoi : Sp O} : ∀ fuel {outs alt pan s e}, s.length < fuel →
    (takeUntilGo p eoi fuel outs alt pan s).out = .error e → ∃ e', (p eoi []).out = .error e' := by
  intro fuel
  induction fuel with
  | zero => intro _ _ _ _ _ h; omega
  | succ f ih =>
    intro outs alt pan s e hf h
    unfold takeUntilGo at h
    cases h1 : (p eoi s).out with
    | ok x => simp [h1] at h
    | error e1 =>
      simp only [h1] at h
      cases s with
      | nil => exact ⟨e1, h1⟩
      | cons c t => exact ih (by simp at hf; omega) h

theorem comment_error {eoi : Sp O} {s e} (h : (comment eoi s).out = .error e) :
    (beginComment '/' eoi s).out = .error e := by
  have h := pmap_error.1 h
  rcases bind_error_inv h with h | ⟨a, alt, e2, h1, h2, h3⟩
  · exact h
  · exfalso
    obtain ⟨e', he'⟩ := takeUntil_error _ (Nat.lt_succ_self _) (pmap_error.1 h2)
    obtain ⟨e1, e2, _, h5, _⟩ := orP_error_inv he'
    simp [endP, pok] at h5

theorem near_comment : Near 1 (comment : P O Unit) := fun eoi s e h =>
  near_beginComment '/' eoi s e (comment_error h)

theorem at_comment {eoi : Sp O} {s} (h : (chars s).head? ≠ some '/') : At comment eoi s := fun e he =>
  at_beginComment h e (comment_error he)

/-! ## Block comments and whitespace -/

theorem mlCommentRec_error_left {n} {eoi : Sp O} {s e} (hp : ¬ ['/', '*'] <+: chars s)
    (h : (mlCommentRec (n + 1) eoi s).out = .error e) : (beginComment '*' eoi s).out = .error e := by
  have hf := (failsC_beginComment (eoi := eoi) hp).fails
  exact bind_at_left hf (bind_at_left (fails_ignoreThen_left hf) h)

theorem tight_mlCommentRec : ∀ n, Tight (mlCommentRec n : P O Unit) := by
  intro n
  induction n with
  | zero => exact tight_none (by intro eoi s a alt h; simp [mlCommentRec, tooDeep] at h)
  | succ n ih =>
    unfold mlCommentRec delimitedBy
    refine tight_thenIgnore (j := 1) (tight_ignoreThen (j := 0) (tight_beginComment _) (tight_ignored (k := 1) ?_) ?_)
      (tight_justStr _) ?_
    · refine tight_repeatedB ?_ ?_ ?_ ?_ ?_
      · refine tight_choice ?_
        intro p hp
        simp only [List.mem_cons, List.not_mem_nil, or_false] at hp
        rcases hp with rfl | rfl | rfl
        · exact ih
        · exact tight_ignored (tight_filter _)
        · exact tight_ignored (tight_thenIgnore (tight_just _) (tight_rewind_filter _) eats_rewind)
      · refine suf_choice ?_
        intro p hp
        simp only [List.mem_cons, List.not_mem_nil, or_false] at hp
        rcases hp with rfl | rfl | rfl
        · exact suf_mlCommentRec n
        · exact suf_ignored suf_filter
        · exact suf_ignored (suf_thenIgnore suf_just (suf_rewind suf_filter))
      · refine (quiet_choice ?_).failQuiet
        intro p hp
        simp only [List.mem_cons, List.not_mem_nil, or_false] at hp
        rcases hp with rfl | rfl | rfl
        · exact quiet_mlCommentRec n
        · exact quiet_ignored (quiet_filter _)
        · exact quiet_ignored (quiet_thenIgnore (quiet_just _) (quiet_rewind (quiet_filter _)))
      · exact (eats_mlCommentItem n).consumes
      · intro eoi s e he
        have hstar : (chars s).head? ≠ some '/' := by
          obtain ⟨e', he'⟩ := choice_error_all he _ (List.mem_cons_of_mem _ (List.mem_cons_self))
          intro hc
          obtain ⟨sp, t, rfl⟩ := toks_of_head hc
          simp [ignored, pmap, noneOf, filter, pok] at he'
        refine at1_choice (by simp) ?_ e he
        intro p hp
        simp only [List.mem_cons, List.not_mem_nil, or_false] at hp
        rcases hp with rfl | rfl | rfl
        · cases n with
          | zero =>
            intro e he; simp [mlCommentRec, tooDeep] at he; rw [← he]; simp
          | succ m =>
            intro e he
            have hp : ¬ ['/', '*'] <+: chars s := by
              rintro ⟨w, hw⟩; rw [← hw] at hstar; simp at hstar
            exact (at_beginComment hstar).at1 e (mlCommentRec_error_left hp he)
        · exact (at_pmap ((near_filter _).at _ _)).at1
        · refine at1_pmap ?_
          intro e he
          rcases bind_error_inv he with h | ⟨a, alt, e2, h1, h2, h3⟩
          · exact ((near_just _).at _ _).at1 e h
          · have h4 := just_ok_head h1
            have h5 := pmap_error.1 h2
            have h6 : ((filter (fun x => x != '/')) eoi (just '*' eoi s).rest).out = .error e2 := by
              simp only [rewind, noneOf] at h5
              cases ho : ((filter (fun x => x != '/')) eoi (just '*' eoi s).rest).out <;> simp_all
            have h7 := near_filter _ eoi _ _ h6
            have h8 : alt = none := h4.2.2
            rw [h3, h8]; simp only [Loc.maxO]; omega
    · exact (suf_ignored (suf_repeated (suf_choice (by
        intro p hp
        simp only [List.mem_cons, List.not_mem_nil, or_false] at hp
        rcases hp with rfl | rfl | rfl
        · exact suf_mlCommentRec n
        · exact suf_ignored suf_filter
        · exact suf_ignored (suf_thenIgnore suf_just (suf_rewind suf_filter)))))).eats0
    · exact (eats_justStr (cs := "*/".toList)).mono (by decide)

section
variable [Offset O]

theorem tight_mlComment : Tight (mlComment : P O Unit) := by
  intro eoi s a alt h
  exact tight_mapErrWithSpan (tight_mlCommentRec (s.length + 1)) eoi s a alt h

theorem at1_mlComment {eoi : Sp O} {s} (hp : ¬ ['/', '*'] <+: chars s) : At1 mlComment eoi s := by
  have : At1 (mlCommentRec (s.length + 1)) eoi s := fun e he =>
    near_beginComment '*' eoi s e (mlCommentRec_error_left hp he)
  exact fun e he => at1_mapErrWithSpan (f := mlCommentErr) this e he

theorem at_mlComment {eoi : Sp O} {s} (hp : (chars s).head? ≠ some '/') : At mlComment eoi s := by
  have hp' : ¬ ['/', '*'] <+: chars s := by
    rintro ⟨w, hw⟩; rw [← hw] at hp; simp at hp
  have : At (mlCommentRec (s.length + 1)) eoi s := fun e he =>
    at_beginComment hp e (mlCommentRec_error_left hp' he)
  exact fun e he => at_mapErrWithSpan (f := mlCommentErr) this e he

theorem near_wsRun : Near 0 (ignored (repeatedB 1 none wsChar) : P O Unit) := by
  intro eoi s e he
  have := repeatedB_error (by simp) eoi s e (pmap_error.1 he)
  exact near_ignored (near_filter _) eoi s e this

theorem tight_ws : Tight (ws : P O Unit) := by
  refine tight_mapErr (tight_orP ?_ (tight_ignored (tight_repeatedB (tight_ignored (tight_filter _)) suf_wsChar
    (quiet_ignored (quiet_filter _)).failQuiet eats_wsChar.consumes (near_ignored (near_filter _)))) near_wsRun
    tight_mlComment suf_mlComment.eats0)
  exact quiet_ignored (quiet_repeatedB (quiet_ignored (quiet_filter _)))

theorem at1_ws {eoi : Sp O} {s} (hp : ¬ ['/', '*'] <+: chars s) : At1 ws eoi s :=
  at1_mapErr (at1_orP (near_wsRun.at _ _).at1 (at1_mlComment hp))
theorem at_ws {eoi : Sp O} {s} (hp : (chars s).head? ≠ some '/') : At ws eoi s :=
  at_mapErr (at_orP (near_wsRun.at _ _) (at_mlComment hp))

theorem quiet_wss : Quiet (repeated ws : P O (List Unit)) := quiet_repeated quiet_ws

theorem not_block_of_head {s : Str} {c : Char} (h : s.head? = some c) (hc : c ≠ '/') {d} : ¬ ['/', d] <+: s := by
  rintro ⟨w, hw⟩; rw [← hw] at h; simp at h; exact hc h.symm

theorem newline_ok_head {eoi : Sp O} {s x} (h : (newline eoi s).out = .ok x) :
    ∃ c, (chars s).head? = some c ∧ c ∈ Cst.newlineChars := by
  by_cases hc : ∀ c, (chars s).head? = some c → c ∉ Cst.newlineChars
  · obtain ⟨e, he⟩ := (fails_newline (eoi := eoi) hc).fails; rw [h] at he; cases he
  · simp only [Classical.not_forall] at hc
    obtain ⟨c, h1, h2⟩ := hc
    exact ⟨c, h1, Classical.not_not.1 h2⟩

theorem beginComment_ok_prefix {c} {eoi : Sp O} {s x} (h : (beginComment c eoi s).out = .ok x) :
    ['/', c] <+: chars s := by
  by_cases hp : ['/', c] <+: chars s
  · exact hp
  · obtain ⟨e, he⟩ := (failsC_beginComment (eoi := eoi) hp).fails; rw [h] at he; cases he

theorem comment_ok_prefix {eoi : Sp O} {s x} (h : (comment eoi s).out = .ok x) :
    ['/', '/'] <+: chars s := by
  by_cases hp : ['/', '/'] <+: chars s
  · exact hp
  · obtain ⟨e, he⟩ := (failsC_comment (eoi := eoi) hp).fails; rw [h] at he; cases he

theorem newlineChars_ne_slash {c : Char} (h : c ∈ Cst.newlineChars) : c ≠ '/' := by
  rintro rfl; revert h; decide

theorem prefix_clash {s : Str} {a b c d : Char} (h : [a, b] <+: s) (h' : [c, d] <+: s) : b = d := by
  obtain ⟨w, rfl⟩ := h
  obtain ⟨v, hv⟩ := h'
  simp at hv; exact hv.2.1.symm

theorem tight_escEnd : Tight (orP comment newline : P O Unit) := by
  intro eoi s a alt h
  rcases orP_ok_inv quiet_comment h with ⟨h1, h2⟩ | ⟨e1, alt2, h1, h2, h3, h4⟩
  · rw [h2]; exact tight_comment eoi s a alt h1
  · rw [h4, h3]
    obtain ⟨c, hc, hc'⟩ := newline_ok_head h2
    have h5 := at_comment (s := s) (by rw [hc]; simp [newlineChars_ne_slash hc']) e1 h1
    have h6 := (suf_newline eoi s).length_le
    exact mergeAlts_lb (tight_newline eoi s a alt2 h2) (lb_some.2 (by omega))

theorem escEnd_ok {eoi : Sp O} {s x} (h : (orP comment newline eoi s).out = .ok x) :
    ¬ ['/', '*'] <+: chars s ∧ (orP comment newline eoi s).rest.length + 1 ≤ s.length := by
  refine ⟨?_, eats_orP (eats_comment.mono (by decide)) eats_newline eoi s x h⟩
  intro hp
  rcases orP_ok_inv (x := x.1) (alt := x.2) quiet_comment h with ⟨h1, h2⟩ | ⟨e1, alt2, h1, h2, h3, h4⟩
  · exact absurd (prefix_clash hp (comment_ok_prefix h1)) (by decide)
  · obtain ⟨c, hc, hc'⟩ := newline_ok_head h2
    exact not_block_of_head hc (newlineChars_ne_slash hc') hp

theorem tight_escLine : Tight (escLine : P O Unit) := by
  intro eoi s a alt h
  unfold escLine at h
  obtain ⟨a1, alt1, alt2, h1, h2, h3, h4⟩ := bind_ok_inv h
  rw [show (escLine eoi s).rest = _ from h4, h3]
  obtain ⟨a3, alt3, alt4, h5, h6, h7, h8⟩ := bind_ok_inv h1
  obtain ⟨h9, h10⟩ := escEnd_ok h2
  refine mergeAlts_lb ?_ (tight_escEnd eoi _ a alt2 h2)
  rw [h7]
  have h11 := just_ok_head h5
  have : alt3 = none := h11.2.2
  subst this
  refine mergeAlts_lb lb_none ?_
  have h8' : (ignoreThen (just '\\') (repeated ws) eoi s).rest = (repeated ws eoi (just '\\' eoi s).rest).rest := h8
  rw [h8'] at h9 h10 ⊢
  refine repeatedB_alt tight_ws suf_ws quiet_ws.failQuiet eats_ws.consumes h6 ?_ ?_
  · have : (repeated ws eoi (just '\\' eoi s).rest).rest = (repeatedB 0 none ws eoi (just '\\' eoi s).rest).rest := rfl
    rw [← this]; omega
  · intro e he
    have := at1_ws h9 e he
    omega

theorem at_escLine {eoi : Sp O} {s} (h : (chars s).head? ≠ some '\\') : At escLine eoi s :=
  at_ignoreThen (fails_ignoreThen_left (fails_just_of h)) (at_ignoreThen (fails_just_of h) ((near_just _).at _ _))

theorem escLine_ok_head {eoi : Sp O} {s x} (h : (escLine eoi s).out = .ok x) : (chars s).head? = some '\\' := by
  by_cases hp : (chars s).head? = some '\\'
  · exact hp
  · obtain ⟨e, he⟩ := (failsC_escLine (eoi := eoi) hp).fails; rw [h] at he; cases he

theorem tight_nodeSpace : Tight (nodeSpace : P O Unit) := by
  intro eoi s a alt h
  rcases orP_ok_inv quiet_ws h with ⟨h1, h2⟩ | ⟨e1, alt2, h1, h2, h3, h4⟩
  · have h2' : (nodeSpace eoi s).rest = (ws eoi s).rest := h2
    rw [h2']; exact tight_ws eoi s a alt h1
  · have h4' : (nodeSpace eoi s).rest = (escLine eoi s).rest := h4
    rw [h4', h3]
    have hc := escLine_ok_head h2
    have h5 := at_ws (s := s) (by rw [hc]; decide) e1 h1
    have h6 := (suf_escLine eoi s).length_le
    exact mergeAlts_lb (tight_escLine eoi s a alt2 h2) (lb_some.2 (by omega))

/-- Neither a line continuation nor a block comment begins here. -/
def NoSp (s : List (Tok O)) : Prop := (chars s).head? ≠ some '\\' ∧ ¬ ['/', '*'] <+: chars s

theorem at1_nodeSpace {eoi : Sp O} {s} (h : NoSp s) : At1 nodeSpace eoi s :=
  at1_orP (at1_ws h.2) (at_escLine h.1).at1

/-- The alternative error of (possibly no) space. -/
theorem spaces_alt {mn mx} {eoi : Sp O} {s as alt} (h : (repeatedB mn mx nodeSpace eoi s).out = .ok (as, alt))
    (hn : NoSp (repeatedB mn mx nodeSpace eoi s).rest) :
    LB ((repeatedB mn mx nodeSpace eoi s).rest.length - 1) alt := by
  refine repeatedB_alt tight_nodeSpace suf_nodeSpace quiet_nodeSpace.failQuiet eats_nodeSpace.consumes h (by omega) ?_
  intro e he
  have := at1_nodeSpace hn e he
  omega

theorem tight_lineSpace : Tight (lineSpace : P O Unit) := by
  intro eoi s a alt h
  have hq : Quiet (orP newline ws : P O Unit) := quiet_orP quiet_newline quiet_ws
  rcases orP_ok_inv hq h with ⟨h1, h2⟩ | ⟨e1, alt2, h1, h2, h3, h4⟩
  · have h2' : (lineSpace eoi s).rest = (orP newline ws eoi s).rest := h2
    rw [h2']
    exact tight_orP quiet_newline tight_newline near_newline tight_ws eats_ws eoi s a alt h1
  · have h4' : (lineSpace eoi s).rest = (comment eoi s).rest := h4
    rw [h4', h3]
    have hc : ¬ ['/', '*'] <+: chars s := fun hp => absurd (prefix_clash hp (comment_ok_prefix h2)) (by decide)
    have h5 := at1_orP (near_newline.at1 _ _) (at1_ws hc) e1 h1
    have h6 := eats_comment eoi s _ h2
    exact mergeAlts_lb (tight_comment eoi s a alt2 h2) (lb_some.2 (by omega))

theorem at1_lineSpace {eoi : Sp O} {s} (h : ¬ ['/', '*'] <+: chars s) : At1 lineSpace eoi s :=
  at1_orP (at1_orP (near_newline.at1 _ _) (at1_ws h)) (near_comment.at1 _ _)

theorem lines_alt {eoi : Sp O} {s as alt} (h : (repeated lineSpace eoi s).out = .ok (as, alt))
    (hn : ¬ ['/', '*'] <+: chars (repeated lineSpace eoi s).rest) :
    LB ((repeated lineSpace eoi s).rest.length - 1) alt := by
  refine repeatedB_alt tight_lineSpace suf_lineSpace quiet_lineSpace.failQuiet eats_lineSpace.consumes h ?_ ?_
  · exact Nat.sub_le _ _
  intro e he
  have := at1_lineSpace hn e he
  omega

/-! ## Strings -/

theorem repGo_eats {p : P O α} (hc : Consumes p) (hs : Suf p) {mn mx eoi} : ∀ fuel {outs errs alt pan s x},
    s.length < fuel → (mx = some mn) →
    (repGo p mn mx eoi fuel outs errs alt pan s).out = .ok x →
    (repGo p mn mx eoi fuel outs errs alt pan s).rest.length + (mn - outs.length) ≤ s.length := by
  intro fuel
  induction fuel with
  | zero => intro _ _ _ _ _ _ h; omega
  | succ f ih =>
    intro outs errs alt pan s x hf hmx h
    unfold repGo at h ⊢
    split
    · rename_i hm
      rw [hmx] at hm; injection hm with hm; simp only; omega
    · rename_i hm
      simp only [hm, if_false] at h
      cases h1 : (p eoi s).out with
      | ok y =>
        have hlt := hc eoi s y h1
        simp only [h1, hlt, if_true] at h ⊢
        have := ih (by omega) hmx h
        simp at this; omega
      | error e =>
        simp only [h1] at h ⊢
        by_cases hl : outs.length < mn
        · simp [hl] at h
        · simp only [hl, if_false]; omega

theorem repGo_near {p : P O α} (hp : ∀ eoi s x, (p eoi s).out = .ok x → (p eoi s).rest.length + 1 = s.length)
    (hn : Near 0 p) {mn mx eoi} : ∀ fuel {outs errs alt pan s e},
    (repGo p mn mx eoi fuel outs errs alt pan s).out = .error e → s.length ≤ e.rem + (mn - outs.length) := by
  intro fuel
  induction fuel with
  | zero => intro _ _ _ _ _ _ h; simp [repGo] at h
  | succ f ih =>
    intro outs errs alt pan s e h
    unfold repGo at h
    split at h
    · cases h
    · cases h1 : (p eoi s).out with
      | ok y =>
        have h2 := hp eoi s y h1
        have hlt : (p eoi s).rest.length < s.length := by omega
        simp only [h1, hlt, if_true] at h
        by_cases hl : outs.length < mn
        · have := ih h
          simp at this; omega
        · exfalso
          have key : ∀ fuel {outs errs alt pan s}, mn ≤ outs.length → ∀ e, (repGo p mn mx eoi fuel outs errs alt pan s).out ≠ .error e := by
            intro fuel
            induction fuel with
            | zero => intro _ _ _ _ _ _ e he; simp [repGo] at he
            | succ f ih =>
              intro outs errs alt pan s ho e he
              unfold repGo at he
              split at he
              · cases he
              · cases h1 : (p eoi s).out with
                | ok x =>
                  simp only [h1] at he
                  split at he
                  · exact ih (by simp; omega) e he
                  · cases he
                | error e =>
                  have : ¬ outs.length < mn := by omega
                  simp [h1, this] at he
          exact key f (by simp; omega) e h
      | error e1 =>
        simp only [h1] at h
        split at h
        · injection h with h; subst h
          have := hn eoi s e1 h1; omega
        · cases h

theorem eats_hashes (n : Nat) : Eats n (repeatedB n (some n) (just '#') : P O (List Char)) := by
  intro eoi s x h
  have := repGo_eats eats_just.consumes suf_just (s.length + 1) (by omega) rfl h
  exact this

theorem near_hashes (n : Nat) : Near n (repeatedB n (some n) (just '#') : P O (List Char)) := by
  intro eoi s x h
  have := repGo_near (fun eoi s x hx => (just_ok_head hx).2.1) (near_just '#') (s.length + 1) h
  simpa using this

theorem tight_rawEnd (n : Nat) :
    Tight (takeUntil (ignoreThen (just '"') (ignored (repeatedB n (some n) (just '#')))) : P O (List Char × Unit)) := by
  refine tight_takeUntil (k := 1 + n) ?_ ?_ ?_
  · refine near_bind_left ?_ ?_
    · intro eoi s e h; have := near_just '"' eoi s e h; omega
    · intro eoi s x hx e he
      have h1 := just_ok_head hx
      have h2 := near_ignored (near_hashes n) eoi _ e he
      rw [h1.2.2]; simp only [Loc.maxO]; omega
  · exact (eats_ignoreThen eats_just (eats_ignored (eats_hashes n))).eatsEnd
  · exact tight_ignoreThen (tight_just _) (tight_ignored (tight_repeatedB (tight_just _) suf_just (quiet_just _).failQuiet
      eats_just.consumes (near_just _))) (suf_ignored (suf_repeatedB suf_just)).eats0

theorem tight_rawString : Tight (rawString : P O Str) := by
  refine tight_pmap (tight_bind (j := 0) ?_ (fun n => tight_mapErrWithSpan (tight_rawEnd n)) ?_)
  · exact tight_thenIgnore (j := 0) (tight_ignoreThen (tight_just _) (tight_pmap (tight_repeatedB (tight_just _) suf_just
      (quiet_just _).failQuiet eats_just.consumes (near_just _))) (suf_pmap (suf_repeated suf_just)).eats0)
      (tight_just _) suf_just.eats0
  · intro n
    exact (suf_mapErrWithSpan (suf_takeUntil (suf_ignoreThen suf_just (suf_ignored (suf_repeatedB suf_just))))).eats0

theorem tight_hexEsc : Tight (recoverSkipUntil ['}', '"', '\\'] '\x00'
    (tryMap hexToChar
      (delimitedBy (repeatedB 1 (some 6) (filterMap hexDigit)) (just '{') (just '}'))) : P O Char) := by
  intro eoi s a alt h
  unfold recoverSkipUntil at h ⊢
  have ht : Tight (tryMap hexToChar
      (delimitedBy (repeatedB 1 (some 6) (filterMap hexDigit)) (just '{') (just '}')) : P O Char) :=
    tight_tryMap (tight_thenIgnore (j := 0) (tight_ignoreThen (tight_just _) (tight_repeatedB (tight_filterMap _)
      suf_filterMap (quiet_filterMap _).failQuiet eats_filterMap.consumes (near_filterMap _))
      (suf_repeatedB suf_filterMap).eats0) (tight_just _) suf_just.eats0)
  cases ho : (tryMap hexToChar
      (delimitedBy (repeatedB 1 (some 6) (filterMap hexDigit)) (just '{') (just '}')) eoi s).out with
  | ok x =>
    simp only [ho] at h ⊢
    injection h with h; subst h
    exact ht eoi s _ _ ho
  | error e =>
    simp only [ho] at h ⊢
    split at h
    · injection h with h; injection h with _ h; subst h; exact lb_none
    · cases h

theorem tight_escChar : Tight (escChar : P O Char) :=
  tight_orP (quiet_filterMap _) (tight_filterMap _) (near_filterMap _)
    (tight_ignoreThen (tight_just _) tight_hexEsc
      (suf_recoverSkipUntil (suf_tryMap (suf_delimitedBy (suf_repeatedB suf_filterMap) suf_just suf_just))).eats0)
    ((suf_ignoreThen suf_just (suf_recoverSkipUntil (suf_tryMap (suf_delimitedBy (suf_repeatedB suf_filterMap) suf_just suf_just)))).eats0)

theorem tight_strChar : Tight (strChar : P O Char) :=
  tight_orP (quiet_filter _) (tight_filter _) (near_filter _)
    (tight_ignoreThen (tight_just _) tight_escChar suf_escChar.eats0) (suf_ignoreThen suf_just suf_escChar).eats0

theorem at_strChar {eoi : Sp O} {s} (h : (chars s).head? ≠ some '\\') : At strChar eoi s :=
  at_orP ((near_filter _).at _ _) (at_ignoreThen (fails_just_of h) ((near_just _).at _ _))

theorem tight_strBody : Tight (thenIgnore (repeated strChar) (just '"') : P O (List Char)) := by
  intro eoi s a alt h
  obtain ⟨a1, alt1, alt2, h1, h2, h3, h4⟩ := bind_ok_inv h
  obtain ⟨b, h5, _⟩ := pmap_ok_inv h2
  have h6 := just_ok_head h5
  have h4' : (thenIgnore (repeated strChar) (just '"') eoi s).rest = (just '"' eoi (repeated strChar eoi s).rest).rest := h4
  have h7 : alt2 = none := h6.2.2
  subst h7
  rw [h4', h3]
  refine mergeAlts_lb (repeatedB_alt tight_strChar suf_strChar failQuiet_strChar eats_strChar.consumes h1 ?_ ?_) lb_none
  · have : (repeated strChar eoi s).rest = (repeatedB 0 none strChar eoi s).rest := rfl
    rw [← this]; omega
  · intro e he
    have := at_strChar (eoi := eoi) (s := (repeated strChar eoi s).rest) (by rw [h6.1]; decide) e he
    omega

theorem tight_escapedString : Tight (escapedString : P O Str) :=
  tight_ignoreThen (tight_just _) (tight_mapErrWithSpan tight_strBody)
    (suf_mapErrWithSpan (suf_thenIgnore (suf_repeated suf_strChar) suf_just)).eats0

theorem at_rawString {eoi : Sp O} {s} (h : (chars s).head? ≠ some 'r') : At rawString eoi s :=
  have hf := fails_just_of (eoi := eoi) h
  at_pmap (at_bind (fails_thenIgnore_left (fails_ignoreThen_left hf))
    (at_thenIgnore (fails_ignoreThen_left hf) (at_ignoreThen hf ((near_just _).at _ _))))

theorem at_escapedString {eoi : Sp O} {s} (h : (chars s).head? ≠ some '"') : At escapedString eoi s :=
  at_ignoreThen (fails_just_of h) ((near_just _).at _ _)

theorem escapedString_ok_head {eoi : Sp O} {s x} (h : (escapedString eoi s).out = .ok x) : (chars s).head? = some '"' := by
  obtain ⟨a, alt1, alt2, h1, _⟩ := bind_ok_inv (b := x.1) (alt := x.2) h
  exact (just_ok_head h1).1

theorem tight_string : Tight (string : P O Str) := by
  intro eoi s a alt h
  rcases orP_ok_inv quiet_rawString h with ⟨h1, h2⟩ | ⟨e1, alt2, h1, h2, h3, h4⟩
  · have h2' : (string eoi s).rest = (rawString eoi s).rest := h2
    rw [h2']; exact tight_rawString eoi s a alt h1
  · have h4' : (string eoi s).rest = (escapedString eoi s).rest := h4
    rw [h4', h3]
    have hc := escapedString_ok_head h2
    have h5 := at_rawString (s := s) (by rw [hc]; decide) e1 h1
    have h6 := (suf_escapedString eoi s).length_le
    exact mergeAlts_lb (tight_escapedString eoi s a alt2 h2) (lb_some.2 (by omega))

theorem at_string {eoi : Sp O} {s} (h : (chars s).head? ≠ some 'r') (h' : (chars s).head? ≠ some '"') : At string eoi s :=
  at_orP (at_rawString h) (at_escapedString h')

end

end Knuffel
