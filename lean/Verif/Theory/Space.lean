import Verif.Theory.Lex
import Verif.Theory.Progress
import Verif.Theory.QuietComb
/-!
# Comments and space: the parser against the specification
-/

set_option linter.unusedSimpArgs false
set_option linter.unusedSectionVars false

namespace Knuffel

open Cst (Newline Block Ws LineComment EscEnd Space Line)

variable {O α β γ : Type}

theorem head_eq_some {s : Str} {c : Char} : s.head? = some c ↔ ∃ t, s = c :: t := by
  cases s <;> simp

theorem toks_of_head {s : List (Tok O)} {c : Char} (h : (chars s).head? = some c) :
    ∃ sp t, s = (c, sp) :: t := by
  obtain ⟨cs, hcs⟩ := head_eq_some.1 h
  obtain ⟨sp, t, h, _⟩ := chars_eq_cons.1 hcs
  exact ⟨sp, t, h⟩

/-! ### Newline failures -/

theorem not_fails_newline {eoi : Sp O} {s} {c} (hc : c ∈ Cst.newlineChars)
    (h : (chars s).head? = some c) : ∃ u t, Ok newline eoi s u t := by
  obtain ⟨sp, t, rfl⟩ := toks_of_head h
  have single : ∀ n : Newline, n.text = [c] → n.Ok (chars t) →
      ∃ u t', Ok newline eoi ((c, sp) :: t) u t' := fun n h1 h2 =>
    ⟨(), t, ok_newline.2 ⟨n, by rw [h1]; exact .single, h2⟩⟩
  simp only [Cst.newlineChars, List.mem_cons, List.not_mem_nil, or_false] at hc
  rcases hc with rfl | rfl | rfl | rfl | rfl | rfl
  · exact single .lf rfl trivial
  · by_cases hn : (chars t).head? = some '\n'
    · obtain ⟨sp', t', rfl⟩ := toks_of_head hn
      exact ⟨(), t', ok_newline.2 ⟨.crlf, .cons .single, trivial⟩⟩
    · exact single .cr rfl hn
  · exact single .ff rfl trivial
  · exact single .nel rfl trivial
  · exact single .ls rfl trivial
  · exact single .ps rfl trivial

theorem fails_newline_iff {eoi : Sp O} {s} :
    Fails newline eoi s ↔ ∀ c, (chars s).head? = some c → c ∉ Cst.newlineChars := by
  constructor
  · intro h c hc hmem
    obtain ⟨u, t, ho⟩ := not_fails_newline hmem hc
    exact ho.not_fails h
  · intro h; exact (fails_newline h).fails

/-! ### Line comments -/

theorem ok_beginComment {c : Char} {eoi : Sp O} {s u t} :
    Ok (beginComment c) eoi s u t ↔ Takes s ['/', c] t := by
  unfold beginComment
  simp only [ok_ignoreThen, ok_mapErr, ok_ignored, ok_just_takes]
  constructor
  · rintro ⟨a, t1, ⟨h1, rfl⟩, a', h2, rfl⟩
    exact h1.trans h2
  · intro h
    obtain ⟨t1, h1, h2⟩ := (takes_append (a := ['/']) (b := [c])).1 h
    exact ⟨_, t1, ⟨h1, rfl⟩, _, h2, rfl⟩

theorem failsC_beginComment {c : Char} {eoi : Sp O} {s} (h : ¬ ['/', c] <+: chars s) :
    FailsC (beginComment c) eoi s := by
  unfold beginComment
  by_cases h1 : (chars s).head? = some '/'
  · obtain ⟨sp, t, rfl⟩ := toks_of_head h1
    refine failsC_ignoreThen_right (a := '/') (t := t) (ok_mapErr.2 (ok_just.2 ⟨sp, rfl, rfl⟩)) ?_
    rw [failsC_ignored, failsC_just_head]
    intro h2
    obtain ⟨sp', t', rfl⟩ := toks_of_head h2
    exact h ⟨chars t', by simp⟩
  · exact failsC_ignoreThen_left (failsC_mapErr.2 (failsC_just_head.2 h1))

theorem ok_comment {eoi : Sp O} {s u t} :
    Ok comment eoi s u t ↔ ∃ c : LineComment, Takes s c.text t ∧ c.Ok (chars t) := by
  unfold comment
  rw [ok_ignored]
  constructor
  · rintro ⟨⟨a, cs, b⟩, h⟩
    rw [ok_seq] at h
    obtain ⟨t1, h1, h2⟩ := h
    rw [ok_beginComment] at h1
    obtain ⟨pre, mid, rfl, rfl, h3, h4⟩ := ok_takeUntil.1 h2
    have hbody : ∀ x ∈ chars pre, x ∉ Cst.newlineChars := by
      intro x hx
      obtain ⟨y, hy, rfl⟩ := List.mem_map.1 hx
      obtain ⟨a, c, rfl⟩ := List.append_of_mem hy
      have := (fails_orP.1 (h4 a y c rfl)).1
      exact fails_newline_iff.1 this y.1 (by simp)
    have hT : Takes (pre ++ mid) (chars pre) mid := ⟨pre, rfl, rfl⟩
    rcases ok_orP.1 h3 with h3 | ⟨_, h3⟩
    · obtain ⟨n, hn, hok⟩ := ok_newline.1 h3
      refine ⟨⟨chars pre, some n⟩, ?_, hbody, hok⟩
      exact (h1.trans (hT.trans hn))
    · obtain ⟨rfl, rfl⟩ := ok_endP.1 h3
      refine ⟨⟨chars pre, none⟩, ?_, hbody, rfl⟩
      have := h1.trans hT
      simpa [LineComment.text, Cst.stopText] using this
  · rintro ⟨⟨body, stop⟩, hT, hb, hs⟩
    simp only [LineComment.text] at hT
    have hT' : Takes s (['/', '/'] ++ (body ++ Cst.stopText stop)) t := by simpa using hT
    obtain ⟨t1, h1, h2⟩ := takes_append.1 hT'
    obtain ⟨mid, h3, h4⟩ := takes_append.1 h2
    obtain ⟨pre, rfl, rfl⟩ := h3
    have hT : Takes (pre ++ mid) (chars pre) mid := ⟨pre, rfl, rfl⟩
    obtain ⟨b, hb'⟩ : ∃ b, Ok (orP newline endP) eoi mid b t := by
      cases stop with
      | some n => exact ⟨(), ok_orP_left (ok_newline.2 ⟨n, h4, hs⟩)⟩
      | none =>
        simp only at hs
        have := takes_nil.1 h4
        subst this
        have := chars_eq_nil.1 hs
        subst this
        exact ⟨(), ok_orP_right (fails_newline (by simp)).fails (ok_endP.2 ⟨rfl, rfl⟩)⟩
    refine ⟨((), chars pre, b), ok_seq.2 ⟨pre ++ mid, ok_beginComment.2 h1,
      ok_takeUntil.2 ⟨pre, mid, rfl, rfl, hb', ?_⟩⟩⟩
    rintro a x c rfl
    refine fails_orP.2 ⟨(fails_newline ?_).fails, ?_⟩
    · intro d hd
      simp at hd
      subst hd
      exact hb _ (by simp)
    · rw [fails_endP]; simp

theorem failsC_comment {eoi : Sp O} {s} (h : ¬ ['/', '/'] <+: chars s) : FailsC comment eoi s := by
  unfold comment
  rw [failsC_ignored]
  exact failsC_seq_left (failsC_beginComment h)

/-! ### Block comments -/

/-- The alternatives inside a block comment. -/
def mlChoice (n : Nat) : P O Unit :=
  choice [mlCommentRec n, ignored (noneOf '*'), ignored (thenIgnore (just '*') (rewind (noneOf '/')))]

theorem eats_mlChoice {n} : Eats 1 (mlChoice n : P O Unit) := by
  refine eats_choice ?_
  intro p hp
  simp only [List.mem_cons, List.not_mem_nil, or_false] at hp
  rcases hp with rfl | rfl | rfl
  · exact (eats_mlCommentRec n).mono (by decide)
  · exact eats_ignored eats_filter
  · exact eats_ignored (eats_thenIgnore (k := 0) eats_just eats_rewind)

theorem mlCommentRec_succ (n : Nat) : (mlCommentRec (n + 1) : P O Unit) =
    delimitedBy (ignored (repeated (mlChoice n))) (beginComment '*') (justStr "*/".toList) := rfl

theorem failsC_mlCommentRec {eoi : Sp O} {s} {n} (h : ¬ ['/', '*'] <+: chars s) :
    FailsC (mlCommentRec n) eoi s := by
  cases n with
  | zero => simp [FailsC, mlCommentRec, tooDeep]
  | succ n =>
    rw [mlCommentRec_succ]
    exact failsC_thenIgnore_left (failsC_ignoreThen_left (failsC_beginComment h))

theorem fails_mlChoice_close {eoi : Sp O} {n} {s} {cs : Str} (h : chars s = '*' :: '/' :: cs) :
    Fails (mlChoice n) eoi s := by
  unfold mlChoice
  rw [fails_choice]
  obtain ⟨sp, t, rfl, h1⟩ := chars_eq_cons.1 h
  obtain ⟨sp', t', rfl, h2⟩ := chars_eq_cons.1 h1
  intro p hp
  simp only [List.mem_cons, List.not_mem_nil, or_false] at hp
  rcases hp with rfl | rfl | rfl
  · exact (failsC_mlCommentRec (by simp)).fails
  · rw [fails_ignored]; unfold noneOf; rw [fails_filter]; simp
  · rw [fails_ignored]
    refine fails_thenIgnore_right (ok_just.2 ⟨sp, rfl, rfl⟩) ?_
    rw [fails_rewind]; unfold noneOf; rw [fails_filter]; simp

theorem mlChoice_more {eoi : Sp O} {n} {s : List (Tok O)}
    (h : ∀ t, Ok (mlCommentRec (n + 1)) eoi s () t ↔ Ok (mlCommentRec n) eoi s () t) :
    (∀ u t, Ok (mlChoice (n + 1)) eoi s u t ↔ Ok (mlChoice n) eoi s u t) ∧
      (Fails (mlChoice (n + 1)) eoi s ↔ Fails (mlChoice n) eoi s) := by
  have hf : Fails (mlCommentRec (n + 1)) eoi s ↔ Fails (mlCommentRec n) eoi s := by
    constructor
    · intro h1
      rcases (quiet_mlCommentRec n).cases eoi s with ⟨_, t, h2⟩ | h2
      · exact absurd ((h t).2 h2) fun h3 => h3.not_fails h1
      · exact h2.fails
    · intro h1
      rcases (quiet_mlCommentRec (n + 1)).cases eoi s with ⟨_, t, h2⟩ | h2
      · exact absurd ((h t).1 h2) fun h3 => h3.not_fails h1
      · exact h2.fails
  constructor
  · intro u t
    exact ok_choice_cons.trans ((or_congr (h t) (and_congr hf Iff.rfl)).trans ok_choice_cons.symm)
  · unfold mlChoice
    rw [fails_choice, fails_choice]
    simp only [List.forall_mem_cons, hf]

/-- The bound on the depth does not matter if it is large enough. -/
theorem mlCommentRec_more {eoi : Sp O} : ∀ {n} {s : List (Tok O)}, s.length ≤ n → ∀ t,
    (Ok (mlCommentRec (n + 1)) eoi s () t ↔ Ok (mlCommentRec n) eoi s () t) := by
  intro n
  induction n with
  | zero =>
    intro s hs t
    have : s = [] := List.length_eq_zero_iff.1 (by omega)
    subst this
    have h1 : FailsC (mlCommentRec 1) eoi ([] : List (Tok O)) := failsC_mlCommentRec (by simp [chars])
    have h2 : FailsC (mlCommentRec 0) eoi ([] : List (Tok O)) := failsC_mlCommentRec (by simp [chars])
    exact ⟨fun h => absurd h1.fails h.not_fails, fun h => absurd h2.fails h.not_fails⟩
  | succ n ih =>
    intro s hs t
    have key : ∀ s1 : List (Tok O), s1.length ≤ n → ∀ as s2,
        (Reps (mlChoice (n + 1)) eoi s1 as s2 ∧ Fails (mlChoice (n + 1)) eoi s2 ↔
          Reps (mlChoice n) eoi s1 as s2 ∧ Fails (mlChoice n) eoi s2) := by
      intro s1 hs1 as s2
      constructor
      · rintro ⟨h1, h2⟩
        induction h1 with
        | nil s => exact ⟨.nil _, (mlChoice_more (ih hs1)).2.1 h2⟩
        | cons ho hl _ ihr =>
          obtain ⟨h3, h4⟩ := ihr (by omega) h2
          exact ⟨.cons (((mlChoice_more (ih hs1)).1 _ _).1 ho) hl h3, h4⟩
      · rintro ⟨h1, h2⟩
        induction h1 with
        | nil s => exact ⟨.nil _, (mlChoice_more (ih hs1)).2.2 h2⟩
        | cons ho hl _ ihr =>
          obtain ⟨h3, h4⟩ := ihr (by omega) h2
          exact ⟨.cons (((mlChoice_more (ih hs1)).1 _ _).2 ho) hl h3, h4⟩
    rw [mlCommentRec_succ, mlCommentRec_succ, ok_delimitedBy, ok_delimitedBy]
    constructor
    · rintro ⟨b, t1, c, t2, h1, h2, h3⟩
      have hl := (ok_beginComment.1 h1).length
      simp at hl
      refine ⟨b, t1, c, t2, h1, ?_, h3⟩
      obtain ⟨as, h2⟩ := ok_ignored.1 h2
      rw [ok_repeated eats_mlChoice.consumes] at h2
      rw [ok_ignored]
      exact ⟨as, (ok_repeated eats_mlChoice.consumes).2 ((key t1 (by omega) _ _).1 h2)⟩
    · rintro ⟨b, t1, c, t2, h1, h2, h3⟩
      have hl := (ok_beginComment.1 h1).length
      simp at hl
      refine ⟨b, t1, c, t2, h1, ?_, h3⟩
      obtain ⟨as, h2⟩ := ok_ignored.1 h2
      rw [ok_repeated eats_mlChoice.consumes] at h2
      rw [ok_ignored]
      exact ⟨as, (ok_repeated eats_mlChoice.consumes).2 ((key t1 (by omega) _ _).2 h2)⟩

theorem mlReps_more {eoi : Sp O} {n} {s1 : List (Tok O)} {as s2} (hs : s1.length ≤ n)
    (h1 : Reps (mlChoice (n + 1)) eoi s1 as s2) : Reps (mlChoice n) eoi s1 as s2 := by
  induction h1 with
  | nil s => exact .nil _
  | cons ho hl _ ih => exact .cons (((mlChoice_more (mlCommentRec_more hs)).1 _ _).1 ho) hl (ih (by omega))

/-- A nested comment that fails, but is closed as the comment around it is: only if it is closed at once. -/
theorem mlReps_close {eoi : Sp O} {n} {s0 s1 t2 t : List (Tok O)} {as} (hn : s0.length ≤ n)
    (hf : Fails (mlCommentRec n) eoi s0) (hc : Takes s0 ['/'] s1) (hr : Reps (mlChoice n) eoi s1 as t2)
    (ht : Takes t2 ['*', '/'] t) (hs : (chars s1).head? = some '*') : s1 = t2 := by
  cases hr with
  | nil => rfl
  | @cons _ a s2 as' _ ho hlt hr =>
    exfalso
    have hT : Takes s1 ['*'] s2 := by
      rcases ok_choice_cons.1 ho with ho | ⟨_, ho⟩
      · obtain ⟨w, hw⟩ := head_eq_some.1 hs
        refine absurd (failsC_mlCommentRec (n := n) (eoi := eoi) (s := s1) ?_).fails ho.not_fails
        rw [hw]; simp
      · rcases ok_choice_cons.1 ho with ho | ⟨_, ho⟩
        · obtain ⟨c, ho⟩ := ok_ignored.1 ho
          unfold noneOf at ho
          obtain ⟨hcT, hc⟩ := ok_filter_takes.1 ho
          rw [hcT.chars] at hs
          simp at hs
          simp [hs] at hc
        · rcases ok_choice_cons.1 ho with ho | ⟨_, ho⟩
          · obtain ⟨c, ho⟩ := ok_ignored.1 ho
            obtain ⟨t3, b, h4, h5⟩ := ok_thenIgnore.1 ho
            obtain ⟨rfl, v, h6⟩ := ok_rewind.1 h5
            obtain ⟨h4', rfl⟩ := ok_just_takes.1 h4
            exact h4'
          · simp at ho
    have l1 := hc.length
    have l2 := hT.length
    simp at l1 l2
    obtain ⟨m, rfl⟩ : ∃ m, n = m + 1 := ⟨n - 1, by omega⟩
    refine Ok.not_fails (a := ()) (t := t) ?_ hf
    rw [mlCommentRec_succ, ok_delimitedBy]
    refine ⟨(), s2, (), t2, ok_beginComment.2 (hc.trans hT), ok_ignored.2 ⟨as', ?_⟩, ok_justStr_takes.2 ht⟩
    rw [ok_repeated eats_mlChoice.consumes]
    exact ⟨mlReps_more (by omega) hr, fails_mlChoice_close (cs := chars t) (by rw [ht.chars]; rfl)⟩

theorem mlCommentRec_sound {eoi : Sp O} : ∀ {n s u t}, s.length ≤ n → Ok (mlCommentRec n) eoi s u t →
    ∃ b : Block, b.Ok false ∧ Takes s (Ws.block b).text t := by
  intro n
  induction n with
  | zero => intro s u t _ h; simp [Ok, mlCommentRec, tooDeep] at h
  | succ n ih =>
    intro s u t hn h
    rw [mlCommentRec_succ, ok_delimitedBy] at h
    obtain ⟨_, t1, _, t2, h1, h2, h3⟩ := h
    rw [ok_beginComment] at h1
    rw [ok_ignored] at h2
    obtain ⟨as, h2⟩ := h2
    rw [ok_repeated eats_mlChoice.consumes] at h2
    obtain ⟨h2, hx⟩ := h2
    clear hx
    have h3' : Takes t2 ['*', '/'] t := ok_justStr_takes.1 h3
    have hl1 := h1.length
    simp at hl1
    have hl : t1.length ≤ n := by omega
    have key : ∃ b : Block, b.Ok false ∧ Takes t1 b.text t2 := by
      clear h1 hl1
      induction h2 with
      | nil => exact ⟨.nil, trivial, .nil⟩
      | @cons s0 a s1 as' s2 ho hlt hreps ih2 =>
        obtain ⟨r, hr, hT⟩ := ih2 h3 h3' (by omega)
        have hc1 : chars s1 = (r.text ++ ['*', '/']) ++ chars t := by
          rw [hT.chars, h3'.chars]; simp
        rcases ok_choice_cons.1 ho with ho | ⟨hfail, ho⟩
        · obtain ⟨b, hb, hbT⟩ := ih hl ho
          refine ⟨.nested b r, ⟨hb, hr⟩, ?_⟩
          have := hbT.trans hT
          simpa [Ws.text, Block.text] using this
        · rcases ok_choice_cons.1 ho with ho | ⟨_, ho⟩
          · obtain ⟨c, ho⟩ := ok_ignored.1 ho
            unfold noneOf at ho
            obtain ⟨hcT, hc⟩ := ok_filter_takes.1 ho
            refine ⟨.char c r, ⟨?_, ?_, hr⟩, hcT.trans hT⟩
            · rintro rfl; simp at hc
            · rintro rfl hh
              have := mlReps_close hl hfail hcT hreps h3' (by rw [hc1, List.head?_append, hh]; rfl)
              subst this
              have hr0 := hT.length
              refine ⟨rfl, ?_⟩
              cases r with
              | nil => rfl
              | char c r => simp [Block.text] at hr0
              | nested i r => simp [Block.text] at hr0
          · rcases ok_choice_cons.1 ho with ho | ⟨_, ho⟩
            · obtain ⟨c, ho⟩ := ok_ignored.1 ho
              obtain ⟨t3, b, h4, h5⟩ := ok_thenIgnore.1 ho
              obtain ⟨rfl, v, h6⟩ := ok_rewind.1 h5
              obtain ⟨h4', rfl⟩ := ok_just_takes.1 h4
              unfold noneOf at h6
              obtain ⟨sp, rfl, hb⟩ := ok_filter.1 h6
              refine ⟨.char '*' r, ⟨?_, (fun h => absurd h (by decide)), hr⟩, h4'.trans hT⟩
              intro _ hh
              simp only [chars_cons] at hc1
              obtain ⟨w, hw⟩ := head_eq_some.1 hh
              rw [hw] at hc1
              simp at hc1
              simp [hc1.1] at hb
            · simp at ho
    obtain ⟨b, hb, hT⟩ := key
    refine ⟨b, hb, ?_⟩
    have := (h1.trans hT).trans h3'
    simpa [Ws.text] using this

theorem mlBody_complete {eoi : Sp O} : ∀ (b : Block) {n s t cs}, b.Ok true → s.length ≤ n →
    Takes s b.text t → chars t = '*' :: '/' :: cs → ∃ as, Reps (mlChoice n) eoi s as t := by
  intro b
  induction b with
  | nil =>
    intro n s t cs _ _ hT _
    have := takes_nil.1 hT
    subst this
    exact ⟨[], .nil _⟩
  | char c r ih =>
    intro n s t cs hok hl hT ht
    obtain ⟨hstar, hslash, hr⟩ := hok
    obtain ⟨sp, s1, rfl, hT1⟩ := takes_cons.1 hT
    obtain ⟨as, has⟩ := ih (n := n) hr (by simp at hl; omega) hT1 ht
    have hc1 : chars s1 = (r.text ++ ['*', '/']) ++ cs := by
      rw [hT1.chars, ht]; simp
    obtain ⟨d, w, hw⟩ : ∃ d w, r.text ++ ['*', '/'] = d :: w := by
      cases h : r.text ++ ['*', '/'] with
      | nil => simp at h
      | cons d w => exact ⟨d, w, rfl⟩
    rw [hw] at hstar hslash
    rw [hw] at hc1
    obtain ⟨sp1, s2, rfl, h2⟩ := chars_eq_cons.1 hc1
    refine ⟨() :: as, .cons ?_ (by simp) has⟩
    unfold mlChoice
    refine ok_choice_cons.2 (Or.inr ⟨(failsC_mlCommentRec ?_).fails, ?_⟩)
    · rintro ⟨x, hx⟩
      simp at hx
      simpa using hslash hx.1.symm (by simp [← hx.2.1])
    · by_cases hc : c = '*'
      · subst hc
        refine ok_choice_cons.2 (Or.inr ⟨?_, ok_choice_cons.2 (Or.inl ?_)⟩)
        · rw [fails_ignored]; unfold noneOf; rw [fails_filter]; simp
        · rw [ok_ignored]
          refine ⟨'*', ok_thenIgnore.2 ⟨(d, sp1) :: s2, d, ok_just.2 ⟨sp, rfl, rfl⟩,
            ok_rewind.2 ⟨rfl, s2, ?_⟩⟩⟩
          unfold noneOf
          refine ok_filter.2 ⟨sp1, rfl, ?_⟩
          have := hstar rfl
          simpa using this
      · refine ok_choice_cons.2 (Or.inl ?_)
        rw [ok_ignored]
        unfold noneOf
        exact ⟨c, ok_filter.2 ⟨sp, rfl, by simpa using hc⟩⟩
  | nested i r ihi ihr =>
    intro n s t cs hok hl hT ht
    obtain ⟨hi, hr⟩ := hok
    have hT' : Takes s (['/', '*'] ++ (i.text ++ (['*', '/'] ++ r.text))) t := by
      simpa [Block.text] using hT
    obtain ⟨s1, h1, h2⟩ := takes_append.1 hT'
    obtain ⟨s2, h3, h4⟩ := takes_append.1 h2
    obtain ⟨s3, h5, h6⟩ := takes_append.1 h4
    have l1 := h1.length
    have l3 := h3.length
    have l5 := h5.length
    simp at l1 l5
    obtain ⟨as, has⟩ := ihr (n := n) hr (by omega) h6 ht
    obtain ⟨m, rfl⟩ : ∃ m, n = m + 1 := ⟨n - 1, by omega⟩
    obtain ⟨bs, hbs⟩ := ihi (n := m) (cs := chars s3) hi (by omega) h3 (by rw [h5.chars]; rfl)
    refine ⟨() :: as, .cons ?_ (by omega) has⟩
    unfold mlChoice
    refine ok_choice_cons.2 (Or.inl ?_)
    rw [mlCommentRec_succ, ok_delimitedBy]
    refine ⟨(), s1, (), s2, ok_beginComment.2 h1, ok_ignored.2 ⟨bs, ?_⟩, ok_justStr_takes.2 h5⟩
    rw [ok_repeated eats_mlChoice.consumes]
    exact ⟨hbs, fails_mlChoice_close (cs := chars s3) (by rw [h5.chars]; rfl)⟩

section
variable [Offset O]

theorem failsC_mlComment {eoi : Sp O} {s} (h : ¬ ['/', '*'] <+: chars s) : FailsC mlComment eoi s := by
  have : FailsC (mapErrWithSpan mlCommentErr (mlCommentRec (s.length + 1))) eoi s :=
    failsC_mapErrWithSpan.2 (failsC_mlCommentRec h)
  exact this

theorem mlComment_sound {eoi : Sp O} {s u t} (h : Ok mlComment eoi s u t) :
    ∃ b : Block, b.Ok false ∧ Takes s (Ws.block b).text t := by
  have h' : Ok (mapErrWithSpan mlCommentErr (mlCommentRec (s.length + 1))) eoi s u t := h
  rw [ok_mapErrWithSpan] at h'
  exact mlCommentRec_sound (Nat.le_succ _) h'

theorem mlComment_complete {eoi : Sp O} {s t} {b : Block} (hb : b.Ok true)
    (hT : Takes s (Ws.block b).text t) : Ok mlComment eoi s () t := by
  have : Ok (mapErrWithSpan mlCommentErr (mlCommentRec (s.length + 1))) eoi s () t := by
    rw [ok_mapErrWithSpan, mlCommentRec_succ, ok_delimitedBy]
    have hT' : Takes s (['/', '*'] ++ (b.text ++ ['*', '/'])) t := by simpa [Ws.text] using hT
    obtain ⟨s1, h1, h2⟩ := takes_append.1 hT'
    obtain ⟨s2, h3, h4⟩ := takes_append.1 h2
    have l1 := h1.length
    obtain ⟨bs, hbs⟩ := mlBody_complete (eoi := eoi) b (n := s.length) (cs := chars t) hb (by omega) h3
      (by rw [h4.chars]; rfl)
    refine ⟨(), s1, (), s2, ok_beginComment.2 h1, ok_ignored.2 ⟨bs, ?_⟩, ok_justStr_takes.2 h4⟩
    rw [ok_repeated eats_mlChoice.consumes]
    exact ⟨hbs, fails_mlChoice_close (cs := chars t) (by rw [h4.chars]; rfl)⟩
  exact this

end

/-! ### Repeated characters -/

theorem reps_filter {f : Char → Bool} {eoi : Sp O} {s as t} :
    Reps (filter f) eoi s as t ↔ Takes s as t ∧ ∀ c ∈ as, f c = true := by
  constructor
  · intro h
    induction h with
    | nil => exact ⟨.nil, by simp⟩
    | cons h1 _ _ ih =>
      obtain ⟨hT, hf⟩ := ok_filter_takes.1 h1
      exact ⟨hT.trans ih.1, by simpa [hf] using ih.2⟩
  · rintro ⟨hT, hf⟩
    induction as generalizing s with
    | nil => have := takes_nil.1 hT; subst this; exact .nil _
    | cons a as ih =>
      obtain ⟨sp, s1, rfl, hT'⟩ := takes_cons.1 hT
      exact .cons (ok_filter.2 ⟨sp, rfl, hf a (by simp)⟩) (by simp)
        (ih hT' (fun c hc => hf c (by simp [hc])))

theorem ok_repeated_filter {f : Char → Bool} {eoi : Sp O} {s as t} :
    Ok (repeated (filter f)) eoi s as t ↔
      Takes s as t ∧ (∀ c ∈ as, f c = true) ∧ ∀ c, (chars t).head? = some c → f c = false := by
  rw [ok_repeated eats_filter.consumes, reps_filter, fails_filter_head, and_assoc]

theorem reps_ignored {p : P O α} {eoi s us t} :
    Reps (ignored p) eoi s us t ↔ ∃ as, us = as.map (fun _ => ()) ∧ Reps p eoi s as t := by
  constructor
  · intro h
    induction h with
    | nil => exact ⟨[], rfl, .nil _⟩
    | cons h1 h2 _ ih =>
      obtain ⟨a, h1⟩ := ok_ignored.1 h1
      obtain ⟨as, rfl, h⟩ := ih
      exact ⟨a :: as, rfl, .cons h1 h2 h⟩
  · rintro ⟨as, rfl, h⟩
    induction h with
    | nil => exact .nil _
    | cons h1 h2 _ ih => exact .cons (ok_ignored.2 ⟨_, h1⟩) h2 ih

/-- A maximal non-empty run of white space characters. -/
def WsRun (s t : List (Tok O)) : Prop :=
  ∃ str, str ≠ [] ∧ (∀ c ∈ str, c ∈ Cst.wsChars) ∧ Takes s str t ∧
    ∀ c, (chars t).head? = some c → c ∉ Cst.wsChars

theorem ok_wsRun {eoi : Sp O} {s t u} :
    Ok (ignored (repeatedB 1 none wsChar)) eoi s u t ↔ WsRun s t := by
  rw [ok_ignored]
  constructor
  · rintro ⟨us, h⟩
    obtain ⟨h1, h2⟩ := ok_repeatedB eats_wsChar.consumes h
    obtain ⟨as, rfl, h3⟩ := reps_ignored.1 h1
    obtain ⟨hT, hf⟩ := reps_filter.1 h3
    rcases h2 with h2 | ⟨h2, h4⟩
    · simp at h2
    · refine ⟨as, ?_, fun c hc => isWsChar_iff.1 (hf c hc), hT, ?_⟩
      · rintro rfl; simp at h2
      · intro c hc
        unfold wsChar at h4
        rw [fails_ignored, fails_filter_head] at h4
        have := h4 c hc
        rw [← isWsChar_iff, this]; simp
  · rintro ⟨str, hne, hws, hT, hend⟩
    refine ⟨str.map (fun _ => ()), ok_repeatedB_of ?_ (by simp) (Or.inr ⟨?_, ?_⟩)⟩
    · exact reps_ignored.2 ⟨str, rfl, reps_filter.2 ⟨hT, fun c hc => isWsChar_iff.2 (hws c hc)⟩⟩
    · cases str with
      | nil => exact absurd rfl hne
      | cons => simp
    · unfold wsChar
      rw [fails_ignored, fails_filter_head]
      intro c hc
      have := hend c hc
      rw [← isWsChar_iff] at this
      simpa using this

theorem failsC_wsRun {eoi : Sp O} {s} (h : ∀ c, (chars s).head? = some c → c ∉ Cst.wsChars) :
    FailsC (ignored (repeatedB 1 none wsChar)) eoi s := by
  rw [failsC_ignored]
  refine failsC_repeatedB (by decide) (by simp) ?_
  unfold wsChar
  rw [failsC_ignored, failsC_filter_head]
  intro c hc
  have := h c hc
  rw [← isWsChar_iff] at this
  simpa using this

/-- Every non-empty run extends to a maximal one. -/
theorem wsRun_exists {s : List (Tok O)} {c : Char} (hc : c ∈ Cst.wsChars) (h : (chars s).head? = some c) :
    ∃ t, WsRun s t := by
  induction s generalizing c with
  | nil => simp at h
  | cons x s ih =>
    obtain ⟨d, sp⟩ := x
    simp at h
    subst h
    by_cases h2 : ∃ e, (chars s).head? = some e ∧ e ∈ Cst.wsChars
    · obtain ⟨e, he, hmem⟩ := h2
      obtain ⟨t, str, h3, h4, h5, h6⟩ := ih hmem he
      exact ⟨t, d :: str, by simp, by simpa [hc] using h4, .cons h5, h6⟩
    · refine ⟨s, [d], by simp, by simpa using hc, .single, ?_⟩
      intro e he hmem
      exact h2 ⟨e, he, hmem⟩

theorem WsRun.unique {s t t' : List (Tok O)} (h : WsRun s t) (h' : WsRun s t') : t = t' := by
  cases s with
  | nil =>
    obtain ⟨str, hne, _, hT, _⟩ := h
    obtain ⟨pre, h1, h2⟩ := hT
    simp at h1
    rw [h1.1] at h2
    exact absurd h2.symm hne
  | cons x s =>
    exact ((ok_wsRun (eoi := x.2) (u := ())).2 h |>.unique ((ok_wsRun (u := ())).2 h')).2

/-- Prepending a white space character to repetitions of a parser that accepts
runs of white space. -/
theorem reps_ws_cons {p : P O Unit} {eoi : Sp O} (hp : ∀ s t, WsRun s t → Ok p eoi s () t)
    {c : Char} {sp : Sp O} {s as t} (hc : c ∈ Cst.wsChars) (h : Reps p eoi s as t)
    (hf : Fails p eoi t) : ∃ as', Reps p eoi ((c, sp) :: s) as' t := by
  by_cases h2 : ∃ e, (chars s).head? = some e ∧ e ∈ Cst.wsChars
  · obtain ⟨e, he, hmem⟩ := h2
    obtain ⟨u, hu⟩ := wsRun_exists hmem he
    cases h with
    | nil => exact absurd hf (hp _ _ hu).not_fails
    | @cons _ a s1 as' _ ho hlt hr =>
      obtain ⟨_, rfl⟩ := ho.unique (hp _ _ hu)
      obtain ⟨str, h3, h4, h5, h6⟩ := hu
      refine ⟨() :: as', .cons (hp _ _ ⟨c :: str, by simp, by simpa [hc] using h4, .cons h5, h6⟩) ?_ hr⟩
      simp; omega
  · refine ⟨() :: as, .cons (hp _ _ ⟨[c], by simp, by simpa using hc, .single, ?_⟩) (by simp) h⟩
    intro e he hmem
    exact h2 ⟨e, he, hmem⟩

/-! ### White space -/

theorem newline_not_ws {c : Char} (h : c ∈ Cst.newlineChars) : c ∉ Cst.wsChars := by
  have : ∀ c ∈ Cst.newlineChars, c ∉ Cst.wsChars := by decide
  exact this c h

section
variable [Offset O]

/-- The text cannot begin white space. -/
def NoWs (s : Str) : Prop := (∀ c, s.head? = some c → c ∉ Cst.wsChars) ∧ ¬ ['/', '*'] <+: s

theorem failsC_ws {eoi : Sp O} {s} (h : NoWs (chars s)) : FailsC ws eoi s := by
  unfold ws
  rw [failsC_mapErr]
  exact failsC_orP (failsC_wsRun h.1) (failsC_mlComment h.2)

theorem ok_ws_run {eoi : Sp O} {s t} (h : WsRun s t) : Ok ws eoi s () t := by
  unfold ws
  rw [ok_mapErr]
  exact ok_orP_left (ok_wsRun.2 h)

theorem ok_ws_block {eoi : Sp O} {s t} {b : Block} (hb : b.Ok true)
    (hT : Takes s (Ws.block b).text t) : Ok ws eoi s () t := by
  unfold ws
  rw [ok_mapErr]
  refine ok_orP_right (failsC_wsRun ?_).fails (mlComment_complete hb hT)
  rw [hT.chars]
  simp [Ws.text, Cst.wsChars, Cst.uniSpaces]

theorem fails_ws_head {eoi : Sp O} {s} (h : Fails ws eoi s) :
    ∀ c, (chars s).head? = some c → c ∉ Cst.wsChars := by
  intro c hc hm
  obtain ⟨t, ht⟩ := wsRun_exists hm hc
  exact (ok_ws_run ht).not_fails h

/-- Characters of a sequence of white space. -/
def wssText (l : List Ws) : Str := l.flatMap Ws.text

theorem wsChars_text (str : Str) : wssText (str.map Ws.char) = str := by
  induction str with
  | nil => rfl
  | cons c str ih => simp [wssText, Ws.text] at ih ⊢; exact ih

theorem ws_sound {eoi : Sp O} {s u t} (h : Ok ws eoi s u t) :
    ∃ l : List Ws, l ≠ [] ∧ (∀ w ∈ l, w.Ok false) ∧ Takes s (wssText l) t := by
  unfold ws at h
  rw [ok_mapErr] at h
  rcases ok_orP.1 h with h | ⟨_, h⟩
  · obtain ⟨str, h1, h2, h3, _⟩ := ok_wsRun.1 h
    refine ⟨str.map Ws.char, by simpa using h1, ?_, by rw [wsChars_text]; exact h3⟩
    intro w hw
    obtain ⟨c, hc, rfl⟩ := List.mem_map.1 hw
    exact h2 c hc
  · obtain ⟨b, hb, hT⟩ := mlComment_sound h
    exact ⟨[.block b], by simp, by simpa [Ws.Ok] using hb, by simpa [wssText] using hT⟩

theorem reps_ws_sound {eoi : Sp O} {s as t} (h : Reps ws eoi s as t) :
    ∃ l : List Ws, (as ≠ [] → l ≠ []) ∧ (∀ w ∈ l, w.Ok false) ∧ Takes s (wssText l) t := by
  induction h with
  | nil => exact ⟨[], by simp, by simp, .nil⟩
  | cons h1 _ _ ih =>
    obtain ⟨l, hne, hl, hT⟩ := ws_sound h1
    obtain ⟨l', _, hl', hT'⟩ := ih
    refine ⟨l ++ l', by simp [hne], ?_, by simpa [wssText] using hT.trans hT'⟩
    intro w hw
    rcases List.mem_append.1 hw with h | h
    · exact hl w h
    · exact hl' w h

theorem reps_ws_complete {eoi : Sp O} {l : List Ws} {s t} (hl : ∀ w ∈ l, w.Ok true)
    (hT : Takes s (wssText l) t) (hf : Fails ws eoi t) : ∃ as, Reps ws eoi s as t := by
  induction l generalizing s with
  | nil => have := takes_nil.1 hT; subst this; exact ⟨[], .nil _⟩
  | cons w l ih =>
    obtain ⟨s1, h1, h2⟩ := (takes_append (a := w.text) (b := wssText l)).1 hT
    obtain ⟨as, has⟩ := ih (fun w hw => hl w (by simp [hw])) h2
    have hw := hl w (by simp)
    cases w with
    | char c =>
      obtain ⟨sp, s2, rfl, h3⟩ := takes_cons.1 h1
      have := takes_nil.1 h3; subst this
      exact reps_ws_cons (fun _ _ h => ok_ws_run h) hw has hf
    | block b =>
      refine ⟨() :: as, .cons (ok_ws_block hw h1) ?_ has⟩
      have := h1.length
      simp [Ws.text] at this
      omega

/-! ### Space inside a node -/

theorem escEnd_sound {eoi : Sp O} {s u t} (h : Ok (orP comment newline) eoi s u t) :
    ∃ e : EscEnd, e.Ok (chars t) ∧ Takes s e.text t := by
  rcases ok_orP.1 h with h | ⟨_, h⟩
  · obtain ⟨c, h1, h2⟩ := ok_comment.1 h
    exact ⟨.comment c, h2, h1⟩
  · obtain ⟨n, h1, h2⟩ := ok_newline.1 h
    exact ⟨.newline n, h2, h1⟩

theorem newline_text_head (n : Newline) : ∃ c ∈ Cst.newlineChars, n.text.head? = some c := by
  cases n <;> simp [Newline.text, Cst.newlineChars]

theorem newline_head {n : Newline} {f : Str} : ∃ c ∈ Cst.newlineChars, (n.text ++ f).head? = some c := by
  obtain ⟨c, h1, h2⟩ := newline_text_head n
  refine ⟨c, h1, ?_⟩
  obtain ⟨w, hw⟩ := head_eq_some.1 h2
  rw [hw]; rfl

theorem noWs_newline {c : Char} {f : Str} (hc : c ∈ Cst.newlineChars) (h : f.head? = some c) :
    NoWs f := by
  obtain ⟨w, rfl⟩ := head_eq_some.1 h
  refine ⟨by rintro d hd; simp at hd; subst hd; exact newline_not_ws hc, ?_⟩
  rintro ⟨x, hx⟩
  simp at hx
  rw [← hx.1] at hc
  revert hc; decide

theorem noWs_lit {c : Char} {f : Str} (hc : c ∉ Cst.wsChars) (hc' : c ≠ '/') : NoWs (c :: f) := by
  refine ⟨by simpa using hc, ?_⟩
  rintro ⟨x, hx⟩
  simp at hx
  exact hc' hx.1.symm

theorem noWs_slash {c : Char} {f : Str} (hc' : c ≠ '*') : NoWs ('/' :: c :: f) := by
  refine ⟨by simp [Cst.wsChars, Cst.uniSpaces], ?_⟩
  rintro ⟨x, hx⟩
  simp at hx
  exact hc' hx.1.symm

theorem noWs_nil : NoWs [] := ⟨by simp, by simp⟩

theorem escEnd_noWs {e : EscEnd} {f : Str} : NoWs (e.text ++ f) := by
  cases e with
  | comment c => exact noWs_slash (by decide)
  | newline n =>
    obtain ⟨c, h1, h2⟩ := newline_head (n := n) (f := f)
    exact noWs_newline h1 h2

theorem escEnd_complete {eoi : Sp O} {s t} {e : EscEnd} (he : e.Ok (chars t)) (h : Takes s e.text t) :
    Ok (orP comment newline) eoi s () t := by
  cases e with
  | comment c => exact ok_orP_left (ok_comment.2 ⟨c, h, he⟩)
  | newline n =>
    refine ok_orP_right (failsC_comment ?_).fails (ok_newline.2 ⟨n, h, he⟩)
    rw [h.chars]
    obtain ⟨c, h1, h2⟩ := newline_head (n := n) (f := chars t)
    obtain ⟨w, hw⟩ := head_eq_some.1 h2
    simp only [EscEnd.text, hw]
    rintro ⟨x, hx⟩
    simp at hx
    rw [← hx.1] at h1
    revert h1; decide

theorem escLine_sound {eoi : Sp O} {s u t} (h : Ok escLine eoi s u t) :
    ∃ l e, (Space.esc l e).Ok false (chars t) ∧ Takes s (Space.esc l e).text t := by
  unfold escLine at h
  obtain ⟨_, t1, h1, h2⟩ := ok_ignoreThen.1 h
  obtain ⟨_, t2, h3, h4⟩ := ok_ignoreThen.1 h1
  obtain ⟨h3', rfl⟩ := ok_just_takes.1 h3
  rw [ok_repeated eats_ws.consumes] at h4
  obtain ⟨l, _, hl, hT⟩ := reps_ws_sound h4.1
  obtain ⟨e, he, hT'⟩ := escEnd_sound h2
  exact ⟨l, e, ⟨hl, he⟩, h3'.trans (hT.trans hT')⟩

theorem escLine_complete {eoi : Sp O} {s t} {l e} (hok : (Space.esc l e).Ok true (chars t))
    (h : Takes s (Space.esc l e).text t) : Ok escLine eoi s () t := by
  obtain ⟨sp, s1, rfl, h1⟩ := takes_cons.1 h
  obtain ⟨s2, h2, h3⟩ := (takes_append (a := wssText l)).1 h1
  have hf : Fails ws eoi s2 := (failsC_ws (by rw [h3.chars]; exact escEnd_noWs)).fails
  obtain ⟨as, has⟩ := reps_ws_complete (eoi := eoi) hok.1 h2 hf
  unfold escLine
  exact ok_ignoreThen.2 ⟨as, s2, ok_ignoreThen.2 ⟨'\\', s1, ok_just.2 ⟨sp, rfl, rfl⟩,
    (ok_repeated eats_ws.consumes).2 ⟨has, hf⟩⟩, escEnd_complete hok.2 h3⟩

theorem failsC_escLine {eoi : Sp O} {s} (h : (chars s).head? ≠ some '\\') : FailsC escLine eoi s := by
  unfold escLine
  exact failsC_ignoreThen_left (failsC_ignoreThen_left (failsC_just_head.2 h))

/-- The text cannot begin space. -/
def NoSpace (s : Str) : Prop := NoWs s ∧ s.head? ≠ some '\\'

theorem failsC_nodeSpace {eoi : Sp O} {s} (h : NoSpace (chars s)) : FailsC nodeSpace eoi s :=
  failsC_orP (failsC_ws h.1) (failsC_escLine h.2)

theorem ok_nodeSpace_run {eoi : Sp O} {s t} (h : WsRun s t) : Ok nodeSpace eoi s () t :=
  ok_orP_left (ok_ws_run h)

theorem spacesText_append (l l' : List Space) :
    Cst.spacesText (l ++ l') = Cst.spacesText l ++ Cst.spacesText l' := by
  simp [Cst.spacesText]

theorem spacesOk_append {b : Bool} {f : Str} {l l' : List Space} :
    Cst.SpacesOk b f (l ++ l') ↔
      Cst.SpacesOk b (Cst.spacesText l' ++ f) l ∧ Cst.SpacesOk b f l' := by
  induction l with
  | nil => simp [Cst.SpacesOk]
  | cons x l ih => simp [Cst.SpacesOk, ih, spacesText_append, and_assoc]

theorem spacesOk_ws {b : Bool} {f : Str} {l : List Ws} :
    Cst.SpacesOk b f (l.map Space.ws) ↔ ∀ w ∈ l, w.Ok b := by
  induction l with
  | nil => simp [Cst.SpacesOk]
  | cons x l ih => simp [Cst.SpacesOk, ih, Space.Ok]

theorem spacesText_ws {l : List Ws} : Cst.spacesText (l.map Space.ws) = wssText l := by
  simp [Cst.spacesText, wssText, List.flatMap_map, Space.text]

theorem nodeSpace_sound {eoi : Sp O} {s u t} (h : Ok nodeSpace eoi s u t) :
    ∃ l : List Space, l ≠ [] ∧ Cst.SpacesOk false (chars t) l ∧ Takes s (Cst.spacesText l) t := by
  unfold nodeSpace at h
  rcases ok_orP.1 h with h | ⟨_, h⟩
  · obtain ⟨l, h1, h2, h3⟩ := ws_sound h
    exact ⟨l.map Space.ws, by simpa using h1, spacesOk_ws.2 h2, by rw [spacesText_ws]; exact h3⟩
  · obtain ⟨l, e, h1, h2⟩ := escLine_sound h
    refine ⟨[.esc l e], by simp, ⟨by simpa [Cst.spacesText] using h1, trivial⟩, ?_⟩
    simpa [Cst.spacesText] using h2

theorem reps_nodeSpace_sound {eoi : Sp O} {s as t} (h : Reps nodeSpace eoi s as t) :
    ∃ l : List Space, (as ≠ [] → l ≠ []) ∧ Cst.SpacesOk false (chars t) l ∧
      Takes s (Cst.spacesText l) t := by
  induction h with
  | nil => exact ⟨[], by simp, trivial, .nil⟩
  | cons h1 _ _ ih =>
    obtain ⟨l, hne, hl, hT⟩ := nodeSpace_sound h1
    obtain ⟨l', _, hl', hT'⟩ := ih
    refine ⟨l ++ l', by simp [hne], ?_, by rw [spacesText_append]; exact hT.trans hT'⟩
    rw [spacesOk_append, ← hT'.chars]
    exact ⟨hl, hl'⟩

theorem reps_nodeSpace_complete {eoi : Sp O} {l : List Space} {s t} (hl : Cst.SpacesOk true (chars t) l)
    (hT : Takes s (Cst.spacesText l) t) (hf : Fails nodeSpace eoi t) :
    ∃ as, (l ≠ [] → as ≠ []) ∧ Reps nodeSpace eoi s as t := by
  suffices h : ∃ as, Reps nodeSpace eoi s as t by
    obtain ⟨as, has⟩ := h
    refine ⟨as, ?_, has⟩
    rintro hne rfl
    cases has
    have := hT.length
    cases l with
    | nil => exact hne rfl
    | cons x l =>
      have : (Cst.spacesText (x :: l)).length = 0 := by omega
      cases x with
      | ws w => cases w <;> simp [Cst.spacesText, Space.text, Ws.text] at this
      | esc => simp [Cst.spacesText, Space.text] at this
  induction l generalizing s with
  | nil => have := takes_nil.1 hT; subst this; exact ⟨[], .nil _⟩
  | cons w l ih =>
    obtain ⟨s1, h1, h2⟩ := (takes_append (a := w.text) (b := Cst.spacesText l)).1 hT
    obtain ⟨hw, hl⟩ := hl
    obtain ⟨as, has⟩ := ih hl h2
    rw [← h2.chars] at hw
    cases w with
    | ws w =>
      cases w with
      | char c =>
        obtain ⟨sp, s2, rfl, h3⟩ := takes_cons.1 h1
        have := takes_nil.1 h3; subst this
        exact reps_ws_cons (fun _ _ h => ok_nodeSpace_run h) hw has hf
      | block b =>
        refine ⟨() :: as, .cons (ok_orP_left (ok_ws_block hw h1)) ?_ has⟩
        have := h1.length
        simp [Space.text, Ws.text] at this
        omega
    | esc l' e =>
      refine ⟨() :: as, .cons (ok_orP_right (failsC_ws ?_).fails (escLine_complete hw h1)) ?_ has⟩
      · rw [h1.chars]
        exact noWs_lit (by decide) (by decide)
      · have := h1.length
        simp [Space.text] at this
        omega

theorem ok_nodeSpaces {eoi : Sp O} {l : List Space} {s t} (hl : Cst.SpacesOk true (chars t) l)
    (hT : Takes s (Cst.spacesText l) t) (hf : Fails nodeSpace eoi t) :
    ∃ as, Ok (repeated nodeSpace) eoi s as t := by
  obtain ⟨as, _, has⟩ := reps_nodeSpace_complete hl hT hf
  exact ⟨as, (ok_repeated eats_nodeSpace.consumes).2 ⟨has, hf⟩⟩

theorem ok_nodeSpaces1 {eoi : Sp O} {l : List Space} {s t} (hl : Cst.SpacesOk true (chars t) l)
    (hne : l ≠ []) (hT : Takes s (Cst.spacesText l) t) (hf : Fails nodeSpace eoi t) :
    ∃ as, Ok (repeatedB 1 none nodeSpace) eoi s as t := by
  obtain ⟨as, h1, has⟩ := reps_nodeSpace_complete hl hT hf
  refine ⟨as, ok_repeatedB_of has (by simp) (Or.inr ⟨?_, hf⟩)⟩
  cases as with
  | nil => exact absurd rfl (h1 hne)
  | cons => simp

theorem nodeSpaces_sound {eoi : Sp O} {s as t} (h : Ok (repeated nodeSpace) eoi s as t) :
    ∃ l : List Space, Cst.SpacesOk false (chars t) l ∧ Takes s (Cst.spacesText l) t ∧
      Fails nodeSpace eoi t := by
  rw [ok_repeated eats_nodeSpace.consumes] at h
  obtain ⟨l, _, h1, h2⟩ := reps_nodeSpace_sound h.1
  exact ⟨l, h1, h2, h.2⟩

theorem nodeSpaces1_sound {eoi : Sp O} {s as t} (h : Ok (repeatedB 1 none nodeSpace) eoi s as t) :
    ∃ l : List Space, l ≠ [] ∧ Cst.SpacesOk false (chars t) l ∧ Takes s (Cst.spacesText l) t ∧
      Fails nodeSpace eoi t := by
  obtain ⟨h1, h2⟩ := ok_repeatedB eats_nodeSpace.consumes h
  obtain ⟨l, hne, h3, h4⟩ := reps_nodeSpace_sound h1
  rcases h2 with h2 | ⟨h2, h5⟩
  · simp at h2
  · refine ⟨l, hne ?_, h3, h4, h5⟩
    rintro rfl; simp at h2

theorem fails_nodeSpace_feff {eoi : Sp O} {s} (h : Fails nodeSpace eoi s) :
    (chars s).head? ≠ some '\ufeff' := by
  intro hc
  obtain ⟨t, ht⟩ := wsRun_exists (by decide) hc
  exact (ok_nodeSpace_run ht).not_fails h

/-! ### Space between nodes -/

/-- The text cannot begin a line. -/
def NoLine (s : Str) : Prop :=
  NoWs s ∧ (∀ c, s.head? = some c → c ∉ Cst.newlineChars) ∧ ¬ ['/', '/'] <+: s

theorem failsC_lineSpace {eoi : Sp O} {s} (h : NoLine (chars s)) : FailsC lineSpace eoi s :=
  failsC_orP (failsC_orP (fails_newline h.2.1) (failsC_ws h.1)) (failsC_comment h.2.2)

theorem ok_lineSpace_run {eoi : Sp O} {s t} (h : WsRun s t) : Ok lineSpace eoi s () t := by
  refine ok_orP_left (ok_orP_right (fails_newline ?_).fails (ok_ws_run h))
  intro c hc hm
  obtain ⟨str, h1, h2, h3, _⟩ := h
  cases str with
  | nil => exact h1 rfl
  | cons d str =>
    rw [h3.chars] at hc
    simp at hc
    subst hc
    exact newline_not_ws hm (h2 d (by simp))

theorem linesText_append (l l' : List Line) :
    Cst.linesText (l ++ l') = Cst.linesText l ++ Cst.linesText l' := by
  simp [Cst.linesText]

theorem linesOk_append {b : Bool} {f : Str} {l l' : List Line} :
    Cst.LinesOk b f (l ++ l') ↔
      Cst.LinesOk b (Cst.linesText l' ++ f) l ∧ Cst.LinesOk b f l' := by
  induction l with
  | nil => simp [Cst.LinesOk]
  | cons x l ih => simp [Cst.LinesOk, ih, linesText_append, and_assoc]

theorem linesOk_ws {b : Bool} {f : Str} {l : List Ws} :
    Cst.LinesOk b f (l.map Line.ws) ↔ ∀ w ∈ l, w.Ok b := by
  induction l with
  | nil => simp [Cst.LinesOk]
  | cons x l ih => simp [Cst.LinesOk, ih, Line.Ok]

theorem linesText_ws {l : List Ws} : Cst.linesText (l.map Line.ws) = wssText l := by
  simp [Cst.linesText, wssText, List.flatMap_map, Line.text]

theorem lineSpace_sound {eoi : Sp O} {s u t} (h : Ok lineSpace eoi s u t) :
    ∃ l : List Line, Cst.LinesOk false (chars t) l ∧ Takes s (Cst.linesText l) t := by
  unfold lineSpace at h
  rcases ok_orP.1 h with h | ⟨_, h⟩
  · rcases ok_orP.1 h with h | ⟨_, h⟩
    · obtain ⟨n, h1, h2⟩ := ok_newline.1 h
      exact ⟨[.newline n], ⟨h2, trivial⟩, by simpa [Cst.linesText, Line.text] using h1⟩
    · obtain ⟨l, _, h2, h3⟩ := ws_sound h
      exact ⟨l.map Line.ws, linesOk_ws.2 h2, by rw [linesText_ws]; exact h3⟩
  · obtain ⟨c, h1, h2⟩ := ok_comment.1 h
    exact ⟨[.comment c], ⟨h2, trivial⟩, by simpa [Cst.linesText, Line.text] using h1⟩

theorem lines_sound {eoi : Sp O} {s as t} (h : Ok (repeated lineSpace) eoi s as t) :
    ∃ l : List Line, Cst.LinesOk false (chars t) l ∧ Takes s (Cst.linesText l) t ∧
      Fails lineSpace eoi t := by
  rw [ok_repeated eats_lineSpace.consumes] at h
  obtain ⟨h, hf⟩ := h
  suffices hs : ∃ l : List Line, Cst.LinesOk false (chars t) l ∧ Takes s (Cst.linesText l) t by
    obtain ⟨l, h1, h2⟩ := hs
    exact ⟨l, h1, h2, hf⟩
  clear hf
  induction h with
  | nil => exact ⟨[], trivial, .nil⟩
  | cons h1 _ _ ih =>
    obtain ⟨l, hl, hT⟩ := lineSpace_sound h1
    obtain ⟨l', hl', hT'⟩ := ih
    refine ⟨l ++ l', ?_, by rw [linesText_append]; exact hT.trans hT'⟩
    rw [linesOk_append, ← hT'.chars]
    exact ⟨hl, hl'⟩

theorem ok_lines {eoi : Sp O} {l : List Line} {s t} (hl : Cst.LinesOk true (chars t) l)
    (hT : Takes s (Cst.linesText l) t) (hf : Fails lineSpace eoi t) :
    ∃ as, Ok (repeated lineSpace) eoi s as t := by
  suffices h : ∃ as, Reps lineSpace eoi s as t by
    obtain ⟨as, has⟩ := h
    exact ⟨as, (ok_repeated eats_lineSpace.consumes).2 ⟨has, hf⟩⟩
  induction l generalizing s with
  | nil => have := takes_nil.1 hT; subst this; exact ⟨[], .nil _⟩
  | cons w l ih =>
    obtain ⟨s1, h1, h2⟩ := (takes_append (a := w.text) (b := Cst.linesText l)).1 hT
    obtain ⟨hw, hl⟩ := hl
    obtain ⟨as, has⟩ := ih hl h2
    rw [← h2.chars] at hw
    have hlen := h1.length
    cases w with
    | newline n =>
      refine ⟨() :: as, .cons (ok_orP_left (ok_orP_left (ok_newline.2 ⟨n, h1, hw⟩))) ?_ has⟩
      have : 0 < n.text.length := by cases n <;> decide
      simp only [Line.text] at hlen
      omega
    | ws w =>
      cases w with
      | char c =>
        obtain ⟨sp, s2, rfl, h3⟩ := takes_cons.1 h1
        have := takes_nil.1 h3; subst this
        exact reps_ws_cons (fun _ _ h => ok_lineSpace_run h) hw has hf
      | block b =>
        refine ⟨() :: as, .cons (ok_orP_left (ok_orP_right (fails_newline ?_).fails
          (ok_ws_block hw h1))) ?_ has⟩
        · rw [h1.chars]; simp [Line.text, Ws.text, Cst.newlineChars]
        · simp [Line.text, Ws.text] at hlen
          omega
    | comment c =>
      have hc : chars s = '/' :: '/' :: (c.body ++ Cst.stopText c.stop ++ chars s1) := by
        rw [h1.chars]; simp [Line.text, LineComment.text]
      refine ⟨() :: as, .cons (ok_orP_right (fails_orP.2 ⟨(fails_newline ?_).fails,
        (failsC_ws ?_).fails⟩) (ok_comment.2 ⟨c, h1, hw⟩)) ?_ has⟩
      · rw [hc]; simp [Cst.newlineChars]
      · rw [hc]; exact noWs_slash (by decide)
      · simp [Line.text, LineComment.text] at hlen
        omega

/-! ### The end of a node -/

theorem nodeTerminator_sound {eoi : Sp O} {s u t} (h : Ok nodeTerminator eoi s u t) :
    ∃ e : Cst.Term, e.Ok (chars t) ∧ Takes s e.text t := by
  unfold nodeTerminator at h
  rcases ok_choice_cons.1 h with h | ⟨_, h⟩
  · obtain ⟨n, h1, h2⟩ := ok_newline.1 h
    exact ⟨.newline n, h2, h1⟩
  rcases ok_choice_cons.1 h with h | ⟨_, h⟩
  · obtain ⟨n, h1, h2⟩ := ok_comment.1 h
    exact ⟨.comment n, h2, h1⟩
  rcases ok_choice_cons.1 h with h | ⟨_, h⟩
  · obtain ⟨a, h⟩ := ok_ignored.1 h
    obtain ⟨h', rfl⟩ := ok_just_takes.1 h
    exact ⟨.semicolon, trivial, h'⟩
  rcases ok_choice_cons.1 h with h | ⟨_, h⟩
  · obtain ⟨rfl, rfl⟩ := ok_endP.1 h
    exact ⟨.eof, rfl, .nil⟩
  · simp at h

theorem nodeTerminator_complete {eoi : Sp O} {s t} {e : Cst.Term} (he : e.Ok (chars t))
    (hT : Takes s e.text t) : Ok nodeTerminator eoi s () t := by
  unfold nodeTerminator
  cases e with
  | newline n => exact ok_choice_cons.2 (Or.inl (ok_newline.2 ⟨n, hT, he⟩))
  | comment c =>
    refine ok_choice_cons.2 (Or.inr ⟨(fails_newline ?_).fails, ok_choice_cons.2 (Or.inl
      (ok_comment.2 ⟨c, hT, he⟩))⟩)
    rw [hT.chars]; simp [Cst.Term.text, LineComment.text, Cst.newlineChars]
  | semicolon =>
    refine ok_choice_cons.2 (Or.inr ⟨(fails_newline ?_).fails, ok_choice_cons.2 (Or.inr
      ⟨(failsC_comment ?_).fails, ok_choice_cons.2 (Or.inl ?_)⟩)⟩)
    · rw [hT.chars]; simp [Cst.Term.text, Cst.newlineChars]
    · rw [hT.chars]; simp [Cst.Term.text]
    · exact ok_ignored.2 ⟨';', ok_just_takes.2 ⟨hT, rfl⟩⟩
  | eof =>
    have := takes_nil.1 hT; subst this
    have := chars_eq_nil.1 he; subst this
    refine ok_choice_cons.2 (Or.inr ⟨(fails_newline ?_).fails, ok_choice_cons.2 (Or.inr
      ⟨(failsC_comment ?_).fails, ok_choice_cons.2 (Or.inr ⟨?_, ok_choice_cons.2 (Or.inl ?_)⟩)⟩)⟩)
    · simp
    · simp
    · rw [fails_ignored, fails_just_head]; simp
    · exact ok_endP.2 ⟨rfl, rfl⟩

end

end Knuffel
