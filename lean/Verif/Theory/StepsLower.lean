import Verif.Theory.StepsDoc
/-!
# Block comments opened and not closed take exponential time

`ml_comment` tries a nested comment first and, when it is not closed,
reads the same text again as ordinary characters.
-/

set_option linter.unusedSectionVars false
set_option linter.unusedVariables false

namespace Knuffel.Steps
open Cst

variable {O : Type}

/-- A space, and `n` times `/* `. -/
def opens : Nat → Str
  | 0 => [' ']
  | n + 1 => ' ' :: '/' :: '*' :: opens n

theorem opens_head (n) : ∃ w, opens n = ' ' :: w := by cases n <;> exact ⟨_, rfl⟩

/-- Nowhere is a comment closed. -/
def NoClose (s : Str) : Prop := ∀ u v, s ≠ u ++ '*' :: '/' :: v

theorem NoClose.tail {c s} (h : NoClose (c :: s)) : NoClose s := fun u v e => h (c :: u) v (by rw [e]; rfl)

theorem noClose_opens : ∀ n, NoClose (opens n)
  | 0 => by
    intro u v e
    have := congrArg List.length e
    simp [opens] at this
    omega
  | n + 1 => by
    intro u v e
    obtain ⟨w, hw⟩ := opens_head n
    have ih := noClose_opens n
    simp only [opens] at e
    match u with
    | [] => simp at e
    | [a] => simp at e
    | [a, b] =>
      rw [hw] at e
      simp at e
    | a :: b :: c :: u' =>
      simp only [List.cons_append, List.cons.injEq] at e
      exact ih u' v e.2.2.2

theorem suf_mlChoice (n : Nat) : Suf (mlChoice n : P O Unit) := by
  refine suf_choice ?_
  intro p hp
  simp only [List.mem_cons, List.not_mem_nil, or_false] at hp
  rcases hp with rfl | rfl | rfl
  · exact suf_mlCommentRec n
  · exact suf_ignored suf_filter
  · exact suf_ignored (suf_thenIgnore suf_just (suf_rewind suf_filter))

theorem fails_mlCommentRec {eoi : Sp O} {s : List (Tok O)} (h : NoClose (chars s)) (n : Nat) :
    Fails (Knuffel.mlCommentRec n) eoi s := by
  rcases (quiet_mlCommentRec n).cases eoi s with ⟨_, t, h1⟩ | h1
  · exfalso
    cases n with
    | zero => simp [Ok, Knuffel.mlCommentRec, Knuffel.tooDeep] at h1
    | succ n =>
      rw [mlCommentRec_succ, ok_delimitedBy] at h1
      obtain ⟨_, t1, _, t2, h1, h2, h3⟩ := h1
      obtain ⟨pre, hp, _⟩ := ok_beginComment.1 h1
      have hs : t2 <:+ t1 := by
        rw [← h2.2.2]; exact suf_ignored (suf_repeated (suf_mlChoice n)) _ _
      obtain ⟨pre2, hp2⟩ := hs
      have h3' := (ok_justStr_takes.1 h3).chars
      refine h (chars (pre ++ pre2)) (chars t) ?_
      rw [hp, ← hp2, ← List.append_assoc, chars_append, h3']
      rfl
  · exact h1.fails

/-- At least the cost of the nested comment. -/
theorem cost_mlItem_ge (n : Nat) (eoi : Sp O) (s) :
    (mlCommentRec n : PS O Unit).cost eoi s ≤ (mlItem n : PS O Unit).cost eoi s :=
  Nat.le_add_right _ _

theorem cost_mlItem_pos (n : Nat) (eoi : Sp O) (s : List (Tok O)) (h : NoClose (chars s)) :
    1 ≤ (mlItem n : PS O Unit).cost eoi s := by
  obtain ⟨e, he⟩ := fails_mlCommentRec (eoi := eoi) h n
  have he' : ((mlCommentRec n : PS O Unit).run eoi s).out = .error e := by rw [run_mlCommentRec]; exact he
  show 1 ≤ choiceCost eoi s [mlCommentRec n, ignored (noneOf '*'), ignored (thenIgnore (just '*') (rewind (noneOf '/')))]
  rw [choiceCost]
  simp only [he']
  rw [choiceCost]
  have : (ignored (noneOf '*') : PS O Unit).cost eoi s = 1 := rfl
  rw [this]
  omega

/-- An item of an unclosed comment is one character. -/
theorem mlItem_one {n : Nat} {eoi : Sp O} {c sp} {t : List (Tok O)} (h : NoClose (c :: chars t))
    (hc : c = '*' → ∃ d w, chars t = d :: w) :
    ∃ x, ((mlItem n : PS O Unit).run eoi ((c, sp) :: t)).out = .ok x ∧
      ((mlItem n : PS O Unit).run eoi ((c, sp) :: t)).rest = t := by
  rw [run_mlItem]
  have hf := fails_mlCommentRec (O := O) (eoi := eoi) (s := (c, sp) :: t) h n
  have hok : Ok (mlChoice n) eoi ((c, sp) :: t) () t := by
    unfold mlChoice
    rw [ok_choice_cons]
    refine .inr ⟨hf, ?_⟩
    rw [ok_choice_cons]
    by_cases h1 : c = '*'
    · subst h1
      obtain ⟨d, w, hd⟩ := hc rfl
      have hd' : d ≠ '/' := by rintro rfl; exact h [] w (by rw [hd]; rfl)
      obtain ⟨sp', t', rfl, ht'⟩ := chars_eq_cons.1 hd
      refine .inr ⟨?_, ?_⟩
      · simp [Fails, Knuffel.ignored, Knuffel.pmap, Knuffel.noneOf, Knuffel.filter, pfail]
      · rw [ok_choice_cons]
        refine .inl ?_
        simp [Ok, Knuffel.ignored, Knuffel.pmap, Knuffel.noneOf, Knuffel.filter, Knuffel.thenIgnore,
          Knuffel.bind, Knuffel.just, Knuffel.rewind, pok, hd']
    · refine .inl ?_
      simp [Ok, Knuffel.ignored, Knuffel.pmap, Knuffel.noneOf, Knuffel.filter, pok, h1]
  exact ⟨_, hok.2.1.choose_spec, hok.2.2⟩

theorem repCost_one {n : Nat} {eoi : Sp O} {c sp} {t : List (Tok O)} {g k : Nat} (h : NoClose (c :: chars t))
    (hc : c = '*' → ∃ d w, chars t = d :: w) :
    repCost (mlItem n) none eoi (g + 1) k ((c, sp) :: t) =
      (mlItem n : PS O Unit).cost eoi ((c, sp) :: t) + repCost (mlItem n) none eoi g (k + 1) t := by
  obtain ⟨x, h1, h2⟩ := mlItem_one (n := n) (eoi := eoi) (sp := sp) h hc
  rw [repCost]
  simp [h1, h2]

/-- The loop over the rest of the text costs no more than the comment. -/
theorem cost_mlCommentRec_ge {n : Nat} {eoi : Sp O} {p1 p2 : Sp O} {t : List (Tok O)} :
    repCost (mlItem n) none eoi (t.length + 1) 0 t ≤
      (mlCommentRec (n + 1) : PS O Unit).cost eoi (('/', p1) :: ('*', p2) :: t) := by
  have hb : Ok (Knuffel.beginComment '*') eoi (('/', p1) :: ('*', p2) :: t) () t :=
    ok_beginComment.2 ⟨[('/', p1), ('*', p2)], rfl, rfl⟩
  obtain ⟨_, ⟨alt, h1⟩, h2⟩ := hb
  have e : (mlCommentRec (n + 1) : PS O Unit) =
    thenIgnore (ignoreThen (beginComment '*') (ignored (repeated (mlItem n)))) (justStr "*/".toList) := rfl
  have g1 : (ignoreThen (beginComment '*') (ignored (repeated (mlItem n))) : PS O Unit).cost eoi
      (('/', p1) :: ('*', p2) :: t) ≤ (mlCommentRec (n + 1) : PS O Unit).cost eoi (('/', p1) :: ('*', p2) :: t) := by
    rw [e]; exact Nat.le_add_right _ _
  refine Nat.le_trans ?_ g1
  rcases then_ignoreThen (beginComment '*') (ignored (repeated (mlItem n))) eoi (('/', p1) :: ('*', p2) :: t) with
    ⟨e, _, h3, _⟩ | ⟨_, _, h4, _⟩
  · have h3' : (Knuffel.beginComment '*' eoi (('/', p1) :: ('*', p2) :: t)).out = .error e := h3
    rw [h1] at h3'; simp at h3'
  · have h2' : ((beginComment '*' : PS O Unit).run eoi (('/', p1) :: ('*', p2) :: t)).rest = t := h2
    rw [h4, h2']
    exact Nat.le_add_left _ _

theorem repCost_opens {eoi : Sp O} : ∀ n f g k (s : List (Tok O)), chars s = opens n → n ≤ f → 3 * n + 1 ≤ g →
    2 ^ n ≤ repCost (mlItem f) none eoi g k s := by
  intro n
  induction n with
  | zero =>
    intro f g k s hs _ hg
    obtain ⟨g, rfl⟩ : ∃ g', g = g' + 1 := ⟨g - 1, by omega⟩
    obtain ⟨sp, t, rfl, ht⟩ := chars_eq_cons.1 hs
    have hn := noClose_opens 0
    have hn' : NoClose (' ' :: chars t) := by rw [ht]; exact hn
    rw [repCost_one hn' (fun h => absurd h (by decide))]
    have := cost_mlItem_pos f eoi ((' ', sp) :: t) hn'
    simp; omega
  | succ n ih =>
    intro f g k s hs hf hg
    obtain ⟨g, rfl⟩ : ∃ g', g = g' + 1 + 1 + 1 := ⟨g - 3, by omega⟩
    obtain ⟨f, rfl⟩ : ∃ f', f = f' + 1 := ⟨f - 1, by omega⟩
    obtain ⟨sp, t, rfl, ht⟩ := chars_eq_cons.1 hs
    obtain ⟨sp1, t1, rfl, ht1⟩ := chars_eq_cons.1 ht
    obtain ⟨sp2, t2, rfl, ht2⟩ := chars_eq_cons.1 ht1
    have hn : NoClose (chars ((' ', sp) :: ('/', sp1) :: ('*', sp2) :: t2)) := by rw [hs]; exact noClose_opens _
    obtain ⟨w, hw⟩ := opens_head n
    rw [repCost_one (c := ' ') hn (fun h => absurd h (by decide)),
      repCost_one (c := '/') hn.tail (fun h => absurd h (by decide)),
      repCost_one (c := '*') hn.tail.tail (fun _ => ⟨' ', w, by rw [ht2, hw]⟩)]
    have h1 := cost_mlItem_ge (f + 1) eoi (('/', sp1) :: ('*', sp2) :: t2)
    have h2 := cost_mlCommentRec_ge (n := f) (eoi := eoi) (p1 := sp1) (p2 := sp2) (t := t2)
    have hlen : t2.length = (opens n).length := by rw [← ht2]; simp [chars]
    have hlo : ∀ n, (opens n).length = 3 * n + 1 := by
      intro n
      induction n with
      | zero => rfl
      | succ n ih => simp [opens, ih]; omega
    have h3 := ih f (t2.length + 1) 0 t2 ht2 (by omega) (by rw [hlen, hlo]; omega)
    have h4 := ih (f + 1) g (k + 1 + 1 + 1) t2 ht2 (by omega) (by omega)
    rw [Nat.pow_succ]
    omega

variable [Offset O]

theorem cost_mlComment_ge {eoi : Sp O} {s : List (Tok O)} {n} (hs : chars s = '/' :: '*' :: opens n) :
    2 ^ n ≤ (mlComment : PS O Unit).cost eoi s := by
  obtain ⟨sp, t, rfl, ht⟩ := chars_eq_cons.1 hs
  obtain ⟨sp1, t1, rfl, ht1⟩ := chars_eq_cons.1 ht
  have hlen : t1.length = 3 * n + 1 := by
    have : t1.length = (opens n).length := by rw [← ht1]; simp [chars]
    rw [this]
    clear this ht1 ht hs
    induction n with
    | zero => rfl
    | succ n ih => simp [opens, ih]; omega
  have h1 := cost_mlCommentRec_ge (n := t1.length + 2) (eoi := eoi) (p1 := sp) (p2 := sp1) (t := t1)
  refine Nat.le_trans ?_ h1
  exact repCost_opens n _ _ _ _ ht1 (by omega) (by omega)

theorem cost_lineSpaces_ge {eoi : Sp O} {s : List (Tok O)} {n} (hs : chars s = '/' :: '*' :: opens n) :
    2 ^ n ≤ (repeated lineSpace : PS O (List Unit)).cost eoi s := by
  have h1 : (lineSpace : PS O Unit).cost eoi s ≤ (repeated lineSpace : PS O (List Unit)).cost eoi s := by
    show _ ≤ repCost lineSpace none eoi (s.length + 1) 0 s
    rw [repCost]
    simp
  have h2 : (orP newline ws : PS O Unit).cost eoi s ≤ (lineSpace : PS O Unit).cost eoi s := Nat.le_add_right _ _
  have hnl : ((newline : PS O Unit).run eoi s).clean = false := by
    rw [run_newline]
    have : FailsC Knuffel.newline eoi s := fails_newline (by rw [hs]; intro c hc; simp at hc; subst hc; decide)
    obtain ⟨e, he⟩ := this.2
    simp [PRes.clean, he]
  have h3 : (ws : PS O Unit).cost eoi s ≤ (orP newline ws : PS O Unit).cost eoi s := by
    show _ ≤ newline.cost eoi s + if (newline.run eoi s).clean then 0 else ws.cost eoi s
    rw [hnl]; simp
  have hrep : ((ignored (repeatedB 1 none wsChar) : PS O Unit).run eoi s).clean = false := by
    obtain ⟨sp, t, rfl, ht⟩ := chars_eq_cons.1 hs
    have hw : ∃ e, (Knuffel.wsChar eoi (('/', sp) :: t)).out = .error e := by
      have h0 : isWsChar '/' = false := by decide
      simp [Knuffel.wsChar, Knuffel.ignored, Knuffel.pmap, Knuffel.filter, h0, pfail]
    obtain ⟨e, he⟩ := hw
    show (Knuffel.ignored (Knuffel.repeatedB 1 none Knuffel.wsChar) eoi (('/', sp) :: t)).clean = false
    unfold Knuffel.ignored Knuffel.pmap Knuffel.repeatedB
    rw [repGo]
    simp [he, PRes.clean]
  have h4 : (mlComment : PS O Unit).cost eoi s ≤ (ws : PS O Unit).cost eoi s := by
    show _ ≤ (orP (ignored (repeatedB 1 none wsChar)) mlComment : PS O Unit).cost eoi s
    show _ ≤ (ignored (repeatedB 1 none wsChar)).cost eoi s +
      if ((ignored (repeatedB 1 none wsChar) : PS O Unit).run eoi s).clean then 0 else mlComment.cost eoi s
    rw [hrep]; simp
  exact Nat.le_trans (cost_mlComment_ge hs) (Nat.le_trans h4 (Nat.le_trans h3 (Nat.le_trans h2 h1)))

theorem cost_document_ge {eoi : Sp O} {s : List (Tok O)} {n} (hs : chars s = '/' :: '*' :: opens n) :
    2 ^ n ≤ (document : PS O (Document (Sp O))).cost eoi s := by
  have h1 : (repeated lineSpace : PS O (List Unit)).cost eoi s ≤ (nodesRec (s.length + 1)).cost eoi s := by
    show _ ≤ (separatedBy (nodeItem (nodesRec s.length)) (repeated lineSpace)).cost eoi s
    exact Nat.le_add_right _ _
  have h2 : (nodesRec (s.length + 1)).cost eoi s ≤ (document : PS O (Document (Sp O))).cost eoi s :=
    Nat.le_add_right _ _
  exact Nat.le_trans (cost_lineSpaces_ge hs) (Nat.le_trans h1 h2)

end Knuffel.Steps
