import Verif.Theory.Blame
import Verif.Theory.LeftLeaf
import Verif.Theory.TruthDoc
/-!
# Two texts with the same beginning: the lexical rules
-/

set_option linter.unusedSimpArgs false
set_option linter.unusedSectionVars false
set_option linter.unusedVariables false

namespace Knuffel
open Cst

variable {O α β γ : Type} {C : Twin O} {k : Bool} {n : Nat}

theorem excl_quiet {p q : P O α} (h : Quiet p) : Excl p q := fun eoi s _ _ hne => absurd (h eoi s) hne

/-! ### Comments and spaces -/

theorem bl_beginComment {c} : Bl C k n (beginComment c) (beginComment c) := bl_just.mapErr.ignoreThen bl_just.ignored

theorem bl_newline : Bl C k n newline newline := by
  have h1 : Bl C k n (ignoreThen (orNot (just '\r')) (just '\n')) (ignoreThen (orNot (just '\r')) (just '\n')) :=
    bl_just.orNot.ignoreThen bl_just
  have h2 := h1.orP (bl_just (c := '\r')) (excl_quiet quiet_crlf)
  have h3 := h2.orP (bl_just (c := '\x0c')) (excl_quiet (quiet_orP quiet_crlf (quiet_just _)))
  have h4 := h3.orP (bl_just (c := '\u0085')) (excl_quiet (quiet_orP (quiet_orP quiet_crlf (quiet_just _)) (quiet_just _)))
  have h5 := h4.orP (bl_just (c := '\u2028')) (excl_quiet (quiet_orP (quiet_orP (quiet_orP quiet_crlf (quiet_just _)) (quiet_just _)) (quiet_just _)))
  have h6 := h5.orP (bl_just (c := '\u2029')) (excl_quiet (quiet_orP (quiet_orP (quiet_orP (quiet_orP quiet_crlf (quiet_just _)) (quiet_just _)) (quiet_just _)) (quiet_just _)))
  exact h6.ignored.mapErr

theorem bl_comment : Bl C k n comment comment :=
  (bl_beginComment.seq (bl_newline.orP bl_endP (excl_quiet quiet_newline)).takeUntil).ignored

theorem Touch.mapErrWithSpan {f : PErr O → Sp O → PErr O} {p : P O α} {eoi : Sp O} {s} {m} (h : Touch m (p eoi s)) :
    Touch m (mapErrWithSpan f p eoi s) := by
  cases ho : (p eoi s).out with
  | ok x => exact (touch_ok' (a := x.1) (alt := x.2) (mapErrWithSpan_ok.2 ho)).2 ((touch_ok' (a := x.1) (alt := x.2) ho).1 h)
  | error e =>
    refine (touch_error' (e := ⟨e.rem, f e.err (spanSince eoi s (p eoi s).rest)⟩) ?_).2 ((touch_error' ho).1 h)
    simp [Knuffel.mapErrWithSpan, ho]

theorem touch_just {c} {sp : Sp O} {eoi : Sp O} {t} : Touch t.length (just c eoi ((c, sp) :: t)) :=
  (touch_ok' (a := c) (alt := none) (by simp [just, pok])).2 (Or.inr (by simp [just, pok]))

theorem touch_beginComment {c} {sp : Sp O} {eoi : Sp O} {t} : Touch t.length (beginComment c eoi (('/', sp) :: t)) := by
  unfold beginComment
  refine Touch.bind ?_ (fun _ => in_just.pmap)
  exact (touch_ok' (a := '/') (alt := none) (by simp [mapErr, just, pok])).2 (Or.inr (by simp [mapErr, just, pok]))

/-- The same text is taken before another end. -/
theorem takes_swap {a b v v' : List (Tok O)} {w : Str} (h : Takes (a ++ v) w (b ++ v)) : Takes (a ++ v') w (b ++ v') := by
  obtain ⟨pre, h1, h2⟩ := h
  rw [← List.append_assoc] at h1
  refine ⟨pre, ?_, h2⟩
  rw [← List.append_assoc, List.append_cancel_right h1]

/-- What remains of the first text is longer than `v`: it ends in the common part. -/
theorem takes_split {u t v : List (Tok O)} {w : Str} (h : Takes (u ++ v) w t) (hl : v.length ≤ t.length) :
    ∃ b, t = b ++ v ∧ b <:+ u := by
  obtain ⟨pre, h1, -⟩ := h
  have ht : t <:+ u ++ v := ⟨pre, h1.symm⟩
  have hv : v <:+ u ++ v := List.suffix_append _ _
  obtain ⟨b, hb⟩ := List.suffix_of_suffix_length_le hv ht hl
  subst hb
  exact ⟨b, rfl, suf_of_append ht⟩

section
variable [Offset O]

theorem in_mlComment : In (mlComment : P O Unit) := fun e n s hs =>
  trR_mapErrWithSpan (tr_mlCommentRec _ s hs) (fun _ _ h => h)

theorem fails_mlComment_start {eoi : Sp O} {s} (h : ¬ ['/', '*'] <+: chars s) : Fails mlComment eoi s := by
  show Fails (mapErrWithSpan mlCommentErr (mlCommentRec (s.length + 1))) eoi s
  exact fails_mapErrWithSpan.2 (failsC_mlCommentRec h).fails

theorem Ok.rel {v v' w : List (Tok O)} {p p' : P O α} {eoi eoi' : Sp O} {s s' a} (h : Ok p eoi s a (w ++ v))
    (h' : Ok p' eoi' s' a (w ++ v')) : Pair v v' (p eoi s) (p' eoi' s') := by
  obtain ⟨_, ⟨alt, h1⟩, h2⟩ := h
  obtain ⟨_, ⟨alt', h1'⟩, h2'⟩ := h'
  exact rel_ok h1 h1' h2 h2'

theorem Ok.touch {p : P O α} {eoi : Sp O} {s a t m} (h : Ok p eoi s a t) (ht : t.length ≤ m) : Touch m (p eoi s) := by
  obtain ⟨_, ⟨alt, h1⟩, h2⟩ := h
  exact (touch_ok' h1).2 (Or.inr (by rw [h2]; exact ht))

theorem rel_fails {v v' : List (Tok O)} {p p' : P O α} {eoi eoi' : Sp O} {s s'} (h : Fails p eoi s)
    (h' : Fails p' eoi' s') : Pair v v' (p eoi s) (p' eoi' s') := by
  obtain ⟨e, h⟩ := h
  obtain ⟨e', h'⟩ := h'
  exact rel_fail h h'

theorem noTie_suffix {s t : List (Tok O)} (h : NoTie (chars t)) (hs : s <:+ t) : NoTie (chars s) := by
  obtain ⟨pre, rfl⟩ := hs
  rw [chars_append] at h
  exact h.right

theorem bl_mlComment (hT : NoTie (chars (C.U ++ C.v))) : Bl C k n mlComment mlComment := by
  refine .of in_mlComment ?_
  intro x u hu hn _
  have hs : x :: (u ++ C.v) <:+ C.U ++ C.v := by
    obtain ⟨pre, h⟩ := hu
    exact ⟨pre, by rw [← h]; simp⟩
  have hts := noTie_suffix hT hs
  by_cases hp : ['/', '*'] <+: chars (x :: u)
  · obtain ⟨r, hr⟩ := hp
    obtain ⟨w, hTw, -⟩ := takes_of_chars (s := x :: u) (a := ['/', '*']) (b := r) hr.symm
    have hTv : Takes (x :: (u ++ C.v)) ['/', '*'] (w ++ C.v) := by
      obtain ⟨pre, h1, h2⟩ := hTw
      exact ⟨pre, by rw [← List.cons_append, h1]; simp, h2⟩
    rcases quiet_mlComment.cases C.eoi (x :: (u ++ C.v)) with ⟨_, t, hok⟩ | hf
    · obtain ⟨b, hb, hTb⟩ := mlComment_sound hok
      by_cases hl : t.length ≤ C.v.length
      · exact Or.inl (hok.touch hl)
      · have hb' : b.Ok true := by
          refine hb.strict ?_
          have := hTb.chars
          rw [this] at hts
          have h2 : NoTie (Ws.block b).text := hts.left
          simp only [Ws.text] at h2
          exact h2.tail.tail
        obtain ⟨b2, rfl, -⟩ := takes_split (u := x :: u) (v := C.v) hTb (by omega)
        have hTb' := takes_swap (a := x :: u) (v' := C.v') hTb
        exact hok.rel (mlComment_complete (eoi := C.eoi') hb' hTb')
    · left
      have hx : afterComment 1 (chars (w ++ C.v)) = none := by
        cases ha : afterComment 1 (chars (w ++ C.v)) with
        | none => rfl
        | some f =>
          exfalso
          obtain ⟨b, hb, hbt⟩ := afterComment_iff.1 ha
          obtain ⟨t, h1, -⟩ := takes_of_chars (s := x :: (u ++ C.v)) (a := (Ws.block b).text) (b := f) (by
            rw [hTv.chars, hbt]; simp [Ws.text])
          exact (mlComment_complete (eoi := C.eoi) hb h1).not_fails hf.fails
      obtain ⟨e, _, h2, h3, _⟩ := open_mlCommentRec (eoi := C.eoi) hTv rfl (by
        rw [hTv.chars] at hts; exact hts.right) hx
      show Touch _ (mapErrWithSpan mlCommentErr (mlCommentRec ((x :: (u ++ C.v)).length + 1)) C.eoi (x :: (u ++ C.v)))
      exact Touch.mapErrWithSpan ((touch_error' h2).2 (by omega))
  · obtain ⟨c, sp⟩ := x
    by_cases hc : c = '/'
    · subst hc
      cases u with
      | nil =>
        left
        show Touch _ (mapErrWithSpan mlCommentErr (mlCommentRec _) C.eoi _)
        refine Touch.mapErrWithSpan ?_
        rw [mlCommentRec_succ]
        refine Touch.bind (Touch.bind touch_beginComment ?_) ?_
        · intro _
          exact (in_choice (by
            intro p hp
            simp only [List.mem_cons, List.not_mem_nil, or_false] at hp
            rcases hp with rfl | rfl | rfl
            · exact fun _ _ => tr_mlCommentRec _
            · exact in_filter.pmap
            · exact fun _ _ => tr_ignored (tr_thenIgnore (tr_just _) (tr_rewind (tr_filter _))))).repeated.pmap
        · intro _
          exact in_justStr.pmap
      | cons y u =>
        have h : ∀ v : List (Tok O), ¬ ['/', '*'] <+: chars (('/', sp) :: (y :: u ++ v)) := by
          intro v h
          apply hp
          obtain ⟨r, h⟩ := h
          simp [chars] at h ⊢
          exact h.1
        exact rel_fails (fails_mlComment_start (h _)) (fails_mlComment_start (h _))
    · have h : ∀ v : List (Tok O), ¬ ['/', '*'] <+: chars ((c, sp) :: (u ++ v)) := by
        intro v h
        obtain ⟨r, h⟩ := h
        simp [chars] at h
        exact hc h.1.symm
      exact rel_fails (fails_mlComment_start (h _)) (fails_mlComment_start (h _))

theorem bl_ws (hT : NoTie (chars (C.U ++ C.v))) : Bl C k n ws ws :=
  (((bl_filter.ignored.repeatedB (by simp) (Or.inl (by omega))).ignored.weaken).orP (bl_mlComment hT)
    (excl_quiet (quiet_pmap (quiet_repeatedB (quiet_pmap (quiet_filter _)))))).mapErr

theorem bl_escLine (hT : NoTie (chars (C.U ++ C.v))) : Bl C k n escLine escLine :=
  (bl_just.ignoreThen (bl_ws hT).repeated).ignoreThen (bl_comment.orP bl_newline (excl_quiet quiet_comment))

theorem bl_nodeSpace (hT : NoTie (chars (C.U ++ C.v))) : Bl C k n nodeSpace nodeSpace :=
  (bl_ws hT).orP (bl_escLine hT) (excl_quiet quiet_ws)

theorem bl_lineSpace (hT : NoTie (chars (C.U ++ C.v))) : Bl C k n lineSpace lineSpace :=
  (bl_newline.orP (bl_ws hT) (excl_quiet quiet_newline)).orP bl_comment (excl_quiet (quiet_orP quiet_newline quiet_ws))

/-! ### What the spaces end with -/

theorem ed_mono {b} {p : P O α} (h : Ed false p) : Ed b p := fun eoi s x ho => by
  rcases h eoi s x ho with h | ⟨h, _⟩ | h
  · exact Or.inl h
  · cases h
  · exact Or.inr (Or.inr h)

theorem ed_just {c} (hc : wordy c = false) : Ed false (just c : P O Char) := by
  intro eoi s x ho
  obtain ⟨sp, h, -⟩ := ok_just.1 (Quiet.ok (quiet_just c) (a := x.1) (alt := x.2) ho)
  exact Or.inr (Or.inr ⟨[], (c, sp), h, hc⟩)

theorem ed_filter {f} (hf : ∀ c, f c = true → wordy c = false) : Ed false (filter f : P O Char) := by
  intro eoi s x ho
  unfold filter at ho ⊢
  cases s with
  | nil => simp [pfail] at ho
  | cons y s =>
    by_cases hy : f y.1 = true
    · exact Or.inr (Or.inr ⟨[], y, by simp [hy, pok], hf _ hy⟩)
    · simp [hy, pfail] at ho

theorem ed_pmap {b} {f : α → β} {p : P O α} (h : Ed b p) : Ed b (pmap f p) := by
  intro eoi s x ho
  obtain ⟨a, h1, -⟩ := pmap_ok_inv (b := x.1) (alt := x.2) ho
  exact h eoi s _ h1

theorem ed_mapErr {b} {f} {p : P O α} (h : Ed b p) : Ed b (mapErr f p) := fun eoi s x ho => h eoi s x (mapErr_ok.1 ho)

theorem ed_orP {b} {p q : P O α} (hq : Quiet p) (h : Ed b p) (h2 : Ed b q) : Ed b (orP p q) := by
  intro eoi s x ho
  rcases orP_ok_inv hq (x := x.1) (alt := x.2) ho with ⟨h3, h4⟩ | ⟨_, _, _, h3, _, h4⟩
  · rw [h4]; exact h eoi s _ h3
  · rw [h4]; exact h2 eoi s _ h3

/-- The second part ends it. -/
theorem ed_bind {p : P O α} {f : α → P O β} (hs : Suf p) (h : ∀ a, Ed false (f a)) : Ed false (bind p f) := by
  intro eoi s x ho
  obtain ⟨a, _, _, h1, h2, _, h3⟩ := bind_ok_inv (b := x.1) (alt := x.2) ho
  rw [h3]
  rcases h a eoi _ _ h2 with h | ⟨h, _⟩ | ⟨pre, y, h, hy⟩
  · exact Or.inl h
  · cases h
  · obtain ⟨pre2, h4⟩ := hs eoi s
    exact Or.inr (Or.inr ⟨pre2 ++ pre, y, by rw [List.append_assoc, ← h, h4], hy⟩)

/-- The second part may be empty. -/
theorem ed_bind' {b} {p : P O α} {f : α → P O β} (hs : Suf p) (hp : Ed b p) (h : ∀ a, Ed true (f a)) : Ed b (bind p f) := by
  intro eoi s x ho
  obtain ⟨a, _, _, h1, h2, _, h3⟩ := bind_ok_inv (b := x.1) (alt := x.2) ho
  rw [h3]
  rcases h a eoi _ _ h2 with h | ⟨_, h⟩ | ⟨pre, y, h, hy⟩
  · exact Or.inl h
  · rw [h]; exact hp eoi s _ h1
  · obtain ⟨pre2, h4⟩ := hs eoi s
    exact Or.inr (Or.inr ⟨pre2 ++ pre, y, by rw [List.append_assoc, ← h, h4], hy⟩)

theorem ed_repGo {p : P O α} (hs : Suf p) (h : Ed true p) {mn mx} {eoi : Sp O} : ∀ fuel {outs errs alt pan s x},
    (repGo p mn mx eoi fuel outs errs alt pan s).out = .ok x →
    (repGo p mn mx eoi fuel outs errs alt pan s).rest = [] ∨ (repGo p mn mx eoi fuel outs errs alt pan s).rest = s ∨
      ∃ pre y, s = pre ++ y :: (repGo p mn mx eoi fuel outs errs alt pan s).rest ∧ wordy y.1 = false := by
  intro fuel
  induction fuel with
  | zero => intro outs errs alt pan s x _; exact Or.inr (Or.inl rfl)
  | succ f ih =>
    intro outs errs alt pan s x ho
    by_cases hmx : mx = some outs.length
    · exact Or.inr (Or.inl (by simp [repGo, hmx]))
    · unfold repGo at ho ⊢
      rw [if_neg hmx] at ho ⊢
      cases h1 : (p eoi s).out with
      | error e =>
        simp only [h1] at ho ⊢
        split at ho
        · cases ho
        · rw [if_neg (by assumption)]; exact Or.inr (Or.inl rfl)
      | ok y =>
        simp only [h1] at ho ⊢
        have hp := h eoi s _ h1
        split at ho
        · rename_i hl
          rw [if_pos hl]
          rcases ih ho with h2 | h2 | ⟨pre, z, h2, hz⟩
          · exact Or.inl h2
          · rw [h2]
            rcases hp with h | ⟨_, h⟩ | h
            · exact Or.inl h
            · exact Or.inr (Or.inl h)
            · exact Or.inr (Or.inr h)
          · obtain ⟨pre2, h4⟩ := hs eoi s
            exact Or.inr (Or.inr ⟨pre2 ++ pre, z, by rw [List.append_assoc, ← h2, h4], hz⟩)
        · rename_i hl
          rw [if_neg hl]
          rcases hp with h | ⟨_, h⟩ | h
          · exact Or.inl h
          · exact Or.inr (Or.inl h)
          · exact Or.inr (Or.inr h)

theorem ed_repeatedB {mn mx} {p : P O α} (hs : Suf p) (h : Ed true p) : Ed true (repeatedB mn mx p) := by
  intro eoi s x ho
  rcases ed_repGo hs h _ ho with h | h | h
  · exact Or.inl h
  · exact Or.inr (Or.inl ⟨rfl, h⟩)
  · exact Or.inr (Or.inr h)

theorem ed_eats {p : P O α} (h : Ed true p) (he : Eats 1 p) : Ed false p := by
  intro eoi s x ho
  rcases h eoi s x ho with h | ⟨_, h⟩ | h
  · exact Or.inl h
  · have := he eoi s _ ho
    rw [h] at this; omega
  · exact Or.inr (Or.inr h)

theorem ed_beginComment {c} (hc : wordy c = false) : Ed false (beginComment c : P O Unit) :=
  ed_bind (suf_mapErr suf_just) (fun _ => ed_pmap (ed_just hc))

theorem ed_newline : Ed false (newline : P O Unit) := by
  intro eoi s x ho
  obtain ⟨nl, hT, -⟩ := ok_newline.1 (Quiet.ok quiet_newline (a := x.1) (alt := x.2) ho)
  obtain ⟨pre, h1, h2⟩ := hT
  refine Or.inr (Or.inr ?_)
  have : ∃ p c, nl.text = p ++ [c] ∧ wordy c = false := by
    cases nl
    all_goals first | exact ⟨[], _, rfl, by decide⟩ | exact ⟨['\r'], _, rfl, by decide⟩
  obtain ⟨p, c, h3, h4⟩ := this
  rw [h3] at h2
  obtain ⟨a, b, rfl, -, hb⟩ := chars_eq_append.1 h2
  obtain ⟨sp, t, rfl, ht⟩ := chars_eq_cons.1 hb
  have : t = [] := by simpa [chars] using ht
  subst this
  exact ⟨a, (c, sp), by rw [List.append_assoc] at h1; exact h1, h4⟩

theorem ed_takeUntil {p : P O β} (hs : Suf p) (h : Ed false p) : Ed false (takeUntil p) := by
  have key : ∀ (eoi : Sp O) fuel {outs alt pan s x}, (takeUntilGo p eoi fuel outs alt pan s).out = .ok x →
      (takeUntilGo p eoi fuel outs alt pan s).rest = [] ∨
      ∃ pre y, s = pre ++ y :: (takeUntilGo p eoi fuel outs alt pan s).rest ∧ wordy y.1 = false := by
    intro eoi fuel
    induction fuel with
    | zero => intro outs alt pan s x ho; simp [takeUntilGo, pfail] at ho
    | succ f ih =>
      intro outs alt pan s x ho
      unfold takeUntilGo at ho ⊢
      cases h1 : (p eoi s).out with
      | ok y =>
        simp only [h1] at ho ⊢
        rcases h eoi s _ h1 with h | ⟨h, _⟩ | h
        · exact Or.inl h
        · cases h
        · exact Or.inr h
      | error e =>
        simp only [h1] at ho ⊢
        cases s with
        | nil => simp only at ho; cases ho
        | cons z s =>
          simp only at ho ⊢
          rcases ih ho with h2 | ⟨pre, y, h2, hy⟩
          · exact Or.inl h2
          · exact Or.inr ⟨z :: pre, y, by rw [List.cons_append, ← h2], hy⟩
  intro eoi s x ho
  rcases key eoi _ ho with h | h
  · exact Or.inl h
  · exact Or.inr (Or.inr h)

theorem ed_endP : Ed false (endP : P O Unit) := by
  intro eoi s x ho
  cases s with
  | nil => exact Or.inl rfl
  | cons y s => simp [endP, pfail] at ho

theorem ed_comment : Ed false (comment : P O Unit) :=
  ed_pmap (ed_bind (suf_beginComment) (fun _ => ed_pmap (ed_takeUntil (suf_orP suf_newline suf_endP)
    (ed_orP quiet_newline ed_newline ed_endP))))

theorem ed_mlComment : Ed false (mlComment : P O Unit) := by
  intro eoi s x ho
  obtain ⟨b, -, hT⟩ := mlComment_sound (Quiet.ok quiet_mlComment (a := x.1) (alt := x.2) ho)
  obtain ⟨pre, h1, h2⟩ := hT
  have : (Ws.block b).text = ('/' :: '*' :: b.text ++ ['*']) ++ ['/'] := by simp [Ws.text]
  rw [this] at h2
  obtain ⟨a, d, rfl, -, hb⟩ := chars_eq_append.1 h2
  obtain ⟨sp, t, rfl, ht⟩ := chars_eq_cons.1 hb
  have : t = [] := by simpa [chars] using ht
  subst this
  exact Or.inr (Or.inr ⟨a, ('/', sp), by rw [List.append_assoc] at h1; exact h1, show wordy '/' = false by decide⟩)

theorem wordy_space {c} (h : isWsChar c = true) : wordy c = false := by
  simp [wordy, h]

theorem ed_ws : Ed false (ws : P O Unit) :=
  ed_mapErr (ed_orP (quiet_pmap (quiet_repeatedB (quiet_pmap (quiet_filter _))))
    (ed_eats (ed_pmap (ed_repeatedB (suf_ignored suf_filter) (ed_mono (ed_pmap (ed_filter fun _ => wordy_space)))))
      (eats_ignored (eats_repeatedB (suf_ignored suf_filter) (eats_ignored eats_filter) (by decide) (by simp))))
    ed_mlComment)

theorem ed_escLine : Ed false (escLine : P O Unit) :=
  ed_bind (suf_ignoreThen suf_just (suf_repeated suf_ws)) (fun _ => ed_orP quiet_comment ed_comment ed_newline)

theorem ed_nodeSpace : Ed false (nodeSpace : P O Unit) := ed_orP quiet_ws ed_ws ed_escLine

/-! ### Strings -/

theorem bl_rawString : Bl C k n rawString rawString := by
  unfold rawString
  refine (Bl.bind ((bl_just.ignoreThen (bl_just.repeated).pmap).thenIgnore bl_just) ?_).pmap
  intro m
  refine Bl.mapErrWithSpan (Bl.takeUntil (bl_just.ignoreThen (Bl.ignored (bl_just.repeatedB (by simp) (Or.inr ?_)))))
  intro eoi s a alt h
  exact (just_ok_head h).2.2

theorem in_escChar : In (escChar : P O Char) := by
  intro e n
  refine tr_orP (tr_filterMap ?_) (tr_ignoreThen (tr_just _) (tr_recoverSkipUntil ?_ (fun _ h => h)))
  · intro sp c t e hI _; exact hI
  · refine In.tryMap (fun e n => tr_delimitedBy (tr_repeatedB (tr_filterMap ?_)) (tr_just _) (tr_just _)) e n
    intro sp c t e hI _; exact hI

/-- Every escape of a code is a legal one. -/
def CodesOk (all : List (Tok O)) : Prop := ∀ x y w, x :: y :: w <:+ all → x.1 = '\\' → y.1 = 'u' →
  ∃ hex t, (Cst.StrChar.unicode hex).Ok ∧ Takes w ('{' :: hex ++ ['}']) t

theorem ok_code {eoi : Sp O} {y : Tok O} {w t hex} (hy : y.1 = 'u') (hok : (Cst.StrChar.unicode hex).Ok)
    (hT : Takes w ('{' :: hex ++ ['}']) t) : Ok escChar eoi (y :: w) (Cst.StrChar.unicode hex).value t := by
  obtain ⟨c, sp⟩ := y
  simp only at hy
  subst hy
  exact ok_escChar.2 ⟨.unicode hex, hok, rfl, 'u' :: '{' :: hex ++ ['}'], rfl, .cons hT, by simp⟩

theorem bl_escaped (hU : CodesOk (C.U ++ C.v)) : Bl C k n (ignoreThen (just '\\') escChar) (ignoreThen (just '\\') escChar) := by
  refine .of (in_just.bind fun _ => in_escChar) ?_
  intro x u hu hn hk
  refine ((bl_just (k := false) (n := n)).run (x :: u) hu hn (by simp)).bind (fun _ => in_escChar) ?_
  intro a alt w h1 h2
  obtain ⟨sp, h3, -⟩ := ok_just.1 (Quiet.ok (quiet_just '\\') h1)
  rw [h2] at h3
  simp only [List.cons_append, List.cons.injEq] at h3
  obtain ⟨rfl, h3⟩ := h3
  have := List.append_cancel_right h3
  subst this
  cases u with
  | nil => exact Or.inl (touch_short in_escChar (by simp))
  | cons y u =>
    by_cases hy' : y.1 = 'u'
    · obtain ⟨hex, t, hok, hT⟩ := hU ('\\', sp) y (u ++ C.v) (by
        obtain ⟨pre, hpre⟩ := hu
        exact ⟨pre, by rw [← hpre]; simp⟩) rfl hy'
      have h4 := ok_code (eoi := C.eoi) hy' hok hT
      obtain ⟨pre, hp1, hp2⟩ := hT
      by_cases hl : t.length ≤ C.v.length
      · obtain ⟨-, ⟨alt, h5⟩, h6⟩ := h4
        exact Or.inl ((touch_ok' h5).2 (Or.inr (h6 ▸ hl)))
      · obtain ⟨w', rfl⟩ : ∃ w', t = w' ++ C.v := by
          have h8 : C.v <:+ pre ++ t := ⟨u, hp1⟩
          rcases List.suffix_or_suffix_of_suffix h8 (List.suffix_append pre t) with h | h
          · obtain ⟨w', h⟩ := h; exact ⟨w', h.symm⟩
          · exact absurd h.length_le hl
        have hp3 : u = pre ++ w' := List.append_cancel_right (hp1.trans (List.append_assoc ..).symm)
        have h4' := ok_code (eoi := C.eoi') (w := u ++ C.v') (t := w' ++ C.v') hy' hok ⟨pre, by rw [hp3, List.append_assoc], hp2⟩
        obtain ⟨-, ⟨alt, h5⟩, h6⟩ := h4
        obtain ⟨-, ⟨alt', h5'⟩, h6'⟩ := h4'
        exact rel_ok h5 h5' h6 h6'
    have hy : y.1 ≠ 'u' := hy'
    obtain ⟨c, sp2⟩ := y
    have hx := excl_quiet (q := ignoreThen (just 'u') (recoverSkipUntil ['}', '"', '\\'] '\x00'
        (tryMap hexToChar (delimitedBy (repeatedB 1 (some 6) (filterMap hexDigit)) (just '{') (just '}')))))
        (quiet_filterMap (escSimple (O := O)))
    have key : ∀ (eoi : Sp O) t, ((∃ a alt, escSimple sp2 c = .ok a ∧ (escChar eoi ((c, sp2) :: t)).out = .ok (a, alt) ∧
        (escChar eoi ((c, sp2) :: t)).rest = t) ∨
        ((∃ e, escSimple sp2 c = .error e) ∧ ∃ e, (escChar eoi ((c, sp2) :: t)).out = .error e)) := by
      intro eoi t
      rcases orP_cases hx eoi ((c, sp2) :: t) with ⟨a, alt, g1, alt', g2, g3, -⟩ | ⟨e, g1, g⟩
      · left
        cases he : escSimple sp2 c with
        | ok b =>
          simp [filterMap, he, pok] at g1
          obtain ⟨rfl, rfl⟩ := g1
          exact ⟨b, alt', rfl, g2, by rw [show (escChar eoi ((c, sp2) :: t)).rest = _ from g3]; simp [filterMap, he, pok]⟩
        | error e => simp [filterMap, he, pfail] at g1
      · right
        refine ⟨?_, ?_⟩
        · cases he : escSimple sp2 c with
          | ok b => simp [filterMap, he, pok] at g1
          | error e => exact ⟨e, rfl⟩
        · rcases g with ⟨b, alt, g2, -⟩ | ⟨e2, g2, l, g3, -⟩
          · exfalso
            have : Fails (just 'u') eoi ((c, sp2) :: t) := fails_just_head.2 (by simpa [chars] using hy)
            obtain ⟨e, he⟩ := fails_ignoreThen_left (q := recoverSkipUntil ['}', '"', '\\'] '\x00'
              (tryMap hexToChar (delimitedBy (repeatedB 1 (some 6) (filterMap hexDigit)) (just '{') (just '}')))) this
            rw [he] at g2; cases g2
          · exact ⟨l, g3⟩
    rcases key C.eoi (u ++ C.v) with ⟨a, alt, h4, h5, h6⟩ | ⟨⟨e, h4⟩, e2, h5⟩
    · rcases key C.eoi' (u ++ C.v') with ⟨a', alt', h4', h5', h6'⟩ | ⟨⟨e, h4'⟩, e2, h5'⟩
      · rw [h4] at h4'; injection h4' with h4'; subst h4'
        exact rel_ok h5 h5' h6 h6'
      · rw [h4] at h4'; cases h4'
    · rcases key C.eoi' (u ++ C.v') with ⟨a', alt', h4', h5', h6'⟩ | ⟨⟨e, h4'⟩, e2', h5'⟩
      · rw [h4] at h4'; cases h4'
      · exact rel_fail h5 h5'

theorem bl_escapedString (hU : CodesOk (C.U ++ C.v)) : Bl C k n escapedString escapedString :=
  bl_just.ignoreThen (Bl.mapErrWithSpan (Bl.thenIgnore (Bl.repeated (bl_filter.orP (bl_escaped hU)
    (excl_quiet (quiet_filter _)))) bl_just))

theorem bl_string (hU : CodesOk (C.U ++ C.v)) : Bl C k n string string :=
  bl_rawString.orP (bl_escapedString hU) (excl_quiet quiet_rawString)

/-! ### Numbers and keywords -/

theorem bl_optSign : Bl C k n optSign optSign := (bl_just.orP bl_just (excl_quiet (quiet_just _))).orNot
theorem bl_sign : Bl C k n sign sign := bl_just.orP bl_just (excl_quiet (quiet_just _))
theorem bl_digits {r} : Bl C k n (digits r) (digits r) := bl_filter.repeated

theorem bl_decimalNumber : Bl C k n decimalNumber decimalNumber :=
  ((((bl_optSign.seq bl_filter).seq bl_digits).seq ((bl_just.seq bl_filter).seq bl_digits).pmap.orNot).seq
    (((bl_just.orP bl_just (excl_quiet (quiet_just _))).seq bl_optSign).seq bl_digits).pmap.orNot).pmap

theorem bl_radixDigits {m r x} : Bl C k n (radixDigits m r x) (radixDigits m r x) :=
  bl_just.ignoreThen (bl_filter.seq bl_digits).pmap

theorem fails_radixDigits {m r x} {eoi : Sp O} {y : Tok O} {t} (h : y.1 ≠ m) : Fails (radixDigits m r x) eoi (y :: t) :=
  fails_ignoreThen_left (fails_just_head.2 (by simpa [chars] using h))

theorem bl_radixNumber : Bl C k n radixNumber radixNumber := by
  unfold radixNumber
  refine Bl.pmap ((bl_optSign.thenIgnore bl_just).seq (bl_choice ⟨bl_radixDigits, ?_, bl_radixDigits, ?_, bl_radixDigits, ?_, trivial⟩))
  · intro y u _ _ _ e he _
    by_cases hy : y.1 = 'b'
    · right
      intro q hq
      simp only [List.mem_cons, List.not_mem_nil, or_false] at hq
      rcases hq with rfl | rfl <;> exact Or.inl (fails_radixDigits (by rw [hy]; decide))
    · exact Or.inl (fails_radixDigits hy)
  · intro y u _ _ _ e he _
    by_cases hy : y.1 = 'o'
    · right
      intro q hq
      simp only [List.mem_cons, List.not_mem_nil, or_false] at hq
      rcases hq with rfl; exact Or.inl (fails_radixDigits (by rw [hy]; decide))
    · exact Or.inl (fails_radixDigits hy)
  · intro y u _ _ _ e he _
    exact Or.inr (by simp)

theorem bl_number : Bl C k n number number := bl_radixNumber.orP bl_decimalNumber (excl_quiet quiet_radixNumber)

theorem fails_justStr_head {c : Char} {cs : Str} {eoi : Sp O} {y : Tok O} {t} (h : y.1 ≠ c) :
    Fails (justStr (c :: cs)) eoi (y :: t) :=
  (failsC_justStr_prefix.2 (by rintro ⟨r, hr⟩; simp [chars] at hr; exact h hr.1.symm)).fails

theorem bl_keyword : Bl C k n keyword keyword := by
  unfold keyword
  refine bl_choice ⟨bl_justStr.mapErr.pmap, ?_, bl_justStr.mapErr.pmap, ?_, bl_justStr.mapErr.pmap, ?_, trivial⟩
  · intro y u _ _ _ e he _
    by_cases hy : y.1 = 'n'
    · right
      intro q hq
      simp only [List.mem_cons, List.not_mem_nil, or_false] at hq
      rcases hq with rfl | rfl <;>
        exact Or.inl (fails_pmap.2 (fails_mapErr.2 (fails_justStr_head (by rw [hy]; decide))))
    · exact Or.inl (fails_pmap.2 (fails_mapErr.2 (fails_justStr_head hy)))
  · intro y u _ _ _ e he _
    by_cases hy : y.1 = 't'
    · right
      intro q hq
      simp only [List.mem_cons, List.not_mem_nil, or_false] at hq
      rcases hq with rfl
      exact Or.inl (fails_pmap.2 (fails_mapErr.2 (fails_justStr_head (by rw [hy]; decide))))
    · exact Or.inl (fails_pmap.2 (fails_mapErr.2 (fails_justStr_head hy)))
  · intro y u _ _ _ e he _
    exact Or.inr (by simp)

end

end Knuffel
