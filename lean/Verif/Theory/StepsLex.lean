import Verif.Theory.Steps
/-!
# Bounds on the number of looks at the stream: the parts of the grammar without nesting

Also: forgetting the numbers gives the parsers of `Verif.Model.Grammar`.
-/

set_option linter.unusedSectionVars false
set_option linter.unusedVariables false

namespace Knuffel.Steps
open Cst

variable {O α β γ : Type}

/-! ### Space and comments -/

theorem const_beginComment {c} : Const 2 (beginComment c : PS O Unit) :=
  const_just.mapErr.ignoreThen const_just.ignored

theorem const_newline : Const 7 (newline : PS O Unit) :=
  (((((((const_just.orNot).ignoreThen const_just).orP const_just).orP const_just).orP const_just).orP
    const_just).orP const_just).ignored.mapErr

theorem const_wsChar : Const 1 (wsChar : PS O Unit) := const_filter.ignored

theorem run_newline : (newline : PS O Unit).run = Knuffel.newline := by
  unfold newline Knuffel.newline; rfl

theorem quiet_newlineS : Quiet (newline : PS O Unit).run := by rw [run_newline]; exact quiet_newline

theorem newline_or_end (eoi : Sp O) : ∃ x, ((orP newline endP : PS O Unit).run eoi []).out = .ok x := by
  rcases orP_cases (p := newline) quiet_newlineS endP eoi [] with
    ⟨⟨y, h1⟩, h2, _⟩ | ⟨e, h1, _, ⟨x, y, h2, _⟩ | ⟨x, y, _, h2⟩⟩
  · exact ⟨y, by rw [h2, h1]⟩
  · exact ⟨x, h2⟩
  · simp [endP, Knuffel.endP, pok] at h2

theorem fast_comment : Fast 11 (comment : PS O Unit) := by
  have h1 := Fast.takeUntil ((const_newline (O := O)).orP const_endP) newline_or_end
  have h2 := Fast.bind_const (const_beginComment (O := O) (c := '/'))
    (fun a => h1.pmap (f := fun b => (a, b)))
  exact h2.ignored

theorem run_comment : (comment : PS O Unit).run = Knuffel.comment := by
  show Knuffel.ignored (Knuffel.seq _ (Knuffel.takeUntil (Knuffel.orP newline.run _))) = _
  rw [run_newline]; rfl

theorem quiet_commentS : Quiet (comment : PS O Unit).run := by rw [run_comment]; exact quiet_comment

theorem run_mlCommentRec (n : Nat) : (mlCommentRec n : PS O Unit).run = Knuffel.mlCommentRec n := by
  induction n with
  | zero => rfl
  | succ n ih =>
    show Knuffel.delimitedBy (Knuffel.ignored (Knuffel.repeated (Knuffel.choice [(mlCommentRec n).run, _, _]))) _ _ = _
    rw [ih]; rfl

theorem mlCommentRec_complete {eoi : Sp O} {s t} {b : Block} (hb : b.Ok true)
    (hT : Takes s (Ws.block b).text t) : ∀ n, s.length ≤ n → Ok (Knuffel.mlCommentRec n) eoi s () t := by
  have base : Ok (Knuffel.mlCommentRec (s.length + 1)) eoi s () t := by
    rw [mlCommentRec_succ, ok_delimitedBy]
    have hT' : Takes s (['/', '*'] ++ (b.text ++ ['*', '/'])) t := by simpa [Ws.text] using hT
    obtain ⟨s1, h1, h2⟩ := takes_append.1 hT'
    obtain ⟨s2, h3, h4⟩ := takes_append.1 h2
    have l1 := h1.length
    obtain ⟨bs, hbs⟩ := mlBody_complete (eoi := eoi) b (n := s.length) (cs := chars t) hb (by omega) h3
      (by rw [h4.chars]; rfl)
    refine ⟨(), s1, (), s2, ok_beginComment.2 h1, ok_ignored.2 ⟨bs, ?_⟩, ok_justStr_takes.2 h4⟩
    rw [ok_repeated eats_mlChoice.consumes]
    exact ⟨hbs, fails_mlChoice_close (cs := chars t) (by rw [h4.chars]; rfl)⟩
  intro n hn
  obtain ⟨k, rfl⟩ := Nat.le.dest hn
  induction k with
  | zero => exact (mlCommentRec_more (Nat.le_refl _) t).1 base
  | succ k ih => exact (mlCommentRec_more (Nat.le_add_right _ _) t).2 (ih (Nat.le_add_right _ _))

/-- One item of a comment. -/
def mlItem (n : Nat) : PS O Unit := choice [mlCommentRec n, ignored (noneOf '*'),
  ignored (thenIgnore (just '*') (rewind (noneOf '/')))]

theorem run_mlItem (n) : (mlItem n : PS O Unit).run = mlChoice n := by
  show Knuffel.choice [(mlCommentRec n).run, _, _] = _
  rw [run_mlCommentRec]; rfl

/-- The loop in a comment. -/
theorem repCost_item {a c m : Nat} {p : PS O α} {eoi} (hs : Suf p.run)
    (hok : ∀ s x, s.length ≤ m → Closed s → (p.run eoi s).out = .ok x →
      p.cost eoi s + a * (p.run eoi s).rest.length ≤ a * s.length)
    (herr : ∀ s e, s.length ≤ m → Closed s → (p.run eoi s).out = .error e → p.cost eoi s ≤ c) {mn} :
    ∀ fuel outs errs alt pan s x, s.length ≤ m → Closed s →
    (repGo p.run mn none eoi fuel outs errs alt pan s).out = .ok x →
    repCost p none eoi fuel outs.length s +
      a * (repGo p.run mn none eoi fuel outs errs alt pan s).rest.length ≤ a * s.length + c := by
  intro fuel
  induction fuel with
  | zero => intro outs errs alt pan s x _ _ _; simp [repCost, repGo]
  | succ fuel ih =>
    intro outs errs alt pan s x hm hc hx
    rw [repCost]
    rw [repGo] at hx ⊢
    simp only [reduceCtorEq, ↓reduceIte] at hx ⊢
    cases hpo : (p.run eoi s).out with
    | error e =>
      simp only [hpo] at hx ⊢
      by_cases hmn : outs.length < mn
      · simp [hmn] at hx
      · simp only [hmn, ↓reduceIte]
        have := herr s e hm hc hpo
        omega
    | ok y =>
      obtain ⟨y, aalt⟩ := y
      have h1 := hok s _ hm hc hpo
      have h2 := (hs eoi s).length_le
      simp only [hpo] at hx ⊢
      by_cases hl : (p.run eoi s).rest.length < s.length
      · simp only [hl, ↓reduceIte] at hx ⊢
        have h3 := ih (outs ++ [y]) _ _ _ _ x (by omega) (hc.suf (hs eoi s)) hx
        rw [List.length_append, List.length_singleton] at h3
        omega
      · simp only [hl, ↓reduceIte]; omega

theorem Ok.out {p : P O α} {eoi s a t} (h : Ok p eoi s a t) : ∃ alt, (p eoi s).out = .ok (a, alt) := h.2.1
theorem Ok.rest {p : P O α} {eoi s a t} (h : Ok p eoi s a t) : (p eoi s).rest = t := h.2.2

theorem cost_mlCommentRec {eoi : Sp O} : ∀ n (s : List (Tok O)), s.length ≤ n → Closed s →
    (¬ ['/', '*'] <+: chars s → (mlCommentRec n).cost eoi s ≤ 2) ∧
    (['/', '*'] <+: chars s → ∃ t, Ok (Knuffel.mlCommentRec n) eoi s () t ∧
      (mlCommentRec n).cost eoi s + 8 * t.length ≤ 8 * s.length) := by
  intro n
  induction n with
  | zero =>
    intro s hs _
    have : s = [] := List.length_eq_zero_iff.1 (by omega)
    subst this
    exact ⟨fun _ => by simp [mlCommentRec, tooDeep], fun h => by simp at h⟩
  | succ n ih =>
    intro s hs hc
    have hcost : (mlCommentRec (n + 1)).cost eoi s =
        (delimitedBy (ignored (repeated (mlItem n))) (beginComment '*') (justStr "*/".toList)).cost eoi s := rfl
    have hb := (const_beginComment (c := '*')).cost eoi s
    constructor
    · intro hp
      have hf := failsC_beginComment (eoi := eoi) hp
      obtain ⟨_, e, he⟩ := hf
      rw [hcost]
      simp only [delimitedBy, thenIgnore, ignoreThen]
      rcases bind_cases (beginComment '*') (fun _ => ignored (repeated (mlItem n))) eoi s with
        ⟨e, e', h0, h1, _, h2⟩ | ⟨a, alt, h0, _⟩
      · rcases bind_cases (bind (beginComment '*') (fun _ => ignored (repeated (mlItem n))))
          (fun a => pmap (fun _ => a) (justStr "*/".toList)) eoi s with ⟨_, _, _, _, _, h3⟩ | ⟨_, _, h3, _⟩
        · rw [h3, h2]; exact hb
        · rw [h1] at h3; simp at h3
      · rw [show (beginComment '*').run eoi s = Knuffel.beginComment '*' eoi s from rfl, he] at h0; simp at h0
    · intro hp
      obtain ⟨v, hv⟩ := hp
      have hv' : chars s = [] ++ '/' :: '*' :: v := by rw [← hv]; rfl
      have hne := hc [] v hv'
      cases hac : afterComment 1 v with
      | none => exact absurd hac hne
      | some f =>
        obtain ⟨b, hbk, rfl⟩ := afterComment_iff.1 hac
        have hv2 : chars s = (Ws.block b).text ++ f := by rw [hv']; simp [Ws.text]
        obtain ⟨t, hT, hf⟩ := takes_of_chars hv2
        have hok := mlCommentRec_complete (eoi := eoi) hbk hT (n + 1) hs
        refine ⟨t, hok, ?_⟩
        rw [mlCommentRec_succ, ok_delimitedBy] at hok
        obtain ⟨_, s1, _, s2, h1, h2, h3⟩ := hok
        rw [ok_ignored] at h2
        obtain ⟨as, h2⟩ := h2
        have l1 : s1.length + 2 = s.length := by
          have := (ok_beginComment.1 h1).length
          simp at this; omega
        have l3 : t.length + 2 = s2.length := by
          have := (ok_justStr_takes.1 h3).length
          simp at this; omega
        obtain ⟨alt1, o1⟩ := Ok.out h1
        obtain ⟨alt2, o2⟩ := Ok.out h2
        have r1 := Ok.rest h1
        have r2 := Ok.rest h2
        have hs1 : s1 <:+ s := by rw [← r1]; exact suf_beginComment eoi s
        -- the loop
        have hloop : (repeated (mlItem n)).cost eoi s1 + 8 * s2.length ≤ 8 * s1.length + 5 := by
          have hitem : ∀ s' : List (Tok O), s'.length ≤ n → Closed s' → ¬ ['/', '*'] <+: chars s' →
              (mlItem n).cost eoi s' ≤ 5 := by
            intro s' hl hc' hnp
            have h1 := (ih s' hl hc').1 hnp
            simp only [mlItem, choice, choiceCost]
            have h2 : (ignored (noneOf '*') : PS O Unit).cost eoi s' ≤ 1 := const_noneOf.ignored.cost _ _
            have h3 : (ignored (thenIgnore (just '*') (rewind (noneOf '/'))) : PS O Unit).cost eoi s' ≤ 2 :=
              (const_just.thenIgnore const_noneOf.rewind).ignored.cost _ _
            cases ((mlCommentRec n).run eoi s').out <;>
              cases ((ignored (noneOf '*') : PS O Unit).run eoi s').out <;>
              cases ((ignored (thenIgnore (just '*') (rewind (noneOf '/'))) : PS O Unit).run eoi s').out <;>
              simp only <;> omega
          have hpre : ∀ s' : List (Tok O), s'.length ≤ n → Closed s' → ['/', '*'] <+: chars s' →
              ∃ t alt, ((mlItem n).run eoi s').out = .ok ((), alt) ∧ ((mlItem n).run eoi s').rest = t ∧
                (mlItem n).cost eoi s' + 8 * t.length ≤ 8 * s'.length := by
            intro s' hl hc' hp'
            obtain ⟨t', hk, hcst⟩ := (ih s' hl hc').2 hp'
            have hch : Ok (mlItem n).run eoi s' () t' := by
              rw [run_mlItem]; unfold mlChoice; rw [ok_choice_cons]; exact .inl hk
            obtain ⟨alt, ho⟩ := Ok.out hch
            refine ⟨t', alt, ho, Ok.rest hch, ?_⟩
            obtain ⟨alt', ho'⟩ := Ok.out hk
            simp only [mlItem, choice, choiceCost, run_mlCommentRec, ho']
            omega
          have hsuf : Suf (mlItem n : PS O Unit).run := by
            rw [run_mlItem]
            refine suf_choice ?_
            intro p hp
            simp only [List.mem_cons, List.not_mem_nil, or_false] at hp
            rcases hp with rfl | rfl | rfl
            · exact suf_mlCommentRec n
            · exact suf_ignored suf_filter
            · exact suf_ignored (suf_thenIgnore suf_just (suf_rewind suf_filter))
          have := repCost_item (a := 8) (c := 5) (m := n) (p := mlItem n) (eoi := eoi) hsuf
            (by
              intro s' x hl hc' hx
              by_cases hp' : ['/', '*'] <+: chars s'
              · obtain ⟨t', alt, _, hr, hcst⟩ := hpre s' hl hc' hp'
                rw [hr]; exact hcst
              · have k1 := hitem s' hl hc' hp'
                rw [run_mlItem] at hx ⊢
                have k2 := eats_mlChoice eoi s' x hx
                omega)
            (by
              intro s' e hl hc' hx
              by_cases hp' : ['/', '*'] <+: chars s'
              · obtain ⟨t', alt, ho, _⟩ := hpre s' hl hc' hp'
                rw [ho] at hx; simp at hx
              · exact hitem s' hl hc' hp')
            (mn := 0) (s1.length + 1) [] [] none false s1 (as, alt2) (by omega) (hc.suf hs1)
            (by rw [run_mlItem]; exact o2)
          have r2' : (repGo (mlItem n).run 0 none eoi (s1.length + 1) [] [] none false s1).rest = s2 := by
            rw [run_mlItem]; exact r2
          rw [r2'] at this
          exact this
        rw [hcost]
        simp only [delimitedBy, thenIgnore, ignoreThen]
        have hstr := (const_justStr (O := O) (cs := "*/".toList)).cost eoi s2
        have hlen : "*/".toList.length = 2 := rfl
        rw [hlen] at hstr
        have e1 : (bind (beginComment '*') (fun _ => ignored (repeated (mlItem n)))).cost eoi s =
            (beginComment '*' : PS O Unit).cost eoi s + (repeated (mlItem n)).cost eoi s1 := by
          rcases bind_cases (beginComment '*') (fun _ => ignored (repeated (mlItem n))) eoi s with
            ⟨e, e', h0, _⟩ | ⟨a, alt, h0, h4, _⟩
          · rw [show (beginComment '*').run eoi s = Knuffel.beginComment '*' eoi s from rfl, o1] at h0; simp at h0
          · rw [h4]
            rw [show ((beginComment '*').run eoi s).rest = s1 from r1]
            rfl
        have e2 : ((bind (beginComment '*') (fun _ => ignored (repeated (mlItem n)))).run eoi s).rest = s2 := by
          rcases bind_cases (beginComment '*') (fun _ => ignored (repeated (mlItem n))) eoi s with
            ⟨e, e', h0, _⟩ | ⟨a, alt, h0, h4, h5, _⟩
          · rw [show (beginComment '*').run eoi s = Knuffel.beginComment '*' eoi s from rfl, o1] at h0; simp at h0
          · rw [h5, show ((beginComment '*').run eoi s).rest = s1 from r1]
            have : (repeated (mlItem n) : PS O _).run eoi s1 = Knuffel.repeated (mlChoice n) eoi s1 := by
              show Knuffel.repeated (mlItem n).run eoi s1 = _
              rw [run_mlItem]
            show ((repeated (mlItem n) : PS O _).run eoi s1).rest = s2
            rw [this]; exact r2
        rcases bind_cases (bind (beginComment '*') (fun _ => ignored (repeated (mlItem n))))
          (fun a => pmap (fun _ => a) (justStr "*/".toList)) eoi s with ⟨_, _, _, _, _, h4⟩ | ⟨_, _, _, h4, _⟩
        · rw [h4, e1]; omega
        · rw [h4, e1, e2]
          have : (pmap (fun _ => ()) (justStr "*/".toList) : PS O Unit).cost eoi s2 ≤ 2 := hstr
          simp only [pmap] at *
          omega

section
variable [Offset O]

theorem run_mlComment : (mlComment : PS O Unit).run = Knuffel.mlComment := by
  funext eoi s
  show Knuffel.mapErrWithSpan mlCommentErr (mlCommentRec (s.length + 1)).run eoi s = _
  rw [run_mlCommentRec]; rfl

theorem fast_mlComment : Fast 8 (mlComment : PS O Unit) := by
  refine ⟨fun eoi s x hc hx => ?_, fun eoi s e hc hx => ?_, by rw [run_mlComment]; exact suf_mlComment⟩
  · have hk := cost_mlCommentRec (eoi := eoi) (s.length + 1) s (by omega) hc
    show (mlCommentRec (s.length + 1)).cost eoi s + _ ≤ _
    by_cases hp : ['/', '*'] <+: chars s
    · obtain ⟨t, h1, h2⟩ := hk.2 hp
      have : ((mlComment : PS O Unit).run eoi s).rest = t := by
        rw [run_mlComment]; exact h1.2.2
      rw [this]; omega
    · have h3 := hk.1 hp
      have h4 := (show Suf (mlComment : PS O Unit).run by rw [run_mlComment]; exact suf_mlComment) eoi s |>.length_le
      omega
  · have hk := cost_mlCommentRec (eoi := eoi) (s.length + 1) s (by omega) hc
    show (mlCommentRec (s.length + 1)).cost eoi s ≤ _
    by_cases hp : ['/', '*'] <+: chars s
    · obtain ⟨t, h1, h2⟩ := hk.2 hp
      exfalso
      have : Ok (Knuffel.mapErrWithSpan mlCommentErr (Knuffel.mlCommentRec (s.length + 1))) eoi s () t :=
        ok_mapErrWithSpan.2 h1
      obtain ⟨alt, ho⟩ := Ok.out this
      rw [run_mlComment] at hx
      have hx' : (Knuffel.mapErrWithSpan mlCommentErr (Knuffel.mlCommentRec (s.length + 1)) eoi s).out = .error e := hx
      rw [ho] at hx'; simp at hx'
    · have := hk.1 hp; omega

theorem run_ws : (ws : PS O Unit).run = Knuffel.ws := by
  show Knuffel.mapErr _ (Knuffel.orP _ mlComment.run) = _
  rw [run_mlComment]; rfl

theorem fast_ws : Fast 10 (ws : PS O Unit) :=
  (Fast.orP (quiet_ignored (quiet_repeatedB (quiet_ignored (quiet_filter _))))
    ((const_wsChar.fast.repeated1 eats_wsChar).ignored) fast_mlComment).mapErr

theorem run_escLine : (escLine : PS O Unit).run = Knuffel.escLine := by
  show Knuffel.ignoreThen (Knuffel.ignoreThen _ (Knuffel.repeated ws.run)) _ = _
  rw [run_ws]; rfl

theorem run_nodeSpace : (nodeSpace : PS O Unit).run = Knuffel.nodeSpace := by
  show Knuffel.orP ws.run escLine.run = _
  rw [run_ws, run_escLine]; rfl

theorem run_lineSpace : (lineSpace : PS O Unit).run = Knuffel.lineSpace := by
  show Knuffel.orP (Knuffel.orP _ ws.run) _ = _
  rw [run_ws]; rfl

theorem eats_wsS : Eats 1 (ws : PS O Unit).run := by rw [run_ws]; exact eats_ws
theorem quiet_wsS : Quiet (ws : PS O Unit).run := by rw [run_ws]; exact quiet_ws

theorem slow_escLine : Slow 39 (escLine : PS O Unit) := by
  have h1 := (const_just (O := O) (c := '\\')).fast.slow.bind fun _ =>
    ((fast_ws (O := O)).repeated eats_wsS).slow
  have h2 := Fast.orP quiet_commentS (fast_comment (O := O)) const_newline.fast
  exact h1.bind fun _ => h2.slow

theorem slow_nodeSpace : Slow 49 (nodeSpace : PS O Unit) :=
  Slow.orP quiet_wsS fast_ws slow_escLine

theorem lin_nodeSpaces : Lin 98 (repeated nodeSpace : PS O (List Unit)) :=
  slow_nodeSpace.repeatedLin (by rw [run_nodeSpace]; exact eats_nodeSpace)

theorem lin_nodeSpaces1 : Lin 98 (repeatedB 1 none nodeSpace : PS O (List Unit)) :=
  slow_nodeSpace.repeatedLin (by rw [run_nodeSpace]; exact eats_nodeSpace)

theorem quiet_newlineWs : Quiet (orP newline ws : PS O Unit).run := by
  have : (orP newline ws : PS O Unit).run = Knuffel.orP Knuffel.newline Knuffel.ws := by
    show Knuffel.orP newline.run ws.run = _
    rw [run_ws, run_newline]
  rw [this]; exact quiet_orP quiet_newline quiet_ws

theorem slow_lineSpace : Slow 28 (lineSpace : PS O Unit) := by
  have h1 := Fast.orP quiet_newlineS (const_newline (O := O)).fast fast_ws
  exact Slow.orP quiet_newlineWs h1 fast_comment.slow

theorem lin_lineSpaces : Lin 56 (repeated lineSpace : PS O (List Unit)) :=
  slow_lineSpace.repeatedLin (by rw [run_lineSpace]; exact eats_lineSpace)

theorem lin_nodeTerminator : Lin 20 (nodeTerminator : PS O Unit) :=
  Lin.choice4 const_newline.lin fast_comment.lin const_just.ignored.lin const_endP.lin

end

end Knuffel.Steps
