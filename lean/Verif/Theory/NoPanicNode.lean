import Verif.Theory.NoPanicEntry
/-!
# Nodes and documents do not panic
-/

set_option linter.unusedSimpArgs false
set_option linter.unusedSectionVars false
set_option linter.unusedVariables false

namespace Knuffel

variable {O α β γ : Type} [Offset O]

/-- Merging two alternative errors, one of which may be a message. -/
theorem mergeAlts_np {a b : Option (Loc O)} (h : (OPlain a ∧ OPlain b) ∨
    (∃ e, a = some e ∧ LB (e.rem + 1) b) ∨ (∃ e, b = some e ∧ LB (e.rem + 1) a)) : clashAlts a b = false := by
  rcases h with ⟨h1, h2⟩ | ⟨e, rfl, h⟩ | ⟨e, rfl, h⟩
  · exact (mergeAlts_plain h1 h2).2
  · exact (mergeAlts_far h).2.2.1
  · exact (mergeAlts_far h).2.2.2

/-! ## Header -/

/-- Type name and name of a node. -/
def header : P O (Option (Spanned TypeName (Sp O)) × Spanned Str (Sp O)) :=
  seq (orNot (spanned typeName)) (spanned ident)

theorem suf_header : Suf (header : P O (Option (Spanned TypeName (Sp O)) × Spanned Str (Sp O))) :=
  suf_seq (suf_orNot (suf_spanned suf_typeName)) (suf_spanned suf_ident)

theorem calm_header {L} : Calm L (header : P O (Option (Spanned TypeName (Sp O)) × Spanned Str (Sp O))) :=
  calm_seq (calm_orNot (calm_spanned calm_typeName)) (suf_orNot (suf_spanned suf_typeName)) (calm_spanned calm_ident)

theorem eats_header : Eats 1 (header : P O (Option (Spanned TypeName (Sp O)) × Spanned Str (Sp O))) := by
  have := eats_seq (suf_orNot (suf_spanned (suf_typeName (O := O)))).eats0 (eats_mapWithSpan (f := fun value span => (⟨span, value⟩ : Spanned Str (Sp O))) (eats_ident (O := O)))
  exact this

theorem failsC_number_noName {eoi : Sp O} {s} (h : NotStart s) : Fails number eoi s := by
  have h1 := fails_literal_noName (eoi := eoi) h.noName
  exact (fails_choice.1 h1) number (by simp)

theorem at_ident {eoi : Sp O} {s} (h : NotStart s) : Fails ident eoi s ∧ At ident eoi s := by
  have hstr : Fails string eoi s := by
    have h1 := fails_literal_noName (eoi := eoi) h.noName
    exact fails_pmap.1 ((fails_choice.1 h1) (pmap .string string) (by simp))
  have hr : (chars s).head? ≠ some 'r' := fun hc => (h _ hc).1 (isIdSansDig_iff.1 (by decide))
  have hq : (chars s).head? ≠ some '"' := fun hc => (h _ hc).2.2.1 rfl
  have hf : Fails (choice [pmap (fun _ => none) number, pmap some bareIdent, pmap some string]) eoi s := by
    rw [fails_choice]
    intro p hp
    simp only [List.mem_cons, List.not_mem_nil, or_false] at hp
    rcases hp with rfl | rfl | rfl
    · exact fails_pmap.2 (failsC_number_noName h)
    · exact fails_pmap.2 (failsC_bareIdent (fun c hc => (h c hc).1)).fails
    · exact fails_pmap.2 hstr
  refine ⟨?_, at_tryMap hf (at_choice (by simp) ?_)⟩
  · unfold ident
    cases ho : (tryMap checkNumber (choice [pmap (fun _ => none) number, pmap some bareIdent, pmap some string]) eoi s).out with
    | error e => exact ⟨e, ho⟩
    | ok x =>
      obtain ⟨b, h1, _⟩ := tryMap_ok_inv (b := x.1) (alt := x.2) ho
      exact absurd h1 (not_ok_of_fails hf)
  · intro p hp
    simp only [List.mem_cons, List.not_mem_nil, or_false] at hp
    rcases hp with rfl | rfl | rfl
    · exact at_pmap (at_number (fun hc => (h _ hc).1 (isIdSansDig_iff.1 (by decide)))
        (fun hc => (h _ hc).1 (isIdSansDig_iff.1 (by decide))) (fun c hc => (h c hc).2.1))
    · exact at_pmap (at_bareIdent (fun c hc => (h c hc).1))
    · exact at_pmap (at_string hr hq)

theorem header_ok_alt {eoi : Sp O} {s a alt} (h : (header eoi s).out = .ok (a, alt)) :
    LB ((header eoi s).rest.length - 1) alt ∧ ¬ NotStart s := by
  obtain ⟨a1, alt1, alt2, h1, h2, h3, h4⟩ := bind_ok_inv h
  obtain ⟨b, h5, _⟩ := pmap_ok_inv h2
  obtain ⟨c, h6, _⟩ := mapWithSpan_ok_inv h5
  have h4' : (header eoi s).rest = (ident eoi (orNot (spanned typeName) eoi s).rest).rest := h4
  have h7 := eats_ident eoi _ _ h6
  have h8 := tight_ident eoi _ _ _ h6
  rcases orNot_inv (spanned typeName) eoi s with ⟨t, alt3, g1, g2⟩ | ⟨e, g1, g2⟩
  · obtain ⟨t', g3, _⟩ := mapWithSpan_ok_inv g1
    have hp := typeName_ok_head g3
    refine ⟨?_, fun hs => (hs _ hp).2.2.2 rfl⟩
    rw [g2] at h1
    injection h1 with h1; injection h1 with _ h1; subst h1
    have g4 := tight_spanned (tight_typeName (O := O)) eoi s _ _ g1
    rw [h4', h3]
    refine mergeAlts_lb (g4.mono ?_) h8
    rw [g2] at h7 ⊢; simp only at h7 ⊢; omega
  · have g2r : (orNot (spanned typeName) eoi s).rest = s := by rw [g2]
    rw [g2r] at h6 h7 h8 h4'
    have hp : (chars s).head? ≠ some '(' := by
      intro hp
      exact absurd h6 (not_ok_of_fails (at_ident_paren hp))
    refine ⟨?_, fun hs => absurd h6 (not_ok_of_fails (at_ident hs).1)⟩
    rw [g2] at h1
    injection h1 with h1; injection h1 with _ h1; subst h1
    rw [h4', h3]
    have g5 := at_typeName hp e (mapWithSpan_error.1 g1)
    exact mergeAlts_lb (lb_some.2 (by omega)) h8
where
  at_ident_paren {s : List (Tok O)} (hp : (chars s).head? = some '(') : Fails ident eoi s := by
    have h := noName_paren hp
    have h1 := fails_literal_noName (eoi := eoi) h
    have hf : Fails (choice [pmap (fun _ => none) number, pmap some bareIdent, pmap some string]) eoi s := by
      rw [fails_choice]
      intro p hp
      simp only [List.mem_cons, List.not_mem_nil, or_false] at hp
      rcases hp with rfl | rfl | rfl
      · exact fails_pmap.2 ((fails_choice.1 h1) number (by simp))
      · exact fails_pmap.2 (failsC_bareIdent (fun c hc => (h c hc).1)).fails
      · exact fails_pmap.2 (fails_pmap.1 ((fails_choice.1 h1) (pmap .string string) (by simp)))
    unfold ident
    cases ho : (tryMap checkNumber (choice [pmap (fun _ => none) number, pmap some bareIdent, pmap some string]) eoi s).out with
    | error e => exact ⟨e, ho⟩
    | ok x =>
      obtain ⟨b, h1, _⟩ := tryMap_ok_inv (b := x.1) (alt := x.2) ho
      exact absurd h1 (not_ok_of_fails hf)

theorem at_header {eoi : Sp O} {s} (h : NotStart s) : At header eoi s := by
  intro e he
  have hp : (chars s).head? ≠ some '(' := fun hc => (h _ hc).2.2.2 rfl
  rcases bind_error_inv he with h1 | ⟨a, alt, e2, h1, h2, h3⟩
  · rcases orNot_inv (spanned typeName) eoi s with ⟨t, alt3, g1, g2⟩ | ⟨e, g1, g2⟩ <;> rw [g2] at h1 <;> cases h1
  · rcases orNot_inv (spanned typeName) eoi s with ⟨t, alt3, g1, g2⟩ | ⟨e', g1, g2⟩
    · obtain ⟨t', g3, _⟩ := mapWithSpan_ok_inv g1
      exact absurd (typeName_ok_head g3) hp
    · rw [g2] at h1 h2
      injection h1 with h1; injection h1 with _ h1; subst h1
      have g5 := at_typeName hp e' (mapWithSpan_error.1 g1)
      have g6 := (at_ident h).2 e2 (mapWithSpan_error.1 (pmap_error.1 h2))
      rw [h3]; exact maxO_lb g6 (lb_some.2 g5)

/-! ## Braces -/

/-- What is needed of the parser for the inner nodes. -/
structure NodesSpec (s : List (Tok O)) (r : PRes O α) : Prop where
  np : r.panicked = false
  ok : ∃ a alt, r.out = .ok (a, alt) ∧
    (∀ e, alt = some e → e.err.plain = true ∨ (e.rem + 2 ≤ r.rest.length ∧ (chars r.rest).head? ≠ some '}')) ∧
    ((chars r.rest).head? = some '}' → LB (r.rest.length - 1) alt)

structure BraceSpec (w : List (Tok O)) (r : PRes O α) : Prop where
  np : r.panicked = false
  ok : ∀ a alt, r.out = .ok (a, alt) → OPlain alt ∧ LB r.rest.length alt ∧ (chars w).head? = some '{' ∧ r.rest.length < w.length
  err : ∀ e, r.out = .error e → e.err.plain = true ∨ ((chars w).head? = some '{' ∧ e.rem + 3 ≤ w.length)
  near : (chars w).head? ≠ some '{' → ∀ e, r.out = .error e → w.length ≤ e.rem

theorem plain_bracesErr {e : PErr O} {sp : Sp O} (h : e.plain = true) : (bracesErr e sp).plain = true := by
  unfold bracesErr
  split
  · exact plain_getD_merge h rfl
  · exact h

theorem braced_spec {inner : P O (List (SpannedNode (Sp O)))} (hsuf : Suf inner) {eoi : Sp O} {w}
    (hin : ∀ w1, w1.length < w.length → NodesSpec w1 (inner eoi w1)) : BraceSpec w (bracedNodes inner eoi w) := by
  by_cases hw : (chars w).head? = some '{'
  · obtain ⟨sp, w1, rfl⟩ := toks_of_head hw
    have hi := hin w1 (by simp)
    have hj : just '{' eoi (('{', sp) :: w1) = pok '{' w1 := by simp [just]
    obtain ⟨a, alt, h1, h2, h3⟩ := hi.ok
    have hle := (hsuf eoi w1).length_le
    generalize ht : (inner eoi w1).rest = t at h2 h3 hle
    have hb : bracedNodes inner eoi (('{', sp) :: w1) =
        mapErrWithSpan bracesErr (thenIgnore inner (just '}')) eoi w1 := by
      simp only [bracedNodes, ignoreThen, bind, hj, pok]
      generalize mapErrWithSpan bracesErr (thenIgnore inner (just '}')) eoi w1 = r
      obtain ⟨a, b, c, d⟩ := r
      cases c with
      | error e => simp [Loc.clashO, Loc.maxO]
      | ok x =>
        obtain ⟨x1, x2⟩ := x
        cases x2 <;> simp [clashAlts, mergeAlts]
    rw [hb]
    by_cases hc : (chars t).head? = some '}'
    · obtain ⟨sp', t', rfl⟩ := toks_of_head hc
      have hr : mapErrWithSpan bracesErr (thenIgnore inner (just '}')) eoi w1 =
          ⟨false, (inner eoi w1).errs, .ok (a, alt), t'⟩ := by
        cases alt <;> simp [mapErrWithSpan, thenIgnore, bind, h1, ht, pmap, just, pok, hi.np, clashAlts, mergeAlts]
      rw [hr]
      refine ⟨rfl, ?_, by simp, by simp [hw]⟩
      intro a' alt' h; injection h with h; injection h with _ h; subst h
      refine ⟨fun e he => ?_, ?_, rfl, ?_⟩
      · rcases h2 e he with h | h
        · exact h
        · exact absurd hc h.2
      · have := h3 hc; simpa using this
      · simp at hle ⊢; omega
    · have hj2 : ∃ e2, (just '}' eoi t).out = .error e2 ∧ e2.err.plain = true ∧ e2.rem = t.length := by
        unfold just
        cases t with
        | nil => exact ⟨_, rfl, rfl, rfl⟩
        | cons y t =>
          obtain ⟨y, sp⟩ := y
          have : y ≠ '}' := by intro h; subst h; exact hc rfl
          simp only [this, if_false, pfail]
          exact ⟨_, rfl, rfl, rfl⟩
      obtain ⟨e2, g1, g2, g3⟩ := hj2
      have hnj : (just '}' eoi t).panicked = false := (calm_just (O := O) '}' eoi t (Nat.le_refl _)).np
      have hclash : e2.clashO alt = false ∧ ((e2.maxO alt).err.plain = true ∨ (e2.maxO alt).rem + 2 ≤ t.length) := by
        cases alt with
        | none => exact ⟨rfl, Or.inl g2⟩
        | some m =>
          rcases h2 m rfl with h | ⟨h, _⟩
          · have := maxO_plain g2 (oplain_some.2 h)
            exact ⟨this.2, Or.inl this.1⟩
          · have := Loc.max_far (a := m) (b := e2) (by omega)
            refine ⟨this.2.2.2, Or.inr ?_⟩
            show (e2.max m).rem + 2 ≤ t.length
            rw [this.2.1]; exact h
      have hr : ∃ er rs f, mapErrWithSpan bracesErr (thenIgnore inner (just '}')) eoi w1 =
          ⟨false, er, .error ⟨(e2.maxO alt).rem, bracesErr (e2.maxO alt).err f⟩, rs⟩ := by
        refine ⟨(inner eoi w1).errs ++ (just '}' eoi t).errs, (just '}' eoi t).rest, spanSince eoi w1 (just '}' eoi t).rest, ?_⟩
        simp [mapErrWithSpan, thenIgnore, bind, h1, ht, pmap, g1, hi.np, hnj, hclash.1]
      obtain ⟨er, rs, f, hr⟩ := hr
      rw [hr]
      refine ⟨rfl, by simp, ?_, by simp [hw]⟩
      intro e h; injection h with h; subst h
      rcases hclash.2 with h | h
      · exact Or.inl (plain_bracesErr h)
      · right; refine ⟨hw, ?_⟩; simp only [List.length_cons]; omega
  · have hf := fails_just_of (eoi := eoi) hw
    obtain ⟨e, he⟩ := hf
    have hr : bracedNodes inner eoi w = ⟨(just '{' eoi w).panicked, (just '{' eoi w).errs, .error e, (just '{' eoi w).rest⟩ := by
      simp [bracedNodes, ignoreThen, bind, he]
    have hc := calm_just (O := O) '{' eoi w (Nat.le_refl _)
    rw [hr]
    refine ⟨hc.np, by simp, ?_, ?_⟩
    · intro e' h; injection h with h; subst h; exact Or.inl (calmR_error hc he)
    · intro _ e' h; injection h with h; subst h; exact near_just _ _ _ _ he

/-! ## Optional slashdash -/

theorem optDash_spec (eoi : Sp O) (s : List (Tok O)) : ∃ a alt u,
    (orNot (thenIgnore (beginComment '-') (repeated nodeSpace)) eoi s) = ⟨false, [], .ok (a, alt), u⟩ ∧
    EntryAt eoi s u ∧ OPlain alt ∧ (NoSp u → LB (u.length - 1) alt) ∧
    (∀ u', EntryAt eoi s u' → ¬ ['/', '-'] <+: chars u' → u' = u) := by
  have hd := dashT_spec eoi s
  by_cases hp : ['/', '-'] <+: chars s
  · obtain ⟨a, alt, h1, h2, h3, h4⟩ := hd.yes hp
    rcases orNot_inv (thenIgnore (beginComment '-') (repeated nodeSpace)) eoi s with ⟨a', alt', g1, g2⟩ | ⟨e, g1, g2⟩
    · rw [h1] at g1; injection g1 with g1; injection g1 with ga gb; subst ga; subst gb
      rw [hd.np, hd.errs] at g2
      refine ⟨_, _, _, g2, Or.inr ⟨hp, h2⟩, h3, h4, ?_⟩
      intro u' hu' hn
      rcases hu' with rfl | ⟨_, rfl⟩
      · exact absurd hp hn
      · exact h2.symm
    · rw [h1] at g1; cases g1
  · obtain ⟨e, h1, h2, h3⟩ := hd.no hp
    rcases orNot_inv (thenIgnore (beginComment '-') (repeated nodeSpace)) eoi s with ⟨a', alt', g1, g2⟩ | ⟨e', g1, g2⟩
    · rw [h1] at g1; cases g1
    · rw [h1] at g1; injection g1 with g1; subst g1
      rw [hd.np] at g2
      refine ⟨_, _, _, g2, Or.inl rfl, oplain_some.2 h2, fun _ => lb_some.2 (by omega), ?_⟩
      intro u' hu' hn
      rcases hu' with rfl | ⟨h, _⟩
      · rfl
      · exact absurd h hp

theorem stop_brace {u : List (Tok O)} (h : (chars u).head? = some '{') : Stop u :=
  ⟨notStart_of_head h (by decide), not_block_of_head h (by decide), noSp_of_head h (by decide) (by decide), by rw [h]; decide⟩

theorem DigitAt.noDash {u : List (Tok O)} (h : DigitAt u) : ¬ ['/', '-'] <+: chars u := by
  rintro ⟨w, hw⟩
  exact h.ne (c := '/') (by decide) (by rw [← hw]; rfl)

/-! ## The optional children -/

structure ChildSpec (eoi : Sp O) (s : List (Tok O)) (r : PRes O (Option α)) : Prop where
  np : r.panicked = false
  ok : ∃ o alt, r.out = .ok (o, alt) ∧
    ((r.rest = s ∧ ∃ e, alt = some e ∧
      (e.err.plain = true ∨ ∃ u, EntryAt eoi (afterSp eoi s) u ∧ (chars u).head? = some '{' ∧ e.rem + 3 ≤ u.length) ∧
      ∀ u, EntryAt eoi (afterSp eoi s) u → (Stop u ∧ (chars u).head? ≠ some '{') ∨ DigitAt u → u.length ≤ e.rem + 1) ∨
     (OPlain alt ∧ LB (r.rest.length - 1) alt ∧
      ∃ u, EntryAt eoi (afterSp eoi s) u ∧ (chars u).head? = some '{' ∧ r.rest.length ≤ u.length))

theorem optChildren_spec {inner : P O (List (SpannedNode (Sp O)))} (hsuf : Suf inner) {eoi : Sp O} {s}
    (hin : ∀ w1, w1.length < s.length → NodesSpec w1 (inner eoi w1)) : ChildSpec eoi s (optChildren inner eoi s) := by
  obtain ⟨as, alt0, a1, a2, a3, a4, a5, a6, _⟩ := spaces_spec eoi s
  obtain ⟨o, alt1, u, b1, b2, b3, b4, b5⟩ := optDash_spec eoi (afterSp eoi s)
  have hle := entryAt_le b2
  have hD : ignoreThen (repeated nodeSpace) (orNot (thenIgnore (beginComment '-') (repeated nodeSpace))) eoi s =
      ⟨false, [], .ok (o, mergeAlts alt0 alt1), u⟩ := by
    have hr : (repeated nodeSpace eoi s).rest = afterSp eoi s := rfl
    rw [ignoreThen, bind]
    simp only [a1, hr, b1, a2, a3, (mergeAlts_plain a4 b3).2, Bool.or_self, List.append_nil]
  have hpl := (mergeAlts_plain a4 b3).1
  have hlb : NoSp u → LB (u.length - 1) (mergeAlts alt0 alt1) := fun hn =>
    mergeAlts_lb ((a5 (entryAt_noSp b2 hn)).mono (by omega)) (b4 hn)
  generalize mergeAlts alt0 alt1 = altD at hD hpl hlb
  have hb := braced_spec hsuf (eoi := eoi) (w := u) (fun w1 h => hin w1 (by omega))
  cases ho : (bracedNodes inner eoi u).out with
  | ok x =>
    obtain ⟨g1, g2, g3, g4⟩ := hb.ok x.1 x.2 ho
    have hm := mergeAlts_plain hpl g1
    have hr : optChildren inner eoi s = ⟨false, (bracedNodes inner eoi u).errs,
        .ok (some (o, ⟨spanSince eoi u (bracedNodes inner eoi u).rest, x.1⟩), mergeAlts altD x.2), (bracedNodes inner eoi u).rest⟩ := by
      simp only [optChildren, orNot, seq, bind, hD]
      simp [pmap, spanned, mapWithSpan, ho, hb.np, hm.2]
    rw [hr]
    refine ⟨rfl, _, _, rfl, Or.inr ⟨hm.1, ?_, u, b2, g3, by simp only; omega⟩⟩
    exact mergeAlts_lb ((hlb (stop_brace g3).sp).mono (by simp only; omega)) (g2.mono (by simp only; omega))
  | error e =>
    have hr : optChildren inner eoi s = ⟨e.clashO altD, [], .ok (none, some (e.maxO altD)), s⟩ := by
      simp only [optChildren, orNot, seq, bind, hD]
      simp [pmap, spanned, mapWithSpan, ho, hb.np]
    have hc : e.clashO altD = false ∧ ((e.maxO altD).err.plain = true ∨
        ((chars u).head? = some '{' ∧ (e.maxO altD).rem + 3 ≤ u.length)) := by
      rcases hb.err e ho with h | ⟨h, h'⟩
      · exact ⟨(maxO_plain h hpl).2, Or.inl (maxO_plain h hpl).1⟩
      · have := maxO_far (a := e) ((hlb (stop_brace h).sp).mono (by omega))
        exact ⟨this.2, Or.inr ⟨h, by rw [this.1]; exact h'⟩⟩
    rw [hr]
    refine ⟨hc.1, _, _, rfl, Or.inl ⟨rfl, _, rfl, ?_, ?_⟩⟩
    · rcases hc.2 with h | ⟨h1, h2⟩
      · exact Or.inl h
      · exact Or.inr ⟨u, b2, h1, h2⟩
    · intro u' hu' hs
      have hnd : ¬ ['/', '-'] <+: chars u' := by
        rcases hs with h | h
        · exact h.1.dash
        · exact h.noDash
      have := b5 u' hu' hnd
      subst this
      have hsp : NoSp u' := by
        rcases hs with h | h
        · exact h.1.sp
        · exact h.noSp
      have hnb : (chars u').head? ≠ some '{' := by
        rcases hs with h | h
        · exact h.2
        · exact h.ne (by decide)
      have h1 := hb.near hnb e ho
      have := maxO_lb (n := u'.length - 1) (a := e) (by omega) (hlb hsp)
      omega

/-! ## The end of a node -/

theorem term_ok_stop {eoi : Sp O} {s x} (h : (nodeTerminator eoi s).out = .ok x) :
    Stop s ∧ (chars s).head? ≠ some '{' := by
  have hall : ∀ c ∈ ';' :: Cst.newlineChars, c ≠ '\\' ∧ c ≠ '/' ∧ c ≠ '{' ∧ c ≠ '=' ∧ isIdSansDig c = false ∧
      c ∉ Cst.decDigits ∧ c ≠ '"' ∧ c ≠ '(' := by decide
  have key : ∀ c ∈ ';' :: Cst.newlineChars, (chars s).head? = some c → Stop s ∧ (chars s).head? ≠ some '{' := by
    intro c hc hh
    obtain ⟨h1, h2, h3, h4, h5, h6, h7, h8⟩ := hall c hc
    exact ⟨⟨notStart_of_head hh ⟨h5, h6, h7, h8⟩, not_block_of_head hh h2, noSp_of_head hh h1 h2, by rw [hh]; simpa using h4⟩,
      by rw [hh]; simpa using h3⟩
  obtain ⟨p, hp, h1, _⟩ := choice_ok_inv h
  simp only [List.mem_cons, List.not_mem_nil, or_false] at hp
  rcases hp with rfl | rfl | rfl | rfl
  · obtain ⟨c, hc, hc'⟩ := newline_ok_head h1
    exact key c (List.mem_cons_of_mem _ hc') hc
  · have hp := comment_ok_prefix h1
    refine ⟨⟨notStart_dash hp, fun h' => absurd (prefix_clash hp h') (by decide), ⟨?_, fun h' => absurd (prefix_clash hp h') (by decide)⟩, ?_⟩, ?_⟩ <;>
    · obtain ⟨w, hw⟩ := hp
      rw [← hw]; simp
  · obtain ⟨b, h2, _⟩ := pmap_ok_inv (b := x.1) (alt := x.2) h1
    exact key ';' (by simp) (just_ok_head h2).1
  · have : s = [] := by
      unfold endP at h1
      cases s with
      | nil => rfl
      | cons y t => simp [pfail] at h1
    subst this
    refine ⟨⟨?_, by simp [chars], ⟨by simp [chars], by simp [chars]⟩, by simp [chars]⟩, by simp [chars]⟩
    intro c hc; simp [chars] at hc

theorem tight_nodeTerminator : Tight (nodeTerminator : P O Unit) := by
  refine tight_choice ?_
  intro p hp
  simp only [List.mem_cons, List.not_mem_nil, or_false] at hp
  rcases hp with rfl | rfl | rfl | rfl
  · exact tight_newline
  · exact tight_comment
  · exact tight_ignored (tight_just _)
  · exact tight_endP

theorem near_nodeTerminator : Near 1 (nodeTerminator : P O Unit) := by
  refine near_choice (by simp) ?_
  intro p hp
  simp only [List.mem_cons, List.not_mem_nil, or_false] at hp
  rcases hp with rfl | rfl | rfl | rfl
  · exact near_newline
  · exact near_comment
  · exact fun _ _ _ h => Nat.le_succ_of_le (near_ignored (near_just _) _ _ _ h)
  · exact fun _ _ _ h => Nat.le_succ_of_le (near_endP _ _ _ h)

theorem term_ok_rest {eoi : Sp O} {s x} (h : (nodeTerminator eoi s).out = .ok x) :
    (nodeTerminator eoi s).rest.length ≤ s.length - 1 := by
  obtain ⟨p, hp, h1, h2, _⟩ := choice_ok_inv h
  have h2' : (nodeTerminator eoi s).rest = (p eoi s).rest := h2
  rw [h2']
  simp only [List.mem_cons, List.not_mem_nil, or_false] at hp
  rcases hp with rfl | rfl | rfl | rfl
  · have := eats_newline eoi s x h1; omega
  · have := eats_comment eoi s x h1; omega
  · have := eats_ignored (eats_just (O := O) (c := ';')) eoi s x h1; omega
  · unfold endP at h1 ⊢
    cases s with
    | nil => simp [pok]
    | cons y t => simp [pfail] at h1

/-- Space and the terminator of a node. -/
structure TermSpec (eoi : Sp O) (s : List (Tok O)) (r : PRes O α) : Prop where
  np : r.panicked = false
  ok : ∀ a alt, r.out = .ok (a, alt) → OPlain alt ∧ LB r.rest.length alt ∧ Stop (afterSp eoi s) ∧
    (chars (afterSp eoi s)).head? ≠ some '{' ∧ r.rest.length ≤ (afterSp eoi s).length - 1
  err : ∀ e, r.out = .error e → e.err.plain = true ∧
    ∀ u, EntryAt eoi (afterSp eoi s) u → NoSp u → u.length ≤ e.rem + 1

theorem termP_spec (eoi : Sp O) (s : List (Tok O)) :
    TermSpec eoi s (seq (repeated nodeSpace) nodeTerminator eoi s) := by
  obtain ⟨as, alt0, a1, a2, a3, a4, a5, a6, _⟩ := spaces_spec eoi s
  have ht := calm_nodeTerminator (O := O) eoi (afterSp eoi s) (Nat.le_refl _)
  have hr0 : (repeated nodeSpace eoi s).rest = afterSp eoi s := rfl
  cases ho : (nodeTerminator eoi (afterSp eoi s)).out with
  | ok x =>
    have hm := mergeAlts_plain a4 (calmR_ok ht ho)
    have hr : seq (repeated nodeSpace) nodeTerminator eoi s = ⟨false, (nodeTerminator eoi (afterSp eoi s)).errs,
        .ok ((as, x.1), mergeAlts alt0 x.2), (nodeTerminator eoi (afterSp eoi s)).rest⟩ := by
      simp [seq, bind, a1, hr0, pmap, ho, a2, a3, ht.np, hm.2]
    have hst := term_ok_stop ho
    have hle := term_ok_rest ho
    rw [hr]
    refine ⟨rfl, ?_, by simp⟩
    intro a alt h; injection h with h; injection h with _ h; subst h
    exact ⟨hm.1, mergeAlts_lb ((a5 hst.1.sp).mono hle) (tight_nodeTerminator _ _ _ _ ho), hst.1, hst.2, hle⟩
  | error e =>
    have hm := maxO_plain (calmR_error ht ho) a4
    have hr : seq (repeated nodeSpace) nodeTerminator eoi s = ⟨false, (nodeTerminator eoi (afterSp eoi s)).errs,
        .error (e.maxO alt0), (nodeTerminator eoi (afterSp eoi s)).rest⟩ := by
      simp [seq, bind, a1, hr0, pmap, ho, a2, a3, ht.np, hm.2]
    rw [hr]
    refine ⟨rfl, by simp, ?_⟩
    intro e' h; injection h with h; subst h
    refine ⟨hm.1, fun u hu hn => ?_⟩
    have h1 := near_nodeTerminator eoi _ e ho
    have h2 := entryAt_le hu
    have h3 := maxO_lb (n := (afterSp eoi s).length - 1) (a := e) (by omega) (a5 (entryAt_noSp hu hn))
    omega

/-! ## Nodes -/

/-- The alternative error before the terminator of a node. -/
structure BodyAlt (eoi : Sp O) (t : List (Tok O)) (alt : Option (Loc O)) : Prop where
  err : ∀ e, alt = some e → e.err.plain = true ∨
    ∃ u, EntryAt eoi (afterSp eoi t) u ∧ (DigitAt u ∨ (chars u).head? = some '{') ∧ e.rem + 3 ≤ u.length
  stop : ∀ u, EntryAt eoi (afterSp eoi t) u → Stop u → (chars u).head? ≠ some '{' → LB (u.length - 1) alt

theorem entryAt_unique {eoi : Sp O} {s u v} (hu : EntryAt eoi s u) (hv : EntryAt eoi s v)
    (h1 : ¬ ['/', '-'] <+: chars u) (h2 : ¬ ['/', '-'] <+: chars v) : u = v := by
  rcases hu with rfl | ⟨hp, rfl⟩
  · rcases hv with rfl | ⟨hp, rfl⟩
    · rfl
    · exact absurd hp h1
  · rcases hv with rfl | ⟨_, rfl⟩
    · exact absurd hp h2
    · rfl

/-- Header and entries. -/
theorem headItems_spec {eoi : Sp O} {s a alt} (hh : (header eoi s).out = .ok (a, alt)) :
    ∃ as alt', seq header (repeated spaceEntry) eoi s = ⟨false, (header eoi s).errs ++ (repeated spaceEntry eoi (header eoi s).rest).errs,
      .ok ((a, as), alt'), (repeated spaceEntry eoi (header eoi s).rest).rest⟩ ∧
      ItemAlt eoi (repeated spaceEntry eoi (header eoi s).rest).rest alt' := by
  have hc := calm_header (O := O) eoi s (Nat.le_refl _)
  obtain ⟨hlb, _⟩ := header_ok_alt hh
  obtain ⟨as, alt1, h1, h2, h3⟩ := items_spec eoi (header eoi s).rest
  have hle := (suf_repeated suf_spaceEntry eoi (header eoi s).rest).length_le
  generalize ht : (repeated spaceEntry eoi (header eoi s).rest).rest = t at h3 hle
  have hle2 := afterSp_le eoi t
  have hpl := calmR_ok hc hh
  have hcl : clashAlts alt alt1 = false ∧ ItemAlt eoi t (mergeAlts alt alt1) := by
    have hst : ∀ u, EntryAt eoi (afterSp eoi t) u → Stop u → LB (u.length - 1) (mergeAlts alt alt1) := fun u hu hs => by
      have := entryAt_le hu
      exact mergeAlts_lb (hlb.mono (by omega)) (h3.stop u hu hs)
    by_cases hp : OPlain alt1
    · have hm := mergeAlts_plain hpl hp
      exact ⟨hm.2, ⟨fun e he => Or.inl (hm.1 e he), hst⟩⟩
    · cases alt1 with
      | none => exact absurd oplain_none hp
      | some e =>
        rcases h3.err e rfl with h | ⟨u, g1, g2, g3⟩
        · exact absurd (oplain_some.2 h) hp
        · have := entryAt_le g1
          have hf := mergeAlts_far (a := e) (o := alt) (hlb.mono (by omega))
          refine ⟨hf.2.2.2, ⟨?_, hst⟩⟩
          rw [hf.2.1]
          intro e' he'; injection he' with he'; subst he'
          exact Or.inr ⟨u, g1, g2, g3⟩
  refine ⟨as, _, ?_, hcl.2⟩
  rw [seq, bind]
  simp only [hh, pmap, h1, ht, hc.np, h2, hcl.1, Bool.or_self]

/-- Header, entries and children. -/
theorem body_spec {inner : P O (List (SpannedNode (Sp O)))} (hsuf : Suf inner) {eoi : Sp O} {s a alt}
    (hin : ∀ w1, w1.length < s.length → NodesSpec w1 (inner eoi w1))
    (hh : (header eoi s).out = .ok (a, alt)) :
    ∃ v alt' t, (seq (seq header (repeated spaceEntry)) (optChildren inner) eoi s).panicked = false ∧
      (seq (seq header (repeated spaceEntry)) (optChildren inner) eoi s).out = .ok (v, alt') ∧
      (seq (seq header (repeated spaceEntry)) (optChildren inner) eoi s).rest = t ∧ t.length < s.length ∧
      BodyAlt eoi t alt' := by
  obtain ⟨as, alt1, h1, h2⟩ := headItems_spec hh
  have hlt := eats_header eoi s _ hh
  have hle := (suf_repeated suf_spaceEntry eoi (header eoi s).rest).length_le
  generalize ht : (repeated spaceEntry eoi (header eoi s).rest).rest = t1 at h1 h2 hle
  have hc := optChildren_spec hsuf (eoi := eoi) (s := t1) (fun w1 hw => hin w1 (by omega))
  have hle3 := (suf_optChildren hsuf eoi t1).length_le
  obtain ⟨o, alt2, g1, g2⟩ := hc.ok
  have hres : clashAlts alt1 alt2 = false ∧ BodyAlt eoi (optChildren inner eoi t1).rest (mergeAlts alt1 alt2) := by
    rcases g2 with ⟨g3, e, g4, g5, g6⟩ | ⟨g3, g4, u, g5, g6, g7⟩
    · subst g4
      rw [g3]
      have hst : ∀ u, EntryAt eoi (afterSp eoi t1) u → Stop u → (chars u).head? ≠ some '{' →
          LB (u.length - 1) (mergeAlts alt1 (some e)) := fun u hu hs hb => by
        have := g6 u hu (Or.inl ⟨hs, hb⟩)
        exact mergeAlts_lb (h2.stop u hu hs) (lb_some.2 (by omega))
      by_cases hp : OPlain alt1
      · rcases g5 with g5 | ⟨u, f1, f2, f3⟩
        · have hm := mergeAlts_plain hp (oplain_some.2 g5)
          exact ⟨hm.2, ⟨fun e he => Or.inl (hm.1 e he), hst⟩⟩
        · have hf := mergeAlts_far (a := e) (o := alt1) ((h2.stop u f1 (stop_brace f2)).mono (by omega))
          refine ⟨hf.2.2.2, ⟨?_, hst⟩⟩
          rw [hf.2.1]
          intro e' he'; injection he' with he'; subst he'
          exact Or.inr ⟨u, f1, Or.inr f2, f3⟩
      · cases alt1 with
        | none => exact absurd oplain_none hp
        | some e1 =>
          rcases h2.err e1 rfl with h | ⟨u, f1, f2, f3⟩
          · exact absurd (oplain_some.2 h) hp
          · have f4 := g6 u f1 (Or.inr f2)
            have hf := mergeAlts_far (a := e1) (o := some e) (lb_some.2 (by omega))
            refine ⟨hf.2.2.1, ⟨?_, hst⟩⟩
            rw [hf.1]
            intro e' he'; injection he' with he'; subst he'
            exact Or.inr ⟨u, f1, Or.inl f2, f3⟩
    · have hpl : OPlain alt1 := by
        intro e1 he1
        rcases h2.err e1 he1 with h | ⟨u', f1, f2, f3⟩
        · exact h
        · exfalso
          have := entryAt_unique f1 g5 f2.noDash (stop_brace g6).dash
          subst this
          exact f2.ne (by decide) g6
      have hm := mergeAlts_plain hpl g3
      refine ⟨hm.2, ⟨fun e he => Or.inl (hm.1 e he), ?_⟩⟩
      intro u' hu' hs' _
      have f1 := entryAt_le hu'
      have f2 := afterSp_le eoi (optChildren inner eoi t1).rest
      exact mergeAlts_lb ((h2.stop u g5 (stop_brace g6)).mono (by omega)) (g4.mono (by omega))
  refine ⟨((a, as), o), mergeAlts alt1 alt2, (optChildren inner eoi t1).rest, ?_, ?_, ?_, by omega, hres.2⟩ <;>
  · rw [seq, bind]
    simp only [h1, pmap, g1, hc.np, hres.1, Bool.or_self]

structure NodeSpec (s : List (Tok O)) (r : PRes O α) : Prop where
  np : r.panicked = false
  ok : ∀ a alt, r.out = .ok (a, alt) → OPlain alt ∧ LB r.rest.length alt ∧ ¬ NotStart s
  err : ∀ e, r.out = .error e → e.err.plain = true ∨ (e.rem + 4 ≤ s.length ∧ ¬ NotStart s)
  near : NotStart s → ∀ e, r.out = .error e → s.length ≤ e.rem

theorem node_spec {inner : P O (List (SpannedNode (Sp O)))} (hsuf : Suf inner) {eoi : Sp O} {s}
    (hin : ∀ w1, w1.length < s.length → NodesSpec w1 (inner eoi w1)) : NodeSpec s (node inner eoi s) := by
  have hc := calm_header (O := O) eoi s (Nat.le_refl _)
  suffices h : NodeSpec s (thenIgnore (seq (seq header (repeated spaceEntry)) (optChildren inner))
      (seq (repeated nodeSpace) nodeTerminator) eoi s) by
    refine ⟨h.np, ?_, ?_, ?_⟩
    · intro a alt ho
      obtain ⟨b, h1, _⟩ := pmap_ok_inv ho
      exact h.ok b alt h1
    · intro e ho; exact h.err e (pmap_error.1 ho)
    · intro hs e ho; exact h.near hs e (pmap_error.1 ho)
  cases hh : (header eoi s).out with
  | error e =>
    have hr : thenIgnore (seq (seq header (repeated spaceEntry)) (optChildren inner))
        (seq (repeated nodeSpace) nodeTerminator) eoi s = ⟨false, (header eoi s).errs, .error e, (header eoi s).rest⟩ := by
      simp [thenIgnore, seq, bind, hh, hc.np]
    rw [hr]
    refine ⟨rfl, by simp, ?_, ?_⟩
    · intro e' h; injection h with h; subst h; exact Or.inl (calmR_error hc hh)
    · intro hs e' h; injection h with h; subst h; exact at_header hs e hh
  | ok x =>
    have hns := (header_ok_alt (a := x.1) (alt := x.2) hh).2
    obtain ⟨v, alt, t, h1, h2, h3, h4, h5⟩ := body_spec hsuf hin (a := x.1) (alt := x.2) hh
    have hT := termP_spec eoi t
    have hle := afterSp_le eoi t
    cases ho : (seq (repeated nodeSpace) nodeTerminator eoi t).out with
    | ok y =>
      obtain ⟨g1, g2, g3, g4, g5⟩ := hT.ok y.1 y.2 ho
      have hpl : OPlain alt := by
        intro e he
        rcases h5.err e he with h | ⟨u, f1, f2, f3⟩
        · exact h
        · exfalso
          have hud : ¬ ['/', '-'] <+: chars u := by
            rcases f2 with f2 | f2
            · exact f2.noDash
            · exact (stop_brace f2).dash
          have := entryAt_unique f1 (Or.inl rfl) hud g3.dash
          subst this
          rcases f2 with ⟨d, f2, f4⟩ | f2
          · exact (g3.start d f2).2.1 f4
          · exact g4 f2
      have hm := mergeAlts_plain hpl g1
      have hr : thenIgnore (seq (seq header (repeated spaceEntry)) (optChildren inner))
          (seq (repeated nodeSpace) nodeTerminator) eoi s =
          ⟨false, (seq (seq header (repeated spaceEntry)) (optChildren inner) eoi s).errs ++
            (seq (repeated nodeSpace) nodeTerminator eoi t).errs, .ok (v, mergeAlts alt y.2),
            (seq (repeated nodeSpace) nodeTerminator eoi t).rest⟩ := by
        rw [thenIgnore, bind]
        simp only [h2, h3, h1, pmap, ho, hT.np, hm.2, Bool.or_self]
      rw [hr]
      refine ⟨rfl, ?_, by simp, fun hs => absurd hs hns⟩
      intro a alt' h; injection h with h; injection h with _ h; subst h
      refine ⟨hm.1, mergeAlts_lb ?_ g2, hns⟩
      exact (h5.stop _ (Or.inl rfl) g3 g4).mono g5
    | error e =>
      obtain ⟨g1, g2⟩ := hT.err e ho
      have hr : thenIgnore (seq (seq header (repeated spaceEntry)) (optChildren inner))
          (seq (repeated nodeSpace) nodeTerminator) eoi s =
          ⟨e.clashO alt, (seq (seq header (repeated spaceEntry)) (optChildren inner) eoi s).errs ++
            (seq (repeated nodeSpace) nodeTerminator eoi t).errs, .error (e.maxO alt),
            (seq (repeated nodeSpace) nodeTerminator eoi t).rest⟩ := by
        rw [thenIgnore, bind]
        simp only [h2, h3, h1, pmap, ho, hT.np, Bool.or_self, Bool.false_or]
      have hcl : e.clashO alt = false ∧ ((e.maxO alt).err.plain = true ∨ (e.maxO alt).rem + 4 ≤ s.length) := by
        by_cases hp : OPlain alt
        · have := maxO_plain g1 hp
          exact ⟨this.2, Or.inl this.1⟩
        · cases alt with
          | none => exact absurd oplain_none hp
          | some m =>
            rcases h5.err m rfl with h | ⟨u, f1, f2, f3⟩
            · exact absurd (oplain_some.2 h) hp
            · have hnsp : NoSp u := by
                rcases f2 with f2 | f2
                · exact f2.noSp
                · exact (stop_brace f2).sp
              have f4 := g2 u f1 hnsp
              have f5 := entryAt_le f1
              have := Loc.max_far (a := m) (b := e) (by omega)
              refine ⟨this.2.2.2, Or.inr ?_⟩
              show (e.max m).rem + 4 ≤ s.length
              rw [this.2.1]; omega
      rw [hr]
      refine ⟨hcl.1, by simp, ?_, fun hs => absurd hs hns⟩
      intro e' h; injection h with h; subst h
      rcases hcl.2 with h | h
      · exact Or.inl h
      · exact Or.inr ⟨h, hns⟩

structure NodeItemSpec (s : List (Tok O)) (r : PRes O α) : Prop where
  np : r.panicked = false
  ok : ∀ a alt, r.out = .ok (a, alt) → OPlain alt ∧ LB r.rest.length alt ∧ NoSp s
  err : ∀ e, r.out = .error e → e.err.plain = true ∨ (e.rem + 2 ≤ s.length ∧ NoSp s ∧ (chars s).head? ≠ some '}')
  near : (chars s).head? = some '}' → ∀ e, r.out = .error e → s.length ≤ e.rem + 1

theorem nodeItem_spec {inner : P O (List (SpannedNode (Sp O)))} (hsuf : Suf inner) {eoi : Sp O} {s}
    (hin : ∀ w1, w1.length < s.length → NodesSpec w1 (inner eoi w1)) : NodeItemSpec s (nodeItem inner eoi s) := by
  obtain ⟨o, alt0, u, b1, b2, b3, b4, b5⟩ := optDash_spec eoi s
  have hle := entryAt_le b2
  have hn := node_spec hsuf (eoi := eoi) (s := u) (fun w1 h => hin w1 (by omega))
  cases ho : (node inner eoi u).out with
  | ok x =>
    obtain ⟨g1, g2, g3⟩ := hn.ok x.1 x.2 ho
    have hlt := eats_node hsuf eoi u x ho
    have hsp := noSp_of_start g3
    have hm := mergeAlts_plain b3 g1
    have hr : nodeItem inner eoi s = ⟨false, (node inner eoi u).errs,
        .ok ((o, ⟨spanSince eoi u (node inner eoi u).rest, x.1⟩), mergeAlts alt0 x.2), (node inner eoi u).rest⟩ := by
      simp only [nodeItem, seq, bind, b1]
      simp [pmap, spanned, mapWithSpan, ho, hn.np, hm.2]
    rw [hr]
    refine ⟨rfl, ?_, by simp, by simp⟩
    intro a alt h; injection h with h; injection h with _ h; subst h
    exact ⟨hm.1, mergeAlts_lb ((b4 hsp).mono (by simp only; omega)) g2, entryAt_noSp b2 hsp⟩
  | error e =>
    have hr : nodeItem inner eoi s = ⟨e.clashO alt0, (node inner eoi u).errs, .error (e.maxO alt0), (node inner eoi u).rest⟩ := by
      simp only [nodeItem, seq, bind, b1]
      simp [pmap, spanned, mapWithSpan, ho, hn.np]
    have hcl : e.clashO alt0 = false ∧ ((e.maxO alt0).err.plain = true ∨
        ((e.maxO alt0).rem + 2 ≤ s.length ∧ ¬ NotStart u)) := by
      rcases hn.err e ho with h | ⟨h, h'⟩
      · exact ⟨(maxO_plain h b3).2, Or.inl (maxO_plain h b3).1⟩
      · have := maxO_far (a := e) ((b4 (noSp_of_start h')).mono (by omega))
        exact ⟨this.2, Or.inr ⟨by rw [this.1]; omega, h'⟩⟩
    rw [hr]
    refine ⟨hcl.1, by simp, ?_, ?_⟩
    · intro e' h; injection h with h; subst h
      rcases hcl.2 with h | ⟨h, h'⟩
      · exact Or.inl h
      · refine Or.inr ⟨h, entryAt_noSp b2 (noSp_of_start h'), ?_⟩
        intro hb
        have := b5 s (Or.inl rfl) (not_block_of_head hb (by decide))
        subst this
        exact h' (notStart_of_head hb (by decide))
    · intro hb e' h; injection h with h; subst h
      have := b5 s (Or.inl rfl) (not_block_of_head hb (by decide))
      subst this
      have h1 := hn.near (notStart_of_head hb (by decide)) e ho
      have h2 := maxO_lb (n := s.length - 1) (a := e) (by omega) (b4 (noSp_of_head hb (by decide) (by decide)))
      omega

/-! ## Lists of nodes -/

theorem lines_spec (eoi : Sp O) (s : List (Tok O)) : ∃ as alt t,
    (repeated lineSpace eoi s) = ⟨false, [], .ok (as, alt), t⟩ ∧ OPlain alt ∧
    (NoSp t → LB (t.length - 1) alt) ∧ t.length ≤ s.length := by
  obtain ⟨as, t, ⟨h1, ⟨alt, h2⟩, h3⟩, h4⟩ := lines_total (eoi := eoi) s
  have hc := calm_lines (O := O) eoi s (Nat.le_refl _)
  refine ⟨as, alt, t, ?_, calmR_ok hc h2, fun hn => ?_, h4⟩
  · cases hr : repeated lineSpace eoi s with
    | mk a b c d =>
      rw [hr] at h1 h2 h3 hc
      have := hc.np
      simp only at h1 h2 h3 this; simp [h1, h2, h3, this]
  · have := lines_alt h2 (by rw [h3]; exact hn.2)
    rwa [h3] at this

/-- The final state of the loop over items. -/
theorem sepGo_spec {item : P O α} {eoi : Sp O} {n : Nat} (hitem : ∀ s, s.length < n → NodeItemSpec s (item eoi s))
    (heat : Eats 1 item) : ∀ fuel {outs errs alt s}, s.length < fuel → s.length < n → OPlain alt → LB s.length alt →
    ∃ outs' errs' alt' s' as dalt t e, sepGo item (repeated lineSpace) eoi fuel outs errs alt false s =
        (outs', errs', alt', false, s', some e) ∧
      repeated lineSpace eoi s' = ⟨false, [], .ok (as, dalt), t⟩ ∧ t.length ≤ s.length ∧
      OPlain alt' ∧ OPlain dalt ∧ (NoSp t → LB (t.length - 1) alt' ∧ LB (t.length - 1) dalt) ∧
      (item eoi t).out = .error e := by
  intro fuel
  induction fuel with
  | zero => intro _ _ _ _ h; omega
  | succ f ih =>
    intro outs errs alt s hf hsn ha hl
    obtain ⟨as, dalt, t, h1, h2, h3, h4⟩ := lines_spec eoi s
    have hi := hitem t (by omega)
    have hm := mergeAlts_plain ha h2
    cases ho : (item eoi t).out with
    | error e =>
      refine ⟨outs, errs ++ [] ++ (item eoi t).errs, mergeAlts alt dalt, s, as, dalt, t, e, ?_, h1, h4, hm.1, h2, ?_, ho⟩
      · simp [sepGo, h1, ho, hi.np, hm.2]
      · intro hn
        exact ⟨mergeAlts_lb (hl.mono (by omega)) (h3 hn), h3 hn⟩
    | ok x =>
      have hlt := heat eoi t x ho
      obtain ⟨g1, g2, g3⟩ := hi.ok x.1 x.2 ho
      have hm2 := mergeAlts_plain hm.1 g1
      have hlt2 : (item eoi t).rest.length < s.length := by omega
      obtain ⟨outs', errs', alt', s', as', dalt', t', e, k1, k2, k3, k4⟩ :=
        ih (outs := outs ++ [x.1]) (errs := errs ++ [] ++ (item eoi t).errs) (alt := mergeAlts (mergeAlts alt dalt) x.2)
          (s := (item eoi t).rest) (by omega) (by omega) hm2.1
          (mergeAlts_lb (mergeAlts_lb (hl.mono (by omega)) ((h3 g3).mono (by omega))) g2)
      refine ⟨outs', errs', alt', s', as', dalt', t', e, ?_, k2, by omega, k4⟩
      rw [← k1, sepGo]
      simp only [h1, ho, hi.np, hm.2, hm2.2, hlt2, if_true, Bool.or_self]

theorem separated_spec {item : P O α} {eoi : Sp O} {n : Nat} (hitem : ∀ s, s.length < n → NodeItemSpec s (item eoi s))
    (heat : Eats 1 item) (s : List (Tok O)) (hsn : s.length < n) : NodesSpec s (separatedBy item (repeated lineSpace) eoi s) := by
  obtain ⟨as, dalt, t, h1, h2, h3, h4⟩ := lines_spec eoi s
  have hsd : sepDelim (repeated lineSpace) eoi none s = (dalt, false, t) := by
    cases dalt <;> simp [sepDelim, h1, mergeAltsL, clashAltsL, mergeAlts, clashAlts]
  have hi := hitem t (by omega)
  cases ho : (item eoi t).out with
  | error e =>
    have hcl : clashAlts dalt (some e) = false ∧
        (∀ e', mergeAlts dalt (some e) = some e' → e'.err.plain = true ∨ (e'.rem + 2 ≤ t.length ∧ (chars t).head? ≠ some '}')) := by
      rcases hi.err e ho with h | ⟨g1, g2, g3⟩
      · have := mergeAlts_plain h2 (oplain_some.2 h)
        exact ⟨this.2, fun e' he' => Or.inl (this.1 e' he')⟩
      · have := mergeAlts_far (a := e) (o := dalt) ((h3 g2).mono (by omega))
        refine ⟨this.2.2.2, ?_⟩
        rw [this.2.1]
        intro e' he'; injection he' with he'; subst he'
        exact Or.inr ⟨g1, g3⟩
    have hr : separatedBy item (repeated lineSpace) eoi s = ⟨false, (item eoi t).errs, .ok ([], mergeAlts dalt (some e)), t⟩ := by
      simp [separatedBy, hsd, ho, hi.np, hcl.1]
    rw [hr]
    refine ⟨rfl, _, _, rfl, hcl.2, ?_⟩
    intro hb
    have := hi.near hb e ho
    exact mergeAlts_lb (h3 (noSp_of_head hb (by decide) (by decide))) (lb_some.2 (by simp only; omega))
  | ok x =>
    have hlt := heat eoi t x ho
    obtain ⟨g1, g2, g3⟩ := hi.ok x.1 x.2 ho
    have hm := mergeAlts_plain h2 g1
    obtain ⟨outs', errs', alt', s', as', dalt', t', e, k1, k2, k3, k4, k5, k6, k7⟩ :=
      sepGo_spec hitem heat ((item eoi t).rest.length + 1) (outs := [x.1]) (errs := (item eoi t).errs)
        (alt := mergeAlts dalt x.2) (s := (item eoi t).rest) (by omega) (by omega) hm.1
        (mergeAlts_lb ((h3 g3).mono (by omega)) g2)
    have hm2 := mergeAlts_plain k4 k5
    have hsd2 : sepDelim (repeated lineSpace) eoi alt' s' = (mergeAlts alt' dalt', false, t') := by
      simp [sepDelim, k2, mergeAltsL, clashAltsL, hm2.2]
    have hi' := hitem t' (by omega)
    have hlb : NoSp t' → LB (t'.length - 1) (mergeAlts alt' dalt') := fun hn => mergeAlts_lb (k6 hn).1 (k6 hn).2
    generalize mergeAlts alt' dalt' = alt2 at hm2 hsd2 hlb
    have hcl : clashAlts alt2 (some e) = false ∧
        (∀ e', mergeAlts alt2 (some e) = some e' → e'.err.plain = true ∨ (e'.rem + 2 ≤ t'.length ∧ (chars t').head? ≠ some '}')) := by
      rcases hi'.err e k7 with h | ⟨g1, g2, g3⟩
      · have := mergeAlts_plain hm2.1 (oplain_some.2 h)
        exact ⟨this.2, fun e' he' => Or.inl (this.1 e' he')⟩
      · have := mergeAlts_far (a := e) (o := alt2) ((hlb g2).mono (by omega))
        refine ⟨this.2.2.2, ?_⟩
        rw [this.2.1]
        intro e' he'; injection he' with he'; subst he'
        exact Or.inr ⟨g1, g3⟩
    have hr : separatedBy item (repeated lineSpace) eoi s = ⟨false, errs', .ok (outs', mergeAlts alt2 (some e)), t'⟩ := by
      simp only [separatedBy, hsd, ho, hi.np, hm.2, Bool.or_self, k1, hsd2, hcl.1]
    rw [hr]
    refine ⟨rfl, _, _, rfl, hcl.2, ?_⟩
    intro hb
    have := hi'.near hb e k7
    exact mergeAlts_lb (hlb (noSp_of_head hb (by decide) (by decide))) (lb_some.2 (by simp only; omega))

theorem nodesRec_spec : ∀ (n : Nat) {eoi : Sp O} {s : List (Tok O)}, s.length < n → NodesSpec s (nodesRec n eoi s) := by
  intro n
  induction n with
  | zero => intro _ s h; omega
  | succ n ih =>
    intro eoi s h
    have h1 := separated_spec (eoi := eoi) (n := n + 1) (item := nodeItem (nodesRec n))
      (fun s hs => nodeItem_spec (suf_nodesRec n) (fun w1 hw => ih (by omega))) (eats_nodeItem (suf_nodesRec n)) s h
    obtain ⟨a, alt, g1, g2, g3⟩ := h1.ok
    refine ⟨h1.np, ⟨keepNodes a, alt, ?_, g2, g3⟩⟩
    simp only [nodesRec, pmap, g1]

theorem document_np (eoi : Sp O) (s : List (Tok O)) : (document eoi s).panicked = false := by
  have h := nodesRec_spec (s.length + 1) (eoi := eoi) (s := s) (by omega)
  obtain ⟨a, alt, g1, g2, _⟩ := h.ok
  have g1' : (nodes eoi s).out = .ok (a, alt) := g1
  have hnp : (nodes eoi s).panicked = false := h.np
  show (thenIgnore nodes endP eoi s).panicked = false
  have g2' : ∀ e, alt = some e → e.err.plain = true ∨ (e.rem + 2 ≤ (nodes eoi s).rest.length) :=
    fun e he => (g2 e he).imp id (fun h => h.1)
  rw [thenIgnore, bind]
  simp only [g1', pmap, hnp]
  generalize (nodes eoi s).rest = t at g2'
  cases t with
  | nil => cases alt <;> simp [endP, pok, clashAlts]
  | cons x t =>
    simp only [endP, pfail, Bool.false_or]
    cases alt with
    | none => rfl
    | some m =>
      rcases g2' m rfl with h | h
      · exact (maxO_plain (o := some m) rfl (oplain_some.2 h)).2
      · exact (Loc.max_far (a := m) (b := _) (by simp only [List.length_cons] at h ⊢; omega)).2.2.2

end Knuffel
