import Verif.Theory.NoPanic
/-!
# Entries do not panic
-/

set_option linter.unusedSimpArgs false
set_option linter.unusedSectionVars false
set_option linter.unusedVariables false

namespace Knuffel

variable {O α β γ : Type} [Offset O]

/-- The input after the space. -/
def afterSp (eoi : Sp O) (s : List (Tok O)) : List (Tok O) := (repeated nodeSpace eoi s).rest

theorem spaces_spec (eoi : Sp O) (s : List (Tok O)) : ∃ as alt,
    (repeated nodeSpace eoi s).out = .ok (as, alt) ∧ (repeated nodeSpace eoi s).panicked = false ∧
    (repeated nodeSpace eoi s).errs = [] ∧ OPlain alt ∧
    (NoSp (afterSp eoi s) → LB ((afterSp eoi s).length - 1) alt) ∧ (afterSp eoi s).length ≤ s.length ∧
    Fails nodeSpace eoi (afterSp eoi s) := by
  obtain ⟨as, t, ⟨h1, ⟨alt, h2⟩, h3⟩, h4⟩ := nodeSpaces_total (eoi := eoi) s
  have hc := calm_nodeSpaces (mn := 0) (mx := none) eoi s (Nat.le_refl _)
  have hok : Ok (repeated nodeSpace) eoi s as (afterSp eoi s) := ⟨h1, ⟨alt, h2⟩, rfl⟩
  refine ⟨as, alt, h2, hc.np, h1, calmR_ok hc h2, fun hn => spaces_alt h2 hn, ?_, ((ok_repeated eats_nodeSpace.consumes).1 hok).2⟩
  unfold afterSp; rw [h3]; exact h4

theorem afterSp_of_fails {eoi : Sp O} {s} (h : Fails nodeSpace eoi s) : afterSp eoi s = s :=
  ((ok_repeated eats_nodeSpace.consumes).2 ⟨Reps.nil s, h⟩).2.2

/-- Where the entry begins: here, or after a slashdash and space. -/
def EntryAt (eoi : Sp O) (s u : List (Tok O)) : Prop :=
  u = s ∨ (['/', '-'] <+: chars s ∧ u = afterSp eoi (s.drop 2))

/-- Neither an entry nor a slashdash nor space begins here. -/
structure Stop (u : List (Tok O)) : Prop where
  start : NotStart u
  dash : ¬ ['/', '-'] <+: chars u
  sp : NoSp u
  eq : (chars u).head? ≠ some '='

theorem length_of_prefix {s : List (Tok O)} {a b : Char} (h : [a, b] <+: chars s) : 2 ≤ s.length := by
  have := h.length_le
  simpa [chars] using this

theorem afterSp_le (eoi : Sp O) (s : List (Tok O)) : (afterSp eoi s).length ≤ s.length := by
  obtain ⟨_, _, _, _, _, _, _, h, _⟩ := spaces_spec eoi s
  exact h

theorem entryAt_le {eoi : Sp O} {s u} (h : EntryAt eoi s u) : u.length ≤ s.length := by
  rcases h with rfl | ⟨h1, rfl⟩
  · exact Nat.le_refl _
  · have := afterSp_le eoi (s.drop 2)
    simp at this; omega

theorem noSp_dash {s : List (Tok O)} (h : ['/', '-'] <+: chars s) : NoSp s := by
  refine ⟨?_, fun h' => absurd (prefix_clash h h') (by decide)⟩
  obtain ⟨w, hw⟩ := h
  rw [← hw]; simp

theorem noSp_of_head {s : List (Tok O)} {c : Char} (h : (chars s).head? = some c) (h1 : c ≠ '\\') (h2 : c ≠ '/') : NoSp s :=
  ⟨by rw [h]; simpa using h1, not_block_of_head h h2⟩

theorem entryAt_noSp {eoi : Sp O} {s u} (h : EntryAt eoi s u) (hu : NoSp u) : NoSp s := by
  rcases h with rfl | ⟨h1, _⟩
  · exact hu
  · exact noSp_dash h1

theorem DigitAt.noSp {s : List (Tok O)} (h : DigitAt s) : NoSp s := by
  obtain ⟨d, h1, h2⟩ := h
  exact noSp_of_head h1 ((by decide : ∀ c ∈ Cst.decDigits, c ≠ '\\') d h2) ((by decide : ∀ c ∈ Cst.decDigits, c ≠ '/') d h2)

theorem noSp_of_start {s : List (Tok O)} (h : ¬ NotStart s) : NoSp s := by
  refine ⟨fun hc => h (notStart_of_head hc (by decide)), ?_⟩
  rintro ⟨w, hw⟩
  exact h (notStart_of_head (c := '/') (by rw [← hw]; rfl) (by decide))

theorem notStart_dash {s : List (Tok O)} {c : Char} (h : ['/', c] <+: chars s) : NotStart s := by
  obtain ⟨w, hw⟩ := h
  exact notStart_of_head (c := '/') (by rw [← hw]; rfl) (by decide)

/-- A slashdash followed by space. -/
structure DashSpec (eoi : Sp O) (s : List (Tok O)) (r : PRes O α) : Prop where
  np : r.panicked = false
  errs : r.errs = []
  yes : ['/', '-'] <+: chars s → ∃ a alt, r.out = .ok (a, alt) ∧ r.rest = afterSp eoi (s.drop 2) ∧ OPlain alt ∧
    (NoSp r.rest → LB (r.rest.length - 1) alt)
  no : ¬ ['/', '-'] <+: chars s → ∃ e, r.out = .error e ∧ e.err.plain = true ∧ s.length ≤ e.rem + 1

theorem beginComment_rest {c} {eoi : Sp O} {s x} (h : (beginComment c eoi s).out = .ok x) :
    (beginComment c eoi s).rest = s.drop 2 ∧ x.2 = none := by
  obtain ⟨a, alt1, alt2, h1, h2, h3, h4⟩ := bind_ok_inv (b := x.1) (alt := x.2) h
  have h1 := mapErr_ok.1 h1
  obtain ⟨b, h2, _⟩ := pmap_ok_inv h2
  have g1 := just_ok_head h1
  have g2 := just_ok_head h2
  have e1 : alt1 = none := g1.2.2
  have e2 : alt2 = none := g2.2.2
  subst e1; subst e2
  refine ⟨?_, h3⟩
  have aux : ∀ {c : Char} {s : List (Tok O)} {x}, (just c eoi s).out = .ok x → (just c eoi s).rest = s.drop 1 := by
    intro c s x h
    unfold just at h ⊢
    cases s with
    | nil => simp [pfail] at h
    | cons y t =>
      obtain ⟨y, sp⟩ := y
      simp only at h ⊢
      by_cases hy : y = c
      · simp [hy, pok]
      · simp [hy, pfail] at h
  have h4' : (beginComment c eoi s).rest = (just c eoi (just '/' eoi s).rest).rest := h4
  have h2' : (just c eoi (just '/' eoi s).rest).out = .ok (b, none) := h2
  rw [h4', aux h2', aux h1]
  simp

theorem dash_bind {p : Unit → P O α} (hp : ∀ u, (∃ f : List Unit → α, p u = pmap f (repeated nodeSpace)))
    (eoi : Sp O) (s) : DashSpec eoi s (bind (beginComment '-') p eoi s) := by
  by_cases h : ['/', '-'] <+: chars s
  · have hok : ∃ alt, (beginComment '-' eoi s).out = .ok ((), alt) := by
      cases ho : (beginComment '-' eoi s).out with
      | ok x => exact ⟨x.2, rfl⟩
      | error e =>
        exfalso
        obtain ⟨w, hw⟩ := h
        have hT : Takes s ['/', '-'] (s.drop 2) := by
          obtain ⟨sp, t, rfl⟩ := toks_of_head (s := s) (c := '/') (by rw [← hw]; rfl)
          have hw' : '-' :: w = chars t := by simpa [chars] using hw
          obtain ⟨sp', t', rfl⟩ := toks_of_head (s := t) (c := '-') (by rw [← hw']; rfl)
          exact ⟨[('/', sp), ('-', sp')], rfl, rfl⟩
        exact (ok_beginComment (eoi := eoi) (u := ()).2 hT).not_fails ⟨e, ho⟩
    obtain ⟨alt, hok⟩ := hok
    obtain ⟨h1, h2⟩ := beginComment_rest hok
    have h2 : alt = none := h2
    subst h2
    obtain ⟨f, hf⟩ := hp ()
    obtain ⟨as, alt, g1, g2, g3, g4, g5, _⟩ := spaces_spec eoi (s.drop 2)
    have hn := (calm_beginComment (O := O) '-' eoi s (Nat.le_refl _)).np
    have hr : bind (beginComment '-') p eoi s = ⟨false, [], .ok (f as, alt), afterSp eoi (s.drop 2)⟩ := by
      have e1 := quiet_beginComment (O := O) '-' eoi s
      simp [bind, hok, hf, h1, pmap, g1, g2, g3, hn, e1, mergeAlts, clashAlts, afterSp]
    rw [hr]
    exact ⟨rfl, rfl, fun _ => ⟨_, _, rfl, rfl, g4, g5⟩, fun h' => absurd h h'⟩
  · obtain ⟨h0, e, he⟩ := failsC_beginComment (eoi := eoi) h
    have hc := calm_beginComment (O := O) '-' eoi s (Nat.le_refl _)
    have hr : bind (beginComment '-') p eoi s = ⟨false, [], .error e, (beginComment '-' eoi s).rest⟩ := by
      simp [bind, he, hc.np, h0]
    rw [hr]
    exact ⟨rfl, rfl, fun h' => absurd h' h, fun _ => ⟨e, rfl, calmR_error hc he, near_beginComment _ _ _ _ he⟩⟩

theorem dashI_spec (eoi : Sp O) (s) : DashSpec eoi s (ignoreThen (beginComment '-') (repeated nodeSpace) eoi s) := by
  refine dash_bind (fun _ => ⟨fun x => x, ?_⟩) eoi s
  funext eoi s
  obtain ⟨as, alt, g1, g2, g3, _⟩ := spaces_spec eoi s
  simp only [pmap]
  cases hr : repeated nodeSpace eoi s with
  | mk a b c d => rw [hr] at g1; simp only at g1; simp [g1]

theorem dashT_spec (eoi : Sp O) (s) : DashSpec eoi s (thenIgnore (beginComment '-') (repeated nodeSpace) eoi s) :=
  dash_bind (fun u => ⟨fun _ => u, rfl⟩) eoi s

/-- An entry that begins at `s0` or after a slashdash at `s0`. -/
structure EntSpec (eoi : Sp O) (s0 : List (Tok O)) (r : PRes O α) : Prop where
  np : r.panicked = false
  okP : ∀ a alt, r.out = .ok (a, alt) → OPlain alt
  okT : ∀ a alt, r.out = .ok (a, alt) → (chars r.rest).head? ≠ some '=' → LB (r.rest.length - 1) alt
  err : ∀ e, r.out = .error e → e.err.plain = true ∨ ∃ u, EntryAt eoi s0 u ∧ DigitAt u ∧ e.rem + 3 ≤ u.length
  stop : ∀ u, EntryAt eoi s0 u → Stop u → ∀ e, r.out = .error e → u.length ≤ e.rem + 1

theorem inner_ok_start {eoi : Sp O} {s x} (h : (propOrArgInner eoi s).out = .ok x) : ¬ NotStart s := fun hs =>
  not_ok_of_fails (fails_propOrArgInner hs).fails h

theorem max_rem_ge {a b : Loc O} {n} (ha : n ≤ a.rem + 1) (hb : n ≤ b.rem + 1) : n ≤ (a.max b).rem + 1 := by
  have := Loc.max_lb (n := n - 1) (a := a) (b := b) (by omega) (by omega)
  omega

/-- Merging the errors of two failed alternatives when the second is near. -/
theorem orP_error_far {p q : P O α} {eoi : Sp O} {s e1 e2} (h1 : (p eoi s).out = .error e1) (h2 : (q eoi s).out = .error e2)
    (np1 : (p eoi s).panicked = false) (np2 : (q eoi s).panicked = false)
    (hm : (e1.err.plain = true ∧ e2.err.plain = true) ∨ e1.rem ≠ e2.rem) :
    (orP p q eoi s).panicked = false ∧ ∃ e, (orP p q eoi s).out = .error e ∧
      ((e1.err.plain = true ∧ e2.err.plain = true ∧ e.err.plain = true) ∨
       (e = e1 ∧ e1.rem < e2.rem) ∨ (e = e2 ∧ e2.rem < e1.rem)) := by
  by_cases hpl : e1.err.plain = true ∧ e2.err.plain = true
  · rcases orP_error h1 h2 with h | h <;> rw [h]
    · exact ⟨by simp [np1, np2, Loc.clash_plain hpl.1 hpl.2], _, rfl, Or.inl ⟨hpl.1, hpl.2, Loc.max_plain hpl.1 hpl.2⟩⟩
    · exact ⟨by simp [np1, np2, Loc.clash_plain hpl.2 hpl.1], _, rfl, Or.inl ⟨hpl.1, hpl.2, Loc.max_plain hpl.2 hpl.1⟩⟩
  · have hne : e1.rem ≠ e2.rem := by
      rcases hm with h | h
      · exact absurd h hpl
      · exact h
    by_cases hlt : e1.rem < e2.rem
    · obtain ⟨g1, g2, g3, g4⟩ := Loc.max_far hlt
      rcases orP_error h1 h2 with h | h <;> rw [h]
      · exact ⟨by simp [np1, np2, g3], _, rfl, Or.inr (Or.inl ⟨g1, hlt⟩)⟩
      · exact ⟨by simp [np1, np2, g4], _, rfl, Or.inr (Or.inl ⟨g2, hlt⟩)⟩
    · obtain ⟨g1, g2, g3, g4⟩ := Loc.max_far (a := e2) (b := e1) (by omega)
      rcases orP_error h1 h2 with h | h <;> rw [h]
      · exact ⟨by simp [np1, np2, g4], _, rfl, Or.inr (Or.inr ⟨g2, by omega⟩)⟩
      · exact ⟨by simp [np1, np2, g3], _, rfl, Or.inr (Or.inr ⟨g1, by omega⟩)⟩

/-- The first alternative of `prop_or_arg`. -/
def dashEntry : P O (PropOrArg (Sp O)) := pmap (fun _ => .ignore)
  (ignoreThen (ignoreThen (beginComment '-') (repeated nodeSpace)) propOrArgInner)

theorem propOrArg_eq : (propOrArg : P O (PropOrArg (Sp O))) = orP dashEntry propOrArgInner := rfl

theorem propOrArg_spec (eoi : Sp O) (s : List (Tok O)) : EntSpec eoi s (propOrArg eoi s) := by
  have hi := inner_spec eoi s
  have hd := dashI_spec eoi s
  by_cases hp : ['/', '-'] <+: chars s
  · obtain ⟨a0, alt0, d1, d2, d3, d4⟩ := hd.yes hp
    -- the alternative without slashdash fails here
    have hns := notStart_dash hp
    obtain ⟨e2, hq2⟩ := (fails_propOrArgInner (eoi := eoi) hns).fails
    have hat2 := at_inner hns e2 hq2
    have hpl2 : e2.err.plain = true := by
      rcases hi.err e2 hq2 with h | ⟨h, _⟩
      · exact h
      · exfalso
        obtain ⟨w, hw⟩ := hp
        exact h.ne (c := '/') (by decide) (by rw [← hw]; rfl)
    generalize hu : afterSp eoi (s.drop 2) = u at d2
    have hul : u.length + 2 ≤ s.length := by
      have h1 := afterSp_le eoi (s.drop 2)
      have h2 := length_of_prefix hp
      simp at h1; rw [← hu]; omega
    have hui := inner_spec eoi u
    rw [d2] at d4
    -- the first alternative
    have hent : EntryAt eoi s u := Or.inr ⟨hp, hu.symm⟩
    cases ho : (propOrArgInner eoi u).out with
    | ok x =>
      have hnsp : NoSp u := noSp_of_start (inner_ok_start ho)
      have hm := mergeAlts_plain d3 (hui.okP x.1 x.2 ho)
      have hA : dashEntry eoi s = ⟨false, (propOrArgInner eoi u).errs, .ok (.ignore, mergeAlts alt0 x.2), (propOrArgInner eoi u).rest⟩ := by
        simp only [dashEntry, pmap, ignoreThen, bind] at d1 d2 ⊢
        have np := hd.np
        have er := hd.errs
        simp only [ignoreThen, bind] at np er
        simp [d1, d2, ho, np, er, hui.np, hm.2]
      have hlt := eats_propOrArgInner eoi u x ho
      have hT : (chars (propOrArgInner eoi u).rest).head? ≠ some '=' → LB ((propOrArgInner eoi u).rest.length - 1) (mergeAlts alt0 x.2) := fun hne =>
        mergeAlts_lb ((d4 hnsp).mono (by omega)) (hui.okT x.1 x.2 ho hne)
      by_cases her : (dashEntry eoi s).errs = []
      · have : propOrArg eoi s = dashEntry eoi s := orP_ok_clean (p := dashEntry) (q := propOrArgInner) (x := (.ignore, mergeAlts alt0 x.2)) (by rw [hA]) her
        rw [this, hA]
        refine ⟨rfl, ?_, ?_, by simp, by simp⟩
        · intro a alt h; injection h with h; injection h with _ h; subst h; exact hm.1
        · intro a alt h; injection h with h; injection h with _ h; subst h; exact hT
      · have := orP_ok_left (p := dashEntry) (q := propOrArgInner) (x := .ignore) (alt := mergeAlts alt0 x.2) (by rw [hA]) her hq2
        rw [propOrArg_eq, this, hA]
        have hm2 := mergeAlts_plain hm.1 (oplain_some.2 hpl2)
        refine ⟨by simp [hi.np, hm2.2], ?_, ?_, by simp, by simp⟩
        · intro a alt h; injection h with h; injection h with _ h; subst h; exact hm2.1
        · intro a alt h hne; injection h with h; injection h with _ h; subst h
          exact mergeAlts_lb (hT hne) (lb_some.2 (by simp only; omega))
    | error e =>
      have hA : dashEntry eoi s = ⟨e.clashO alt0, (propOrArgInner eoi u).errs, .error (e.maxO alt0), (propOrArgInner eoi u).rest⟩ := by
        simp only [dashEntry, pmap, ignoreThen, bind] at d1 d2 ⊢
        have np := hd.np
        have er := hd.errs
        simp only [ignoreThen, bind] at np er
        simp [d1, d2, ho, np, er, hui.np]
      have hcases : (e.clashO alt0 = false) ∧ ((e.maxO alt0).err.plain = true ∨ (e.maxO alt0 = e ∧ DigitAt u ∧ e.rem + 3 ≤ u.length)) := by
        rcases hui.err e ho with h | ⟨h, h'⟩
        · exact ⟨(maxO_plain h d3).2, Or.inl (maxO_plain h d3).1⟩
        · have := maxO_far (a := e) ((d4 h.noSp).mono (by omega))
          exact ⟨this.2, Or.inr ⟨this.1, h, h'⟩⟩
      have hfar := orP_error_far (p := dashEntry) (q := propOrArgInner) (eoi := eoi) (s := s) (e1 := e.maxO alt0) (e2 := e2)
        (by rw [hA]) hq2 (by rw [hA]; exact hcases.1) hi.np (by
          rcases hcases.2 with h | ⟨h, _, h'⟩
          · exact Or.inl ⟨h, hpl2⟩
          · right; rw [h]; omega)
      obtain ⟨f1, e', f2, f3⟩ := hfar
      have f1 : (propOrArg eoi s).panicked = false := f1
      have f2 : (propOrArg eoi s).out = .error e' := f2
      refine ⟨f1, by simp [f2], by simp [f2], ?_, ?_⟩
      · intro e'' h
        rw [f2] at h; injection h with h; subst h
        rcases f3 with ⟨_, _, h⟩ | ⟨h, _⟩ | ⟨h, _⟩
        · exact Or.inl h
        · rcases hcases.2 with h' | ⟨h', g1, g2⟩
          · exact Or.inl (by rw [h]; exact h')
          · exact Or.inr ⟨u, hent, g1, by rw [h, h']; exact g2⟩
        · exact Or.inl (by rw [h]; exact hpl2)
      · intro u' hu' hst e'' h
        rcases hu' with rfl | ⟨_, rfl⟩
        · exact absurd hp hst.dash
        · rw [hu] at hst ⊢
          have h1 := at_inner hst.start e ho
          have h2 := d4 hst.sp
          have h3 := maxO_lb (n := u.length - 1) (a := e) (by omega) h2
          obtain ⟨g1, g2, g3, g4, g5⟩ := orP_error_inv (p := dashEntry) (q := propOrArgInner) h
          rw [hq2] at g4; injection g4 with g4; subst g4
          rw [hA] at g3; injection g3 with g3; subst g3
          rcases g5 with g5 | g5 <;> rw [g5] <;> exact max_rem_ge (by omega) (by omega)
  · obtain ⟨e1, d1, d2, d3⟩ := hd.no hp
    have hA : dashEntry eoi s = ⟨false, [], .error e1, (ignoreThen (beginComment '-') (repeated nodeSpace) eoi s).rest⟩ := by
      have np := hd.np
      have er := hd.errs
      simp only [dashEntry, pmap, ignoreThen, bind] at d1 np er ⊢
      simp [d1, np, er]
    cases ho : (propOrArgInner eoi s).out with
    | ok x =>
      have hm := mergeAlts_plain (hi.okP x.1 x.2 ho) (oplain_some.2 d2)
      have hlt := eats_propOrArgInner eoi s x ho
      have hr : (propOrArg eoi s).panicked = false ∧ (propOrArg eoi s).out = .ok (x.1, mergeAlts x.2 (some e1)) ∧
          (propOrArg eoi s).rest = (propOrArgInner eoi s).rest := by
        have hAo : (dashEntry eoi s).out = .error e1 := by rw [hA]
        have hAn : (dashEntry eoi s).panicked = false := by rw [hA]
        rcases orP_ok_right (p := dashEntry) (q := propOrArgInner) hAo (x := x.1) (alt := x.2) ho with h | h <;>
          (rw [show propOrArg eoi s = orP dashEntry propOrArgInner eoi s from rfl, h]; exact ⟨by simp [hAn, hi.np, hm.2], rfl, rfl⟩)
      refine ⟨hr.1, ?_, ?_, by simp [hr.2.1], by simp [hr.2.1]⟩
      · intro a alt h; rw [hr.2.1] at h; injection h with h; injection h with _ h; subst h; exact hm.1
      · intro a alt h hne; rw [hr.2.1] at h; injection h with h; injection h with _ h; subst h
        rw [hr.2.2] at hne ⊢
        exact mergeAlts_lb (hi.okT x.1 x.2 ho hne) (lb_some.2 (by omega))
    | error e =>
      obtain ⟨f1, e', f2, f3⟩ := orP_error_far (p := dashEntry) (q := propOrArgInner) (eoi := eoi) (s := s) (e1 := e1) (e2 := e)
        (by rw [hA]) ho (by rw [hA]) hi.np (by
          rcases hi.err e ho with h | ⟨_, h⟩
          · exact Or.inl ⟨d2, h⟩
          · right; omega)
      have f1 : (propOrArg eoi s).panicked = false := f1
      have f2 : (propOrArg eoi s).out = .error e' := f2
      refine ⟨f1, by simp [f2], by simp [f2], ?_, ?_⟩
      · intro e'' h
        rw [f2] at h; injection h with h; subst h
        rcases f3 with ⟨_, _, h⟩ | ⟨h, _⟩ | ⟨h, _⟩
        · exact Or.inl h
        · exact Or.inl (by rw [h]; exact d2)
        · rcases hi.err e ho with h' | ⟨h', g2⟩
          · exact Or.inl (by rw [h]; exact h')
          · exact Or.inr ⟨s, Or.inl rfl, h', by rw [h]; exact g2⟩
      · intro u' hu' hst e'' h
        rcases hu' with rfl | ⟨h', _⟩
        · have h1 := at_inner hst.start e ho
          obtain ⟨g1, g2, g3, g4, g5⟩ := orP_error_inv (p := dashEntry) (q := propOrArgInner) h
          rw [ho] at g4; injection g4 with g4; subst g4
          rw [hA] at g3; injection g3 with g3; subst g3
          rcases g5 with g5 | g5 <;> rw [g5] <;> exact max_rem_ge (by omega) (by omega)
        · exact absurd h' hp

theorem propOrArg_ok_noSp {eoi : Sp O} {s x} (h : (propOrArg eoi s).out = .ok x) : NoSp s := by
  by_cases hp : ['/', '-'] <+: chars s
  · exact noSp_dash hp
  · refine noSp_of_start (fun hs => ?_)
    have h1 := (fails_propOrArgInner (eoi := eoi) hs).fails
    have h2 : Fails propOrArg eoi s := by
      unfold propOrArg
      rw [fails_orP, fails_pmap]
      exact ⟨fails_ignoreThen_left (fails_ignoreThen_left (failsC_beginComment hp).fails), h1⟩
    exact not_ok_of_fails h2 h

theorem failQuiet_propOrArg : FailQuiet (propOrArg : P O (PropOrArg (Sp O))) := by
  refine failQuiet_orP ?_ failQuiet_choice
  intro eoi s e h
  exact failQuiet_ignoreThen (quiet_ignoreThen (quiet_beginComment _) (quiet_repeated quiet_nodeSpace)) failQuiet_choice
    eoi s e (pmap_error.1 h)

theorem failQuiet_spaceEntry : FailQuiet (spaceEntry : P O (PropOrArg (Sp O))) :=
  failQuiet_ignoreThen (quiet_repeatedB quiet_nodeSpace) failQuiet_propOrArg

/-- At least one space: the same stream position as with `repeated`. -/
theorem spaces1 (eoi : Sp O) (s : List (Tok O)) :
    (∃ e, (repeatedB 1 none nodeSpace eoi s).out = .error e ∧ e.err.plain = true ∧ afterSp eoi s = s ∧ (nodeSpace eoi s).out = .error e) ∨
    ∃ as alt, (repeatedB 1 none nodeSpace eoi s).out = .ok (as, alt) ∧ (repeatedB 1 none nodeSpace eoi s).rest = afterSp eoi s ∧
      OPlain alt ∧ (NoSp (afterSp eoi s) → LB ((afterSp eoi s).length - 1) alt) := by
  have hc := calm_nodeSpaces (O := O) (mn := 1) (mx := none) eoi s (Nat.le_refl _)
  cases ho : (repeatedB 1 none nodeSpace eoi s).out with
  | error e =>
    have := repeatedB_error (by simp) eoi s e ho
    exact Or.inl ⟨e, rfl, calmR_error hc ho, afterSp_of_fails ⟨e, this⟩, this⟩
  | ok x =>
    have hq := quiet_repeatedB (mn := 1) (mx := none) (quiet_nodeSpace (O := O)) eoi s
    have hok : Ok (repeatedB 1 none nodeSpace) eoi s x.1 (repeatedB 1 none nodeSpace eoi s).rest := ⟨hq, ⟨x.2, ho⟩, rfl⟩
    obtain ⟨h1, h2⟩ := ok_repeatedB eats_nodeSpace.consumes hok
    have h3 : Fails nodeSpace eoi (repeatedB 1 none nodeSpace eoi s).rest := by
      rcases h2 with h2 | h2
      · cases h2
      · exact h2.2
    have h4 := (ok_repeated eats_nodeSpace.consumes).2 ⟨h1, h3⟩
    have h5 : afterSp eoi s = (repeatedB 1 none nodeSpace eoi s).rest := h4.2.2
    refine Or.inr ⟨x.1, x.2, rfl, h5.symm, calmR_ok hc ho, ?_⟩
    rw [h5]; exact fun hn => spaces_alt ho hn

theorem spaceEntry_spec (eoi : Sp O) (s : List (Tok O)) : EntSpec eoi (afterSp eoi s) (spaceEntry eoi s) := by
  have hc := calm_nodeSpaces (O := O) (mn := 1) (mx := none) eoi s (Nat.le_refl _)
  rcases spaces1 eoi s with ⟨e, h1, h2, h3, h4⟩ | ⟨as, alt, h1, h2, h3, h4⟩
  · have hr : spaceEntry eoi s = ⟨false, (repeatedB 1 none nodeSpace eoi s).errs, .error e, (repeatedB 1 none nodeSpace eoi s).rest⟩ := by
      simp [spaceEntry, ignoreThen, bind, h1, hc.np]
    rw [hr, h3]
    refine ⟨rfl, by simp, by simp, ?_, ?_⟩
    · intro e' h; injection h with h; subst h; exact Or.inl h2
    · intro u hu hst e' h; injection h with h; subst h
      have := at1_nodeSpace (entryAt_noSp hu hst.sp) e h4
      have := entryAt_le hu
      omega
  · have hp := propOrArg_spec eoi (afterSp eoi s)
    generalize hv : afterSp eoi s = v at h2 h4 hp
    cases ho : (propOrArg eoi v).out with
    | ok x =>
      have hnsp := propOrArg_ok_noSp ho
      have hm := mergeAlts_plain h3 (hp.okP x.1 x.2 ho)
      have hlt := eats_propOrArg eoi v x ho
      have hr : spaceEntry eoi s = ⟨false, (repeatedB 1 none nodeSpace eoi s).errs ++ (propOrArg eoi v).errs, .ok (x.1, mergeAlts alt x.2), (propOrArg eoi v).rest⟩ := by
        simp [spaceEntry, ignoreThen, bind, h1, h2, hc.np, ho, hp.np, hm.2]
      rw [hr]
      refine ⟨rfl, ?_, ?_, by simp, by simp⟩
      · intro a alt' h; injection h with h; injection h with _ h; subst h; exact hm.1
      · intro a alt' h hne; injection h with h; injection h with _ h; subst h
        exact mergeAlts_lb ((h4 hnsp).mono (by simp only; omega)) (hp.okT x.1 x.2 ho hne)
    | error e =>
      have hr : spaceEntry eoi s = ⟨e.clashO alt, (repeatedB 1 none nodeSpace eoi s).errs ++ (propOrArg eoi v).errs, .error (e.maxO alt), (propOrArg eoi v).rest⟩ := by
        simp [spaceEntry, ignoreThen, bind, h1, h2, hc.np, ho, hp.np]
      have hcases : e.clashO alt = false ∧ ((e.maxO alt).err.plain = true ∨
          ∃ u, EntryAt eoi v u ∧ DigitAt u ∧ (e.maxO alt).rem + 3 ≤ u.length) := by
        rcases hp.err e ho with h | ⟨u, g1, g2, g3⟩
        · exact ⟨(maxO_plain h h3).2, Or.inl (maxO_plain h h3).1⟩
        · have hle := entryAt_le g1
          have := maxO_far (a := e) ((h4 (entryAt_noSp g1 g2.noSp)).mono (by omega))
          exact ⟨this.2, Or.inr ⟨u, g1, g2, by rw [this.1]; exact g3⟩⟩
      rw [hr]
      refine ⟨hcases.1, by simp, by simp, ?_, ?_⟩
      · intro e' h; injection h with h; subst h; exact hcases.2
      · intro u hu hst e' h; injection h with h; subst h
        have h5 := hp.stop u hu hst e ho
        have h6 := entryAt_le hu
        have h7 := maxO_lb (n := u.length - 1) (a := e) (by omega) ((h4 (entryAt_noSp hu hst.sp)).mono (by omega))
        omega

theorem eq_no_space {eoi : Sp O} {s} (h : (chars s).head? = some '=') : Fails nodeSpace eoi s := by
  refine (failsC_nodeSpace ⟨⟨?_, not_block_of_head h (by decide)⟩, ?_⟩).fails
  · intro c hc; rw [h] at hc; injection hc with hc; subst hc; decide
  · rw [h]; decide

theorem entryAt_eq {eoi : Sp O} {s u} (h : (chars s).head? = some '=') (hu : EntryAt eoi (afterSp eoi s) u) : u = s := by
  rw [afterSp_of_fails (eq_no_space h)] at hu
  rcases hu with hu | ⟨⟨w, hw⟩, _⟩
  · exact hu
  · rw [← hw] at h; simp at h

/-- The alternative error of the entries of a node. -/
structure ItemAlt (eoi : Sp O) (t : List (Tok O)) (alt : Option (Loc O)) : Prop where
  err : ∀ e, alt = some e → e.err.plain = true ∨ ∃ u, EntryAt eoi (afterSp eoi t) u ∧ DigitAt u ∧ e.rem + 3 ≤ u.length
  stop : ∀ u, EntryAt eoi (afterSp eoi t) u → Stop u → LB (u.length - 1) alt

/-- An alternative error that is not past the next token. -/
def NearAlt (s : List (Tok O)) (alt : Option (Loc O)) : Prop :=
  OPlain alt ∧ ((chars s).head? ≠ some '=' → LB (s.length - 1) alt)

theorem nearAlt_merge {eoi : Sp O} {s alt e} (ha : NearAlt s alt)
    (he : e.err.plain = true ∨ ∃ u, EntryAt eoi (afterSp eoi s) u ∧ DigitAt u ∧ e.rem + 3 ≤ u.length)
    (hs : ∀ u, EntryAt eoi (afterSp eoi s) u → Stop u → u.length ≤ e.rem + 1) :
    ItemAlt eoi s (mergeAlts alt (some e)) ∧ clashAlts alt (some e) = false := by
  have hstop : ∀ u, EntryAt eoi (afterSp eoi s) u → Stop u → LB (u.length - 1) (mergeAlts alt (some e)) := by
    intro u hu hst
    have h1 := hs u hu hst
    have h2 := entryAt_le hu
    have h3 := afterSp_le eoi s
    refine mergeAlts_lb ((ha.2 ?_).mono (by omega)) (lb_some.2 (by omega))
    intro hh
    have := entryAt_eq hh hu
    subst this; exact hst.eq hh
  rcases he with h | ⟨u, h1, h2, h3⟩
  · have hm := mergeAlts_plain ha.1 (oplain_some.2 h)
    exact ⟨⟨fun e' he' => Or.inl (hm.1 e' he'), hstop⟩, hm.2⟩
  · have h4 := entryAt_le h1
    have h5 := afterSp_le eoi s
    have h6 := mergeAlts_far (a := e) (o := alt) ((ha.2 (by
      intro hh
      have := entryAt_eq hh h1
      subst this; exact h2.ne (by decide) hh)).mono (by omega))
    refine ⟨⟨?_, hstop⟩, h6.2.2.2⟩
    rw [h6.2.1]
    intro e' he'; injection he' with he'; subst he'
    exact Or.inr ⟨u, h1, h2, h3⟩

theorem itemsGo {eoi : Sp O} : ∀ fuel {outs errs alt s}, s.length < fuel → NearAlt s alt →
    ∃ as alt', (repGo spaceEntry 0 none eoi fuel outs errs alt false s).out = .ok (as, alt') ∧
      (repGo spaceEntry 0 none eoi fuel outs errs alt false s).panicked = false ∧
      ItemAlt eoi (repGo spaceEntry 0 none eoi fuel outs errs alt false s).rest alt' := by
  intro fuel
  induction fuel with
  | zero => intro _ _ _ _ h; omega
  | succ f ih =>
    intro outs errs alt s hf ha
    have hsp := spaceEntry_spec eoi s
    unfold repGo
    simp only [reduceCtorEq, if_false]
    cases ho : (spaceEntry eoi s).out with
    | ok x =>
      have hlt := eats_spaceEntry.consumes eoi s x ho
      have hm := mergeAlts_plain ha.1 (hsp.okP x.1 x.2 ho)
      simp only [hlt, if_true, hsp.np, hm.2, Bool.or_self]
      refine ih (by omega) ⟨hm.1, fun hne => ?_⟩
      refine mergeAlts_lb ((ha.2 ?_).mono (by omega)) (hsp.okT x.1 x.2 ho hne)
      intro hh
      rcases spaces1 eoi s with ⟨e, h1, _⟩ | ⟨as, alt1, h1, _⟩
      · have : (spaceEntry eoi s).out = .error e := bind_error_left h1
        rw [this] at ho; cases ho
      · have hq := quiet_repeatedB (mn := 1) (mx := none) (quiet_nodeSpace (O := O)) eoi s
        have hok : Ok (repeatedB 1 none nodeSpace) eoi s as (repeatedB 1 none nodeSpace eoi s).rest := ⟨hq, ⟨_, h1⟩, rfl⟩
        obtain ⟨g1, g2⟩ := ok_repeatedB eats_nodeSpace.consumes hok
        generalize (repeatedB 1 none nodeSpace eoi s).rest = w at g1 g2
        cases g1 with
        | nil => simp at g2
        | cons g3 _ _ => exact g3.not_fails (eq_no_space hh)
    | error e =>
      have hq := failQuiet_spaceEntry eoi s e ho
      have hm0 : mergeAlts (some e) none = some e := rfl
      have hc0 : clashAlts (some e) none = false := rfl
      obtain ⟨h1, h2⟩ := nearAlt_merge (eoi := eoi) ha (hsp.err e ho) (fun u hu hst => hsp.stop u hu hst e ho)
      simp only [Nat.not_lt_zero, if_false, hq, List.head?_nil, hm0, hc0, hsp.np, h2, Bool.or_self]
      exact ⟨_, _, rfl, trivial, h1⟩

theorem items_spec (eoi : Sp O) (s : List (Tok O)) :
    ∃ as alt, (repeated spaceEntry eoi s).out = .ok (as, alt) ∧ (repeated spaceEntry eoi s).panicked = false ∧
      ItemAlt eoi (repeated spaceEntry eoi s).rest alt :=
  itemsGo (s.length + 1) (by omega) ⟨oplain_none, fun _ => lb_none⟩

end Knuffel
