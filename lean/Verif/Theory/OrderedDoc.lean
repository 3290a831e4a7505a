import Verif.Theory.OrderedNode
/-!
# The order of the diagnostics: documents
-/

set_option linter.unusedSimpArgs false
set_option linter.unusedSectionVars false
set_option linter.unusedVariables false

namespace Knuffel.Ordered
open Cst

variable {α β : Type} {text : Str} {inner : P Nat (List (SpannedNode (Sp Nat)))}

/-! ### Lists of nodes -/

/-- The errors recorded are before what remains, or before the alternative error. -/
structure NP (text : Str) (s : List (Tok Nat)) (r : PRes Nat α) : Prop where
  suf : r.rest <:+ s
  err : ∀ e, r.out = .error e → r.errs = [] ∧ Flat text e ∧ e.rem ≤ s.length
  alts : ∀ a alt, r.out = .ok (a, alt) → ∀ l, alt = some l →
    l.rem ≤ s.length ∧ (Flat text l ∨ (off text r.rest ≤ first l.err ∧ NB r.rest))
  ok : ∀ a alt, r.out = .ok (a, alt) → Steps (off text s) r.errs (off text r.rest) ∨
    (NB r.rest ∧ ∃ l, alt = some l ∧ Steps (off text s) r.errs (first l.err) ∧ Steps (off text s) r.errs (offr text l.rem))

/-- The state at the end of the loop over the nodes; `t` is what remains after the white space. -/
def Fin (text : Str) (s0 t : List (Tok Nat)) (errs : List (Loc Nat)) (alt err : Option (Loc Nat)) : Prop :=
  (∀ l, alt = some l → l.rem ≤ s0.length ∧ (Flat text l ∨ (off text t ≤ first l.err ∧ Slash t))) ∧
  ((err = none ∧ Steps (off text s0) errs (off text t)) ∨
    ∃ e, err = some e ∧ e.rem ≤ s0.length ∧ off text t ≤ first e.err ∧ (Flat text e ∨ NB t) ∧
      (Steps (off text s0) errs (off text t) ∨
        (NB t ∧ ¬ Slash t ∧ Steps (off text s0) errs (first e.err) ∧ Steps (off text s0) errs (offr text e.rem))))

theorem Fin.np {s0 t : List (Tok Nat)} {errs alt err pan} {a : α} (ht : t <:+ s0) (h : Fin text s0 t errs alt err) :
    NP text s0 (⟨pan, errs, .ok (a, mergeAlts alt err), t⟩ : PRes Nat α) := by
  obtain ⟨h1, h2⟩ := h
  refine ⟨ht, fun e he => (by cases he), ?_, ?_⟩
  · intro a' alt' ho
    simp only [Except.ok.injEq, Prod.mk.injEq] at ho
    obtain ⟨rfl, rfl⟩ := ho
    refine mergeAlts_ind (K := fun r f => r ≤ s0.length ∧ (offr text r ≤ f ∨ _ ≤ f ∧ NB _)) ?_ ?_
    · intro l hl
      exact ⟨(h1 l hl).1, (h1 l hl).2.imp id fun h => ⟨h.1, Wall.nb (Or.inl h.2)⟩⟩
    · intro l hl
      rcases h2 with ⟨h3, -⟩ | ⟨e, h3, h4, h5, h6, -⟩
      · rw [h3] at hl; cases hl
      · rw [h3] at hl
        injection hl with hl
        subst hl
        exact ⟨h4, h6.imp id fun h => ⟨h5, h⟩⟩
  · intro a' alt' ho
    simp only [Except.ok.injEq, Prod.mk.injEq] at ho
    obtain ⟨rfl, rfl⟩ := ho
    rcases h2 with ⟨-, h4⟩ | ⟨e, h3, h4, h5, h6, h7 | ⟨h7, h8, h9, h10⟩⟩
    · exact Or.inl h4
    · exact Or.inl h7
    · right
      refine ⟨h7, ?_⟩
      subst h3
      cases alt with
      | none => exact ⟨e, rfl, h9, h10⟩
      | some l =>
        refine ⟨_, rfl, ?_⟩
        rcases max_far e l with ⟨g1, g2, g3⟩ | ⟨g1, g2, g3⟩
        · rw [g1, g2]; exact ⟨h9, h10⟩
        · rw [g1, g2]
          have h11 := h10.mono (Nat.le_refl _) (offr_mono g3)
          refine ⟨?_, h11⟩
          rcases (h1 l rfl).2 with g4 | g4
          · exact h11.mono (Nat.le_refl _) g4
          · exact absurd g4.2 h8

abbrev sp : P Nat (List Unit) := repeated lineSpace

theorem sp_errs {s} : (sp (offsetEoi text) s).errs = [] := quiet_repeated quiet_lineSpace _ _

theorem sepDelim_sp {alt} {s : List (Tok Nat)} : ∃ dalt, (∃ a, (sp (offsetEoi text) s).out = .ok (a, dalt)) ∧
    (sepDelim sp (offsetEoi text) alt s).1 = mergeAlts alt dalt ∧ (sepDelim sp (offsetEoi text) alt s).2.2 = (sp (offsetEoi text) s).rest := by
  obtain ⟨a, dalt, ho⟩ := repeated_is_ok (p := lineSpace) (eoi := offsetEoi text) (s := s)
  refine ⟨dalt, ⟨a, ho⟩, ?_⟩
  have hq : (repeated lineSpace (offsetEoi text) s).errs = [] := sp_errs
  simp [sepDelim, sp, ho, hq, mergeAltsL]

/-- The alternatives after more white space. -/
theorem alts_sp {s0 s : List (Tok Nat)} (hs : s <:+ offsetToks 0 text) (hl : s.length ≤ s0.length) {a dalt}
    (ho : (sp (offsetEoi text) s).out = .ok (a, dalt)) {alt}
    (h : ∀ l, alt = some l → l.rem ≤ s0.length ∧ (Flat text l ∨
      (off text (sp (offsetEoi text) s).rest ≤ first l.err ∧ Slash (sp (offsetEoi text) s).rest))) :
    ∀ l, mergeAlts alt dalt = some l → l.rem ≤ s0.length ∧ (Flat text l ∨
      (off text (sp (offsetEoi text) s).rest ≤ first l.err ∧ Slash (sp (offsetEoi text) s).rest)) := by
  refine mergeAlts_ind (K := fun r f => r ≤ s0.length ∧ (offr text r ≤ f ∨ _ ≤ f ∧ Slash _)) h ?_
  intro l hl
  have := (r_lineSpaces (text := text) (F := No) s hs).ok a dalt ho l hl
  exact ⟨by omega, this.2⟩

/-- What a failing item leaves. -/
theorem fin_item (hb : R text No (Hd '{') (bracedNodes inner)) {s0 s t : List (Tok Nat)} (hs0 : s0 <:+ offsetToks 0 text)
    (hs : s <:+ s0) (ht : t <:+ s) {errs alt e}
    (ha : ∀ l, alt = some l → l.rem ≤ s0.length ∧ (Flat text l ∨ (off text t ≤ first l.err ∧ Slash t)))
    (hst : Steps (off text s0) errs (off text s)) (he : (nodeItem inner (offsetEoi text) t).out = .error e) :
    Fin text s0 t (errs ++ (nodeItem inner (offsetEoi text) t).errs) alt (some e) := by
  have htA := (ht.trans hs).trans hs0
  have h1 := (r_nodeItem hb t htA).err e he
  have h2 := fc_nodeItem hb htA e he
  have hlen := (ht.trans hs).length_le
  have hst' := hst.mono (Nat.le_refl _) (off_mono (text := text) ht)
  refine ⟨ha, Or.inr ⟨e, rfl, by omega, h1.2.1, h1.2.2, ?_⟩⟩
  by_cases hc : ¬ NB t ∨ Slash t
  · left
    rw [(failsC_nodeItem hc).1, List.append_nil]
    exact hst'
  · right
    have hnb : NB t := Classical.not_not.1 fun h => hc (Or.inl h)
    exact ⟨hnb, fun h => hc (Or.inr h), hst'.append h2.1, hst'.append h2.2⟩

theorem sepGo_fin (hb : R text No (Hd '{') (bracedNodes inner)) {s0 : List (Tok Nat)} (hs0 : s0 <:+ offsetToks 0 text) :
    ∀ fuel {outs errs alt pan s}, s <:+ s0 → Steps (off text s0) errs (off text s) →
      (∀ l, alt = some l → l.rem ≤ s0.length ∧ Flat text l) →
      ∀ r, sepGo (nodeItem inner) sp (offsetEoi text) fuel outs errs alt pan s = r →
        r.2.2.2.2.1 <:+ s0 ∧ Fin text s0 (sp (offsetEoi text) r.2.2.2.2.1).rest r.2.1 r.2.2.1 r.2.2.2.2.2 := by
  intro fuel
  induction fuel with
  | zero =>
    rintro outs errs alt pan s hs hst ha r rfl
    have hr := (r_lineSpaces (text := text) (F := No) s (hs.trans hs0)).suf
    exact ⟨hs, fun l hl => ⟨(ha l hl).1, Or.inl (ha l hl).2⟩, Or.inl ⟨rfl, hst.mono (Nat.le_refl _) (off_mono hr)⟩⟩
  | succ fuel ih =>
    intro outs errs alt pan s hs hst ha r hr
    have hsA := hs.trans hs0
    have hsp := r_lineSpaces (text := text) (F := No) s hsA
    obtain ⟨a, dalt, ho⟩ := repeated_is_ok (p := lineSpace) (eoi := offsetEoi text) (s := s)
    have hq : (sp (offsetEoi text) s).errs = [] := sp_errs
    have ha' := alts_sp hsA hs.length_le ho (alt := alt) (fun l hl => ⟨(ha l hl).1, Or.inl (ha l hl).2⟩)
    unfold sepGo at hr
    simp only [sp, ho, hq] at hr
    cases hi : (nodeItem inner (offsetEoi text) (sp (offsetEoi text) s).rest).out with
    | error e =>
      simp only [hi] at hr
      subst hr
      refine ⟨hs, ?_⟩
      simp only [sp, hq, List.append_nil]
      exact fin_item hb hs0 hs hsp.suf ha' hst hi
    | ok x =>
      obtain ⟨v, ialt⟩ := x
      simp only [hi] at hr
      have hI := r_nodeItem hb _ (hsp.suf.trans hsA)
      have hns : ¬ Slash (sp (offsetEoi text) s).rest := fun h => nok (failsC_nodeItem (inner := inner) (Or.inr h)).fails hi
      split at hr
      · refine ih (hI.suf.trans (hsp.suf.trans hs)) ?_ ?_ r hr
        · simp only [sp, hq, List.append_nil]
          exact (hst.mono (Nat.le_refl _) (off_mono hsp.suf)).append (hI.steps _ hi)
        · refine mergeAlts_ind (K := fun r f => r ≤ s0.length ∧ offr text r ≤ f) ?_ ?_
          · intro l hl
            exact ⟨(ha' l hl).1, (ha' l hl).2.resolve_right fun h => hns h.2⟩
          · intro l hl
            have := hI.ok v ialt hi l hl
            have hlen := (hsp.suf.trans hs).length_le
            exact ⟨by omega, this.2.resolve_right fun h => h.2⟩
      · subst hr
        exact ⟨hs, fun l hl => ⟨(ha l hl).1, Or.inl (ha l hl).2⟩, Or.inl ⟨rfl, hst.mono (Nat.le_refl _) (off_mono hsp.suf)⟩⟩

theorem np_separated (hb : R text No (Hd '{') (bracedNodes inner)) {s : List (Tok Nat)} (hs : s <:+ offsetToks 0 text) :
    NP text s (separatedBy (nodeItem inner) sp (offsetEoi text) s) := by
  have hsp := r_lineSpaces (text := text) (F := No) s hs
  obtain ⟨dalt, ⟨a, ho⟩, h1, h2⟩ := sepDelim_sp (text := text) (alt := none) (s := s)
  have ha0 := alts_sp hs (Nat.le_refl s.length) ho (alt := none) (fun l hl => by cases hl)
  rw [← h1] at ha0
  unfold separatedBy
  simp only [h2]
  have hst : Steps (off text s) [] (off text s) := Nat.le_refl _
  cases hi : (nodeItem inner (offsetEoi text) (sp (offsetEoi text) s).rest).out with
  | error e =>
    simp only
    have := fin_item hb hs List.suffix_rfl hsp.suf ha0 hst hi
    rw [List.nil_append] at this
    exact this.np hsp.suf
  | ok x =>
    obtain ⟨v, ialt⟩ := x
    simp only
    have hI := r_nodeItem hb _ (hsp.suf.trans hs)
    have hns : ¬ Slash (sp (offsetEoi text) s).rest := fun h => nok (failsC_nodeItem (inner := inner) (Or.inr h)).fails hi
    have hlen := hsp.suf.length_le
    obtain ⟨h3, h4⟩ := sepGo_fin hb hs ((nodeItem inner (offsetEoi text) (sp (offsetEoi text) s).rest).rest.length + 1)
      (outs := [v]) (errs := (nodeItem inner (offsetEoi text) (sp (offsetEoi text) s).rest).errs)
      (alt := mergeAlts (sepDelim sp (offsetEoi text) none s).1 ialt)
      (pan := (sepDelim sp (offsetEoi text) none s).2.1 || (nodeItem inner (offsetEoi text) (sp (offsetEoi text) s).rest).panicked ||
        clashAlts (sepDelim sp (offsetEoi text) none s).1 ialt)
      (hI.suf.trans hsp.suf) ((hst.mono (Nat.le_refl _) (off_mono hsp.suf)).append (hI.steps _ hi)) (by
        refine mergeAlts_ind (K := fun r f => r ≤ s.length ∧ offr text r ≤ f) ?_ ?_
        · intro l hl
          exact ⟨(ha0 l hl).1, (ha0 l hl).2.resolve_right fun h => hns h.2⟩
        · intro l hl
          have := hI.ok v ialt hi l hl
          exact ⟨by omega, this.2.resolve_right fun h => h.2⟩) _ rfl
    revert h3 h4
    generalize sepGo (nodeItem inner) sp (offsetEoi text) _ _ _ _ _ _ = r
    obtain ⟨outs, errs, alt, pan, s1, err⟩ := r
    intro h3 h4
    simp only at h3 h4 ⊢
    obtain ⟨dalt', ⟨a', ho'⟩, h5, h6⟩ := sepDelim_sp (text := text) (alt := alt) (s := s1)
    rw [h5, h6]
    have h7 : Fin text s (sp (offsetEoi text) s1).rest errs (mergeAlts alt dalt') err :=
      ⟨alts_sp (h3.trans hs) h3.length_le ho' h4.1, h4.2⟩
    exact h7.np ((r_lineSpaces (text := text) (F := No) s1 (h3.trans hs)).suf.trans h3)

theorem NP.pmap {f : α → β} {p : P Nat α} {s} (h : NP text s (p (offsetEoi text) s)) : NP text s (Knuffel.pmap f p (offsetEoi text) s) := by
  refine ⟨h.suf, ?_, ?_, ?_⟩
  · intro e he
    exact h.err e (pmap_error.1 he)
  · intro a alt ho
    obtain ⟨b, h1, -⟩ := pmap_ok_inv ho
    exact h.alts b alt h1
  · intro a alt ho
    obtain ⟨b, h1, -⟩ := pmap_ok_inv ho
    exact h.ok b alt h1

/-! ### Braces -/

theorem Hd.not_nb {s} (h : Hd '}' s) : ¬ NB s := by
  rintro ⟨c, h1, h2⟩
  exact h2 (hd_unique h1 h)

theorem rd_inBraces {s} (hs : s <:+ offsetToks 0 text) (h : NP text s (inner (offsetEoi text) s)) :
    Rd text (off text s) (off text) (off text s) No (fun _ => True) s (thenIgnore inner (just '}') (offsetEoi text) s) := by
  have hr := h.suf.trans hs
  have hlen := h.suf.length_le
  cases ho : (inner (offsetEoi text) s).out with
  | error e =>
    have hb : thenIgnore inner (just '}') (offsetEoi text) s =
        ⟨(inner (offsetEoi text) s).panicked, (inner (offsetEoi text) s).errs, .error e, (inner (offsetEoi text) s).rest⟩ := by
      simp [thenIgnore, Knuffel.bind, ho]
    rw [hb]
    refine ⟨h.suf, fun _ hx => (by cases hx), fun _ _ hx => (by cases hx), ?_⟩
    intro e' hx
    simp only [Except.error.injEq] at hx
    subst hx
    have := h.err e ho
    exact ⟨this.2.2, this.2.1.since hs this.2.2, Or.inr trivial⟩
  | ok x =>
    obtain ⟨a, alt⟩ := x
    have hj := (fl_just (text := text) (c := '}')).r _ hr
    have hal := h.alts a alt ho
    have hq : (just '}' (offsetEoi text) (inner (offsetEoi text) s).rest).errs = [] := quiet_just _ _ _
    cases ho2 : (just '}' (offsetEoi text) (inner (offsetEoi text) s).rest).out with
    | error e =>
      refine ⟨?_, ?_, ?_, ?_⟩
      · have : (thenIgnore inner (just '}') (offsetEoi text) s).rest = (just '}' (offsetEoi text) (inner (offsetEoi text) s).rest).rest := by
          simp [thenIgnore, Knuffel.bind, ho, Knuffel.pmap, ho2]
        rw [this]; exact hj.suf.trans h.suf
      · intro x hx; simp [thenIgnore, Knuffel.bind, ho, Knuffel.pmap, ho2] at hx
      · intro x alt hx; simp [thenIgnore, Knuffel.bind, ho, Knuffel.pmap, ho2] at hx
      · intro e' hx
        simp only [thenIgnore, Knuffel.bind, ho, Knuffel.pmap, ho2, Except.error.injEq] at hx
        subst hx
        have he := hj.err e ho2
        have hoff := off_mono (text := text) h.suf
        refine maxO_ind (K := fun r f => r ≤ s.length ∧ off text s ≤ f ∧ (offr text r ≤ f ∨ True)) ?_ ?_
        · exact ⟨by omega, by omega, Or.inr trivial⟩
        · intro l hl
          refine ⟨(hal l hl).1, ?_, Or.inr trivial⟩
          rcases (hal l hl).2 with h1 | h1
          · exact h1.since hs (hal l hl).1
          · omega
    | ok y =>
      obtain ⟨c, jalt⟩ := y
      have hnb : ¬ NB (inner (offsetEoi text) s).rest := (hd_of_just ho2).not_nb
      have hb : (thenIgnore inner (just '}') (offsetEoi text) s).rest = (just '}' (offsetEoi text) (inner (offsetEoi text) s).rest).rest ∧
          (thenIgnore inner (just '}') (offsetEoi text) s).errs = (inner (offsetEoi text) s).errs ∧
          (thenIgnore inner (just '}') (offsetEoi text) s).out = .ok (a, mergeAlts alt jalt) := by
        simp [thenIgnore, Knuffel.bind, ho, Knuffel.pmap, ho2, hq]
      obtain ⟨b1, b2, b3⟩ := hb
      refine ⟨by rw [b1]; exact hj.suf.trans h.suf, ?_, ?_, ?_⟩
      · intro x _
        rw [b1, b2]
        rcases h.ok a alt ho with h1 | h1
        · exact h1.mono (Nat.le_refl _) (off_mono hj.suf)
        · exact absurd h1.1 hnb
      · intro a' alt' hx
        rw [b3] at hx
        simp only [Except.ok.injEq, Prod.mk.injEq] at hx
        obtain ⟨rfl, rfl⟩ := hx
        refine mergeAlts_ind (K := fun r f => r ≤ s.length ∧ (offr text r ≤ f ∨ _ ≤ f ∧ No _)) ?_ ?_
        · intro l hl
          exact ⟨(hal l hl).1, Or.inl ((hal l hl).2.resolve_right fun h => hnb h.2)⟩
        · intro l hl
          have := hj.ok c jalt ho2 l hl
          exact ⟨by omega, Or.inl (this.2.resolve_right fun h => h.2)⟩
      · intro e he; rw [b3] at he; cases he

theorem r_braced (h : ∀ s, s <:+ offsetToks 0 text → NP text s (inner (offsetEoi text) s)) : R text No (Hd '{') (bracedNodes inner) := by
  intro s hs
  have h1 := (fl_just (text := text) (c := '{')).r s hs
  have hr := h1.suf.trans hs
  refine Rd.bind (F2 := fun _ => True) (o2 := off text s) hs (Nat.le_refl _) (Nat.le_refl _) h1 ?_ (fun _ _ _ h => h.elim) (fun h => h.elim)
    (fun a alt ho _ => hd_of_just ho)
  intro a alt ho
  have h2 := rd_inBraces hr (h _ hr)
  refine Rd.mapErrWithSpan (F1 := fun _ => True) (h2.lower (Nat.le_refl _) (off_mono h1.suf)) ?_
  intro e he
  refine ⟨?_, Or.inr trivial⟩
  have h3 := h2.err e he
  have hst := since_start (t := (thenIgnore inner (just '}') (offsetEoi text) (just '{' (offsetEoi text) s).rest).rest) hr
  have hm := off_mono (text := text) h1.suf
  unfold bracesErr
  split
  · rcases first_merge_unclosed (e := e.err) with h | h
    · rw [h]; omega
    · rw [h]
      have hone : off text (just '{' (offsetEoi text) s).rest = off text s + 1 := by
        have hT := (ok_just_takes.1 (Quiet.ok (quiet_just _) ho)).1
        rw [off_takes hs hT]
        rfl
      show _ ≤ Offset.back _ _
      simp only [Offset.back]
      rw [hst]; omega
  · omega

theorem np_nodesRec : ∀ n s, s <:+ offsetToks 0 text → NP text s (nodesRec n (offsetEoi text) s) := by
  intro n
  induction n with
  | zero =>
    intro s hs
    refine ⟨List.suffix_rfl, ?_, fun _ _ h => (by cases h), fun _ _ h => (by cases h)⟩
    intro e he
    simp only [nodesRec, tooDeep, Except.error.injEq] at he
    subst he
    refine ⟨rfl, ?_, Nat.le_refl _⟩
    show offr text s.length ≤ byteLen text
    rw [offr_eq hs]
    exact off_le _
  | succ n ih =>
    intro s hs
    exact (np_separated (r_braced ih) hs).pmap

/-- The diagnostics of a text are in its order. -/
theorem Steps.strict {a b : Nat} {l : List (Loc Nat)} (h : Steps a l b) : ∀ e ∈ l.map (·.err), first e < last e := by
  induction l generalizing a with
  | nil => simp
  | cons x l ih =>
    intro e he
    rcases List.mem_cons.1 he with rfl | he
    · exact h.2.1
    · exact ih h.2.2 e he

/-- In order, and only the last may be at a place without characters. -/
theorem parse_strict {es} (h : parseAst text = some (.error es)) :
    InOrder es ∧ ∀ e ∈ es.dropLast, first e < last e := by
  have hn : NP text (offsetToks 0 text) (nodes (offsetEoi text) (offsetToks 0 text)) := np_nodesRec _ _ List.suffix_rfl
  have hr := hn.suf
  unfold parseAst runParser at h
  simp only at h
  split at h
  · cases h
  have hrest : ∀ {x}, (endP (offsetEoi text) (nodes (offsetEoi text) (offsetToks 0 text)).rest).out = .ok x →
      (nodes (offsetEoi text) (offsetToks 0 text)).rest = [] := by
    intro x hx
    by_cases hh : (nodes (offsetEoi text) (offsetToks 0 text)).rest = []
    · exact hh
    · exact nok (fails_endP.2 hh) hx
  have hend : Fl text endP := fun _ => tr_endP
  have he := hend.r _ hr
  have hq : (endP (offsetEoi text) (nodes (offsetEoi text) (offsetToks 0 text)).rest).errs = [] := by
    have := quiet_endP (offsetEoi text) (nodes (offsetEoi text) (offsetToks 0 text)).rest
    exact this
  unfold document at h
  cases ho : (nodes (offsetEoi text) (offsetToks 0 text)).out with
  | error e =>
    have h1 := (hn.err e ho).1
    simp only [Knuffel.pmap, thenIgnore, Knuffel.bind, ho, h1] at h
    simp only [Option.some.injEq, Except.error.injEq] at h
    subst h
    exact ⟨List.pairwise_singleton _ _, by simp⟩
  | ok x =>
    obtain ⟨a, alt⟩ := x
    cases ho2 : (endP (offsetEoi text) (nodes (offsetEoi text) (offsetToks 0 text)).rest).out with
    | ok y =>
      obtain ⟨y, ealt⟩ := y
      have hnb : ¬ NB (nodes (offsetEoi text) (offsetToks 0 text)).rest := by
        rw [hrest ho2]
        rintro ⟨c, h1, -⟩
        simp [Hd, chars] at h1
      simp only [Knuffel.pmap, thenIgnore, Knuffel.bind, ho, ho2, hq, List.append_nil] at h
      split at h
      · cases h
      · simp only [Option.some.injEq, Except.error.injEq] at h
        subst h
        have hst := (hn.ok a alt ho).resolve_right fun h => hnb h.1
        exact ⟨hst.inOrder, fun e he => hst.strict e (List.dropLast_subset _ he)⟩
    | error e =>
      simp only [Knuffel.pmap, thenIgnore, Knuffel.bind, ho, ho2, hq, List.append_nil] at h
      simp only [Option.some.injEq, Except.error.injEq] at h
      subst h
      have h1 := he.err e ho2
      have hfe : Flat text e := h1.2.2.resolve_right id
      have key : Steps (off text (offsetToks 0 text)) (nodes (offsetEoi text) (offsetToks 0 text)).errs (first (e.maxO alt).err) := by
        rcases hn.ok a alt ho with h2 | ⟨-, l, rfl, h2, h3⟩
        · refine h2.mono (Nat.le_refl _) ?_
          cases alt with
          | none => exact h1.2.1
          | some l =>
            simp only [Loc.maxO]
            rcases max_far e l with ⟨g1, g2, g3⟩ | ⟨g1, g2, g3⟩
            · rw [g2]; exact h1.2.1
            · rw [g2]
              rcases (hn.alts a _ ho l rfl).2 with g4 | g4
              · exact g4.since hr (by omega)
              · exact g4.1
        · simp only [Loc.maxO]
          rcases max_far e l with ⟨g1, g2, g3⟩ | ⟨g1, g2, g3⟩
          · rw [g2]
            exact h3.mono (Nat.le_refl _) (Nat.le_trans (offr_mono g3) hfe)
          · rw [g2]; exact h2
      rw [List.map_append]
      refine ⟨List.pairwise_append.2 ⟨key.inOrder, List.pairwise_singleton _ _, ?_⟩, ?_⟩
      · intro x hx y hy
        obtain ⟨x', hx', rfl⟩ := List.mem_map.1 hx
        simp only [List.map_cons, List.map_nil, List.mem_singleton] at hy
        subst hy
        exact (key.mem x' hx').2
      · simp only [List.map_cons, List.map_nil, List.dropLast_concat]
        exact key.strict

theorem parse_inOrder {es} (h : parseAst text = some (.error es)) : InOrder es := (parse_strict h).1

end Knuffel.Ordered
