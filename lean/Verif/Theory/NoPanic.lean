import Verif.Theory.PositionTok
import Verif.Theory.Nodes
/-!
# The parser does not panic

The only error that must not be merged with another one at the same position is
the message "numbers cannot be used as property names"; it is located after the
value, at least three tokens after the digit it starts with, and no other error
reaches so far.
-/

set_option linter.unusedSimpArgs false
set_option linter.unusedSectionVars false
set_option linter.unusedVariables false

namespace Knuffel

variable {O α β γ : Type} [Offset O]

/-- The input begins with a decimal digit. -/
def DigitAt (s : List (Tok O)) : Prop := ∃ c, (chars s).head? = some c ∧ c ∈ Cst.decDigits

/-- The input does not begin like an entry or a node name. -/
def NotStart (s : List (Tok O)) : Prop :=
  ∀ c, (chars s).head? = some c → ¬ Cst.IdentStart c ∧ c ∉ Cst.decDigits ∧ c ≠ '"' ∧ c ≠ '('

theorem notStart_of_head {s : List (Tok O)} {c : Char} (h : (chars s).head? = some c)
    (hc : isIdSansDig c = false ∧ c ∉ Cst.decDigits ∧ c ≠ '"' ∧ c ≠ '(') : NotStart s := by
  intro d hd
  rw [h] at hd; injection hd with hd; subst hd
  exact ⟨not_identStart_of hc.1, hc.2⟩

theorem DigitAt.noIdent {s : List (Tok O)} (h : DigitAt s) : ∀ c, (chars s).head? = some c → ¬ Cst.IdentStart c := by
  obtain ⟨d, h1, h2⟩ := h
  intro c hc
  rw [h1] at hc; injection hc with hc; subst hc
  exact not_identStart_of ((by decide : ∀ c ∈ Cst.decDigits, isIdSansDig c = false) d h2)

theorem DigitAt.ne {s : List (Tok O)} (h : DigitAt s) {c : Char} (hc : c ∉ Cst.decDigits) : (chars s).head? ≠ some c := by
  obtain ⟨d, h1, h2⟩ := h
  rw [h1]; intro hh; injection hh with hh; subst hh; exact hc h2

/-- No panic; successes are tight; a message error starts with a digit. -/
structure InnerSpec (eoi : Sp O) (s : List (Tok O)) (r : PRes O α) : Prop where
  np : r.panicked = false
  okP : ∀ a alt, r.out = .ok (a, alt) → OPlain alt
  okT : ∀ a alt, r.out = .ok (a, alt) → (chars r.rest).head? ≠ some '=' → LB (r.rest.length - 1) alt
  err : ∀ e, r.out = .error e → e.err.plain = true ∨ (DigitAt s ∧ e.rem + 3 ≤ s.length)

theorem sign_value {eoi : Sp O} {s c alt} (h : (sign eoi s).out = .ok (c, alt)) : c = '+' ∨ c = '-' := by
  have aux : ∀ {d : Char} {s : List (Tok O)} {c alt}, (just d eoi s).out = .ok (c, alt) → c = d := by
    intro d s c alt h
    unfold just at h
    cases s with
    | nil => simp [pfail] at h
    | cons y t =>
      obtain ⟨y, sp⟩ := y
      simp only at h
      by_cases hy : y = d
      · simp [hy, pok] at h; exact h.1.symm
      · simp [hy, pfail] at h
  rcases orP_ok_inv (quiet_just _) h with ⟨h1, _⟩ | ⟨_, _, _, h1, _⟩
  · exact Or.inl (aux h1)
  · exact Or.inr (aux h1)

/-- A lone sign is an identifier. -/
theorem bareIdent_sign {eoi : Sp O} {s e} (h : (chars s).head? = some '+' ∨ (chars s).head? = some '-') :
    (bareIdent eoi s).out ≠ .error e := by
  intro he
  have hsig : ∃ c t, Ok sign eoi s c t := by
    rcases h with h | h
    · obtain ⟨sp, t, rfl⟩ := toks_of_head h
      exact ⟨'+', t, ok_orP_left (ok_just.2 ⟨sp, rfl, rfl⟩)⟩
    · obtain ⟨sp, t, rfl⟩ := toks_of_head h
      exact ⟨'-', t, ok_orP_right (fails_just_of (by simp)) (ok_just.2 ⟨sp, rfl, rfl⟩)⟩
  obtain ⟨c, t, hs⟩ := hsig
  unfold bareIdent at he
  rcases tryMap_error_inv he with h1 | ⟨a, alt, h1, h2, _⟩
  · obtain ⟨e', he'⟩ := choice_error_all h1 (repeatedB 1 (some 1) sign) (by simp)
    have := repeatedB_error (by simp) eoi s e' he'
    exact hs.not_fails ⟨e', this⟩
  · have hkw : a ∈ Cst.keywords := by
      unfold checkKeyword at h2
      split at h2
      · rename_i hh
        simp only [Cst.keywords, List.mem_cons, List.not_mem_nil, or_false]
        exact hh
      · cases h2
    obtain ⟨p, hp, h3, _⟩ := choice_ok_inv h1
    simp only [List.mem_cons, List.not_mem_nil, or_false] at hp
    rcases hp with rfl | rfl | rfl
    · obtain ⟨b, h4, rfl⟩ := pmap_ok_inv h3
      obtain ⟨a1, alt1, alt2, h5, h6, _⟩ := bind_ok_inv h4
      obtain ⟨b2, h7, rfl⟩ := pmap_ok_inv h6
      have := sign_value h5
      simp only [Cst.keywords, List.mem_cons, List.not_mem_nil, or_false] at hkw
      rcases this with rfl | rfl <;> rcases hkw with hk | hk | hk <;> simp at hk
    · have hq := quiet_repeatedB (mn := 1) (mx := some 1) (quiet_sign (O := O)) eoi s
      have hok : Ok (repeatedB 1 (some 1) sign) eoi s a (repeatedB 1 (some 1) sign eoi s).rest := ⟨hq, ⟨alt, h3⟩, rfl⟩
      have hr := (ok_repeatedB eats_sign.consumes hok).1
      generalize (repeatedB 1 (some 1) sign eoi s).rest = u at hr
      cases hr with
      | nil => simp [Cst.keywords] at hkw
      | cons h6 h7 =>
        obtain ⟨_, ⟨alt6, h6⟩, _⟩ := h6
        have := sign_value h6
        simp only [Cst.keywords, List.mem_cons, List.not_mem_nil, or_false] at hkw
        rcases this with rfl | rfl <;> rcases hkw with hk | hk | hk <;> simp at hk
    · obtain ⟨b, h4, rfl⟩ := pmap_ok_inv h3
      obtain ⟨a1, alt1, alt2, h5, h6, _⟩ := bind_ok_inv h4
      have : Fails idSansSignDig eoi s := by
        refine fails_mapErr.2 (fails_filter_head.2 ?_)
        intro d hd
        rcases h with h | h <;> rw [h] at hd <;> injection hd with hd <;> subst hd <;> decide
      exact not_ok_of_fails this h5

theorem literal_num_head {eoi : Sp O} {s l alt} (h : (literal eoi s).out = .ok (l, alt))
    (hl : (∃ r d, l = .int r d) ∨ ∃ d, l = .decimal d) :
    (chars s).head? = some '+' ∨ (chars s).head? = some '-' ∨ DigitAt s := by
  obtain ⟨p, hp, h3, _⟩ := choice_ok_inv h
  simp only [List.mem_cons, List.not_mem_nil, or_false] at hp
  rcases hp with rfl | rfl | rfl
  · obtain ⟨b, h4, rfl⟩ := pmap_ok_inv h3
    rcases hl with ⟨r, d, h⟩ | ⟨d, h⟩ <;> cases h
  · exfalso
    obtain ⟨q, hq, h4, _⟩ := choice_ok_inv h3
    simp only [List.mem_cons, List.not_mem_nil, or_false] at hq
    rcases hq with rfl | rfl | rfl <;> obtain ⟨b, h4, rfl⟩ := pmap_ok_inv h4 <;>
      rcases hl with ⟨r, d, h⟩ | ⟨d, h⟩ <;> cases h
  · have hq : Quiet (number : P O Literal) := quiet_orP quiet_radixNumber
      (quiet_pmap (quiet_seq (quiet_seq (quiet_seq (quiet_seq quiet_optSign (quiet_filter _)) (quiet_repeated (quiet_filter _)))
        (quiet_orNot (quiet_pmap (quiet_seq (quiet_seq (quiet_just _) (quiet_filter _)) (quiet_repeated (quiet_filter _))))))
        (quiet_orNot (quiet_pmap (quiet_seq (quiet_seq (quiet_orP (quiet_just _) (quiet_just _)) quiet_optSign) (quiet_repeated (quiet_filter _)))))))
    have hok : Ok number eoi s l (number eoi s).rest := ⟨hq eoi s, ⟨alt, h3⟩, rfl⟩
    obtain ⟨n, hn, hT, _⟩ := number_sound hok
    obtain ⟨c, rest, hc, hcc⟩ := num_text_head hn
    have : (chars s).head? = some c := by rw [hT.chars, hc]; rfl
    rcases hcc with rfl | rfl | hcc
    · exact Or.inl this
    · exact Or.inr (Or.inl this)
    · exact Or.inr (Or.inr ⟨c, this, hcc⟩)

/-- The first alternative of `prop_or_arg_inner`. -/
def litAlt : P O (PropOrArg (Sp O)) := tryMap literalEntry (seq (spanned literal) optValue)
/-- The second alternative of `prop_or_arg_inner`. -/
def identAlt : P O (PropOrArg (Sp O)) :=
  pmap identEntry (validate identEntryErrs (seq (spanned bareIdent) optValue))
/-- The third alternative of `prop_or_arg_inner`. -/
def typedAlt : P O (PropOrArg (Sp O)) := pmap .arg typeNameValue

theorem propOrArgInner_eq : (propOrArgInner : P O (PropOrArg (Sp O))) = choice [litAlt, identAlt, typedAlt] := rfl

theorem optValue_some {eoi : Sp O} {s v alt} (h : (optValue eoi s).out = .ok (some v, alt)) :
    (chars s).head? = some '=' ∧ (optValue eoi s).rest.length + 2 ≤ s.length := by
  rcases orNot_inv (ignoreThen (just '=') value) eoi s with ⟨b, alt1, h1, h2⟩ | ⟨e, h1, h2⟩
  · have h2' : optValue eoi s = _ := h2
    refine ⟨?_, ?_⟩
    · obtain ⟨a, b1, b2, h3, _⟩ := bind_ok_inv h1
      exact (just_ok_head h3).1
    · rw [h2']
      have := eats_ignoreThen (eats_just (c := '=')) eats_value eoi s _ h1
      exact this
  · have h2' : optValue eoi s = _ := h2
    rw [h2'] at h; injection h with h; injection h with h _; cases h

theorem seqOpt_alt {α : Type} {p : P O α} (hp : TightK 1 p) {eoi : Sp O} {s a alt}
    (h : (seq p optValue eoi s).out = .ok (a, alt))
    (hne : (chars (seq p optValue eoi s).rest).head? ≠ some '=') :
    LB ((seq p optValue eoi s).rest.length - 1) alt := by
  obtain ⟨a1, alt1, alt2, h1, h2, h3, h4⟩ := bind_ok_inv h
  have h4' : (seq p optValue eoi s).rest = (optValue eoi (p eoi s).rest).rest := h4
  obtain ⟨b, h5, _⟩ := pmap_ok_inv h2
  rw [h4'] at hne ⊢
  have h6 := optValue_alt h5 hne
  have h7 := hp eoi s a1 alt1 h1
  have h8 := (suf_optValue eoi (p eoi s).rest).length_le
  rw [h3]
  exact mergeAlts_lb (h7.mono (by omega)) h6

theorem litAlt_spec (eoi : Sp O) (s : List (Tok O)) :
    (litAlt eoi s).panicked = false ∧
    (∀ a alt, (litAlt eoi s).out = .ok (a, alt) → OPlain alt ∧
      ((chars (litAlt eoi s).rest).head? ≠ some '=' → LB ((litAlt eoi s).rest.length - 1) alt)) ∧
    (∀ e, (litAlt eoi s).out = .error e → e.err.plain = true ∨
      (e.rem + 3 ≤ s.length ∧ ((chars s).head? = some '+' ∨ (chars s).head? = some '-' ∨ DigitAt s))) := by
  have hc := calm_seq (calm_spanned (calm_literal (O := O))) (suf_spanned suf_literal) calm_optValue eoi s (Nat.le_refl _)
  refine ⟨hc.np, ?_, ?_⟩
  · intro a alt h
    obtain ⟨b, h1, _⟩ := tryMap_ok_inv h
    exact ⟨calmR_ok hc h1, fun hne => seqOpt_alt (tight_spanned tight_literal) h1 hne⟩
  · intro e h
    rcases tryMap_error_inv h with h1 | ⟨a, alt, h1, h2, h3⟩
    · exact Or.inl (calmR_error hc h1)
    · obtain ⟨a1, alt1, alt2, h4, h5, h6, h7⟩ := bind_ok_inv h1
      obtain ⟨o, h8, rfl⟩ := pmap_ok_inv h5
      obtain ⟨l, h9, rfl⟩ := mapWithSpan_ok_inv h4
      have h10 := eats_literal eoi s _ h9
      have h7' : (seq (spanned literal) optValue eoi s).rest = (optValue eoi (literal eoi s).rest).rest := h7
      cases o with
      | none =>
        simp only [literalEntry] at h2
        cases l <;> simp at h2
      | some v =>
        have h11 := (optValue_some h8).2
        have h12 : (spanned literal eoi s).rest = (literal eoi s).rest := rfl
        rw [h12] at h11
        have hrem : e.rem + 3 ≤ s.length := by rw [h3, h7']; omega
        cases l with
        | string x => simp [literalEntry] at h2
        | bool b => left; simp [literalEntry] at h2; rw [← h2]; rfl
        | null => left; simp [literalEntry] at h2; rw [← h2]; rfl
        | int r d => right; exact ⟨hrem, literal_num_head h9 (Or.inl ⟨r, d, rfl⟩)⟩
        | decimal d => right; exact ⟨hrem, literal_num_head h9 (Or.inr ⟨d, rfl⟩)⟩

theorem calm_identAlt {L} : Calm L (identAlt : P O (PropOrArg (Sp O))) :=
  calm_pmap (calm_validate (calm_seq (calm_spanned calm_bareIdent) (suf_spanned suf_bareIdent) calm_optValue))
theorem calm_typedAlt {L} : Calm L (typedAlt : P O (PropOrArg (Sp O))) := calm_pmap calm_typeNameValue

theorem identAlt_alt {eoi : Sp O} {s a alt} (h : (identAlt eoi s).out = .ok (a, alt))
    (hne : (chars (identAlt eoi s).rest).head? ≠ some '=') : LB ((identAlt eoi s).rest.length - 1) alt := by
  obtain ⟨b, h1, _⟩ := pmap_ok_inv h
  have hr : (identAlt eoi s).rest = (seq (spanned bareIdent) optValue eoi s).rest ∧
      (seq (spanned bareIdent) optValue eoi s).out = .ok (b, alt) := by
    have : (identAlt eoi s).rest = (validate identEntryErrs (seq (spanned bareIdent) optValue) eoi s).rest := rfl
    rw [this]
    unfold validate at h1 ⊢
    cases ho : (seq (spanned bareIdent) optValue eoi s).out with
    | error e => simp [ho] at h1
    | ok x => simp [ho] at h1 ⊢; rw [← h1.1, ← h1.2]
  rw [hr.1] at hne ⊢
  exact seqOpt_alt (tight_spanned (tight_bareIdent.mono (by omega))) hr.2 hne

theorem identAlt_error {eoi : Sp O} {s e} (h : (identAlt eoi s).out = .error e) : ∃ e, (bareIdent eoi s).out = .error e := by
  have h := pmap_error.1 h
  unfold validate at h
  cases ho : (seq (spanned bareIdent) optValue eoi s).out with
  | ok x => simp [ho] at h
  | error e' =>
    rcases bind_error_inv ho with h1 | ⟨a, alt, e2, h1, h2, _⟩
    · exact ⟨e', mapWithSpan_error.1 h1⟩
    · exfalso
      have h2 := pmap_error.1 h2
      rcases orNot_inv (ignoreThen (just '=') value) eoi (spanned bareIdent eoi s).rest with ⟨_, _, _, h3⟩ | ⟨_, _, h3⟩
      · have h3' : optValue eoi (spanned bareIdent eoi s).rest = _ := h3
        rw [h3'] at h2; cases h2
      · have h3' : optValue eoi (spanned bareIdent eoi s).rest = _ := h3
        rw [h3'] at h2; cases h2

theorem at_identAlt {eoi : Sp O} {s} (h : ∀ c, (chars s).head? = some c → ¬ Cst.IdentStart c) : At identAlt eoi s :=
  at_pmap (at_validate (at_seq (fails_mapWithSpan.2 (failsC_bareIdent h).fails) (at_spanned (at_bareIdent h))))

theorem at_typedAlt {eoi : Sp O} {s} (h : (chars s).head? ≠ some '(') : At typedAlt eoi s := at_pmap (at_typeNameValue h)

theorem inner_spec (eoi : Sp O) (s : List (Tok O)) : InnerSpec eoi s (propOrArgInner eoi s) := by
  obtain ⟨hn, hok, herr⟩ := litAlt_spec eoi s
  have hB := calm_identAlt (O := O) eoi s (Nat.le_refl _)
  have hC := calm_typedAlt (O := O) eoi s (Nat.le_refl _)
  have hT : ∀ a alt, (propOrArgInner eoi s).out = .ok (a, alt) →
      (chars (propOrArgInner eoi s).rest).head? ≠ some '=' → LB ((propOrArgInner eoi s).rest.length - 1) alt := by
    intro a alt h
    obtain ⟨p, hp, h1, h2, _⟩ := choice_ok_inv h
    have h2' : (propOrArgInner eoi s).rest = (p eoi s).rest := h2
    rw [h2']
    simp only [List.mem_cons, List.not_mem_nil, or_false] at hp
    rcases hp with rfl | rfl | rfl
    · exact (hok a alt h1).2
    · exact identAlt_alt h1
    · intro _; exact tight_pmap tight_typeNameValue eoi s a alt h1
  have hcalm : CalmR (propOrArgInner eoi s) → InnerSpec eoi s (propOrArgInner eoi s) := fun h =>
    ⟨h.np, fun a alt ho => calmR_ok h ho, hT, fun e he => Or.inl (calmR_error h he)⟩
  cases hA : (litAlt eoi s).out with
  | ok x =>
    apply hcalm
    rw [propOrArgInner_eq]
    refine ⟨by simp [choice, choiceGo, hA, hn], ?_⟩
    simpa [choice, choiceGo, hA, PRes.altOrErr] using (hok x.1 x.2 hA).1
  | error e1 =>
    rcases herr e1 hA with hpl | ⟨hrem, hhead⟩
    · apply hcalm
      rw [propOrArgInner_eq]
      have : choice [litAlt, identAlt, typedAlt] eoi s = choiceGo (some e1) false [identAlt, typedAlt] eoi s := by
        simp [choice, choiceGo, hA, hn, mergeAlts, clashAlts]
      rw [this]
      refine calmR_choiceGo ?_ (oplain_some.2 hpl) rfl (Or.inl (by simp))
      intro p hp
      simp only [List.mem_cons, List.not_mem_nil, or_false] at hp
      rcases hp with rfl | rfl
      · exact hB
      · exact hC
    · cases hBo : (identAlt eoi s).out with
      | ok x =>
        apply hcalm
        rw [propOrArgInner_eq]
        refine ⟨by simp [choice, choiceGo, hA, hn, hBo, hB.np, mergeAlts, clashAlts], ?_⟩
        simpa [choice, choiceGo, hA, hBo, PRes.altOrErr] using calmR_ok hB hBo
      | error e2 =>
        have hd : DigitAt s := by
          obtain ⟨e, he⟩ := identAlt_error hBo
          rcases hhead with h | h | h
          · exact absurd he (bareIdent_sign (Or.inl h))
          · exact absurd he (bareIdent_sign (Or.inr h))
          · exact h
        have hat2 := at_identAlt hd.noIdent e2 hBo
        have hf2 := mergeAlts_far (a := e1) (o := some e2) (lb_some.2 (by omega))
        have hpar : (chars s).head? ≠ some '(' := hd.ne (by decide)
        cases hCo : (typedAlt eoi s).out with
        | ok x =>
          exfalso
          obtain ⟨b, h1, _⟩ := pmap_ok_inv (b := x.1) (alt := x.2) hCo
          exact hpar (typeNameValue_ok_head h1)
        | error e3 =>
          have hat3 := at_typedAlt hpar e3 hCo
          have hf3 := mergeAlts_far (a := e1) (o := some e3) (lb_some.2 (by omega))
          have hres : propOrArgInner eoi s = ⟨false, [], .error e1, s⟩ := by
            rw [propOrArgInner_eq]
            have e0 : mergeAlts none (some e1) = some e1 := rfl
            have e0' : clashAlts none (some e1) = false := rfl
            simp only [choice, choiceGo, hA, hBo, hCo, hn, hB.np, hC.np, e0, e0', hf2.1, hf2.2.2.1, hf3.1, hf3.2.2.1,
              Bool.or_self, Bool.false_or]
          rw [hres]
          exact ⟨rfl, by simp, by simp, fun e he => by
            injection he with he; subst he; exact Or.inr ⟨hd, hrem⟩⟩

theorem NotStart.noName {s : List (Tok O)} (h : NotStart s) : NoName (chars s) :=
  fun c hc => ⟨(h c hc).1, (h c hc).2.1, (h c hc).2.2.1⟩

theorem at_inner {eoi : Sp O} {s} (h : NotStart s) : At propOrArgInner eoi s := by
  have hpar : (chars s).head? ≠ some '(' := fun hc => (h _ hc).2.2.2 rfl
  refine at_choice (by simp) ?_
  intro p hp
  simp only [List.mem_cons, List.not_mem_nil, or_false] at hp
  rcases hp with rfl | rfl | rfl
  · have hf : Fails (spanned literal) eoi s := fails_mapWithSpan.2 (fails_literal_noName h.noName)
    exact at_tryMap (fails_seq_left hf) (at_seq hf (at_spanned (at_literal h.noName)))
  · exact at_identAlt (fun c hc => (h c hc).1)
  · exact at_typedAlt hpar

theorem failQuiet_choice {ps : List (P O α)} : FailQuiet (choice ps) := by
  have key : ∀ (ps : List (P O α)) alt pan eoi s e, (choiceGo alt pan ps eoi s).out = .error e →
      (choiceGo alt pan ps eoi s).errs = [] := by
    intro ps
    induction ps with
    | nil => intro alt pan eoi s e h; cases alt <;> rfl
    | cons p ps ih =>
      intro alt pan eoi s e h
      cases ho : (p eoi s).out with
      | ok x => simp [choiceGo, ho] at h
      | error e1 => simp only [choiceGo, ho] at h ⊢; exact ih _ _ eoi s e h
  exact fun eoi s e h => key ps none false eoi s e h

end Knuffel
