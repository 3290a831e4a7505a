import Verif.Theory.PositionLex
/-!
# Where the errors of numbers, identifiers and values are located
-/

set_option linter.unusedSimpArgs false
set_option linter.unusedSectionVars false
set_option linter.unusedVariables false

namespace Knuffel

variable {O α β γ : Type}

theorem near1_of_near0 {p : P O α} (h : Near 0 p) : Near 1 p := fun eoi s e he => Nat.le_succ_of_le (h eoi s e he)

theorem near_digit (r) : Near 0 (digit r : P O Char) := near_filter _
theorem tight_digit (r) : Tight (digit r : P O Char) := tight_filter _
theorem tight_digits (r) : Tight (digits r : P O (List Char)) :=
  tight_repeatedB (tight_filter _) suf_filter (quiet_filter _).failQuiet eats_filter.consumes (near_filter _)

theorem not_error_of_total {p : P O α} {eoi : Sp O} {s e} (h : ¬ Fails p eoi s) : (p eoi s).out ≠ .error e :=
  fun he => h ⟨e, he⟩

theorem tight_sign : Tight (sign : P O Char) :=
  tight_orP (quiet_just _) (tight_just _) (near_just _) (tight_just _) suf_just.eats0
theorem near_sign : Near 0 (sign : P O Char) := near_orP (near_just _) (near_just _)
theorem near_optSignIn : Near 0 (orP (just '-') (just '+') : P O Char) := near_orP (near_just _) (near_just _)
theorem tight_optSign : Tight (optSign : P O (Option Char)) :=
  tight_orNot (tight_orP (quiet_just _) (tight_just _) (near_just _) (tight_just _) suf_just.eats0) near_optSignIn
theorem quiet_optSign : Quiet (optSign : P O (Option Char)) := quiet_orNot (quiet_orP (quiet_just _) (quiet_just _))

theorem optSign_ok (eoi : Sp O) (s) : ∃ x, (optSign eoi s).out = .ok x := by
  rcases orNot_inv (orP (just '-') (just '+')) eoi s with ⟨a, alt, _, h⟩ | ⟨e, _, h⟩
  · exact ⟨_, congrArg PRes.out h⟩
  · exact ⟨_, congrArg PRes.out h⟩

theorem digits_ok (r) (eoi : Sp O) (s) : ∃ x, (digits r eoi s).out = .ok x := by
  cases h : (digits r eoi s).out with
  | ok x => exact ⟨x, rfl⟩
  | error e => exact (not_fails_repeated ⟨e, h⟩).elim

theorem tight_frac : Tight (pmap (fun x => x.1.1 :: x.1.2 :: x.2) (seq (seq (just '.') (digit 10)) (digits 10)) : P O (List Char)) :=
  tight_pmap (tight_seq (j := 0) (tight_seq (tight_just _) (tight_digit _) suf_digit.eats0) (tight_digits _) suf_digits.eats0)

theorem near_frac : Near 1 (pmap (fun x => x.1.1 :: x.1.2 :: x.2) (seq (seq (just '.') (digit 10)) (digits 10)) : P O (List Char)) := by
  refine near_pmap (near_bind_left (near_bind_left (near1_of_near0 (near_just _)) ?_) ?_)
  · intro eoi s x hx e he
    have h1 := just_ok_head hx
    have h2 := near_pmap (near_digit 10) eoi _ e he
    rw [h1.2.2]; simp only [Loc.maxO]; omega
  · intro eoi s x hx e he
    obtain ⟨y, hy⟩ := digits_ok 10 eoi (seq (just '.') (digit 10) eoi s).rest
    rw [pmap_error.1 he] at hy; cases hy

theorem tight_exp : Tight (pmap (fun x => x.1.1 :: (x.1.2.toList ++ x.2))
    (seq (seq (orP (just 'e') (just 'E')) optSign) (digits 10)) : P O (List Char)) :=
  tight_pmap (tight_seq (j := 0) (tight_seq (j := 0) (tight_orP (quiet_just _) (tight_just _) (near_just _) (tight_just _)
    suf_just.eats0) tight_optSign suf_optSign.eats0) (tight_digits _) suf_digits.eats0)

theorem near_exp : Near 0 (pmap (fun x => x.1.1 :: (x.1.2.toList ++ x.2))
    (seq (seq (orP (just 'e') (just 'E')) optSign) (digits 10)) : P O (List Char)) := by
  refine near_pmap (near_bind_left (near_bind_left (near_orP (near_just _) (near_just _)) ?_) ?_)
  · intro eoi s x hx e he
    obtain ⟨y, hy⟩ := optSign_ok eoi (orP (just 'e') (just 'E') eoi s).rest
    rw [pmap_error.1 he] at hy; cases hy
  · intro eoi s x hx e he
    obtain ⟨y, hy⟩ := digits_ok 10 eoi (seq (orP (just 'e') (just 'E')) optSign eoi s).rest
    rw [pmap_error.1 he] at hy; cases hy

theorem tight_decimalNumber : TightK 1 (decimalNumber : P O Literal) := by
  refine tight_pmap (tight_seq (j := 1) (tight_seq (j := 0) (tight_seq (j := 0) (tight_seq (j := 0) tight_optSign (tight_digit _)
    suf_digit.eats0) (tight_digits _) suf_digits.eats0) (tight_orNot (tight_frac.mono (by omega)) near_frac)
    (suf_orNot ?_).eats0) ((tight_orNot tight_exp near_exp).mono (by omega)) (suf_orNot ?_).eats0)
  · exact suf_pmap (suf_seq (suf_seq suf_just suf_digit) suf_digits)
  · exact suf_pmap (suf_seq (suf_seq (suf_orP suf_just suf_just) suf_optSign) suf_digits)

theorem tight_radixDigits (m r x) : Tight (radixDigits m r x : P O (Radix × List Char)) :=
  tight_ignoreThen (j := 0) (tight_just _) (tight_pmap (tight_seq (tight_digit _) (tight_digits _) suf_digits.eats0))
    (suf_pmap (suf_seq suf_digit suf_digits)).eats0

theorem near_radixDigits (m r x) : Near 1 (radixDigits m r x : P O (Radix × List Char)) := by
  refine near_bind_left (near1_of_near0 (near_just _)) ?_
  intro eoi s y hy e he
  have h1 := just_ok_head hy
  rw [h1.2.2]; simp only [Loc.maxO]
  rcases bind_error_inv (pmap_error.1 he) with h | ⟨a, alt, e2, h2, h3, h4⟩
  · have := near_digit r eoi _ e h; omega
  · obtain ⟨y, hy⟩ := digits_ok r eoi (digit r eoi (just m eoi s).rest).rest
    rw [pmap_error.1 h3] at hy; cases hy

theorem tight_radixNumber : Tight (radixNumber : P O Literal) := by
  refine tight_pmap (tight_seq (j := 0) (tight_thenIgnore (j := 0) tight_optSign (tight_just _) suf_just.eats0) (tight_choice ?_)
    (suf_choice ?_).eats0)
  · intro p hp
    simp only [List.mem_cons, List.not_mem_nil, or_false] at hp
    rcases hp with rfl | rfl | rfl <;> exact tight_radixDigits _ _ _
  · intro p hp
    simp only [List.mem_cons, List.not_mem_nil, or_false] at hp
    rcases hp with rfl | rfl | rfl <;> exact suf_radixDigits

theorem quiet_radixNumber : Quiet (radixNumber : P O Literal) := by
  refine quiet_pmap (quiet_seq (quiet_thenIgnore quiet_optSign (quiet_just _)) (quiet_choice ?_))
  intro p hp
  simp only [List.mem_cons, List.not_mem_nil, or_false] at hp
  rcases hp with rfl | rfl | rfl <;>
  exact quiet_ignoreThen (quiet_just _) (quiet_pmap (quiet_seq (quiet_filter _) (quiet_repeated (quiet_filter _))))

/-- A failure of a number with radix is near the first digit. -/
theorem radixNumber_error {eoi : Sp O} {s e} (h : (radixNumber eoi s).out = .error e) :
    (optSign eoi s).rest.length ≤ e.rem + 2 := by
  rcases bind_error_inv (pmap_error.1 h) with h | ⟨a, alt, e2, h1, h2, h3⟩
  · rcases bind_error_inv h with h | ⟨a, alt, e2, h1, h2, h3⟩
    · obtain ⟨y, hy⟩ := optSign_ok eoi s
      rw [h] at hy; cases hy
    · have h4 := near_just '0' eoi _ e2 (pmap_error.1 h2)
      have h5 := tight_optSign eoi s a alt h1
      rw [h3]
      have := maxO_lb (n := (optSign eoi s).rest.length) (by omega) (h5.mono (by omega))
      omega
  · obtain ⟨a1, alt1, alt2, h4, h5, h6, h7⟩ := bind_ok_inv h1
    obtain ⟨b, h8, _⟩ := pmap_ok_inv h5
    have h9 := just_ok_head h8
    have h10 := tight_optSign eoi s _ _ h4
    have h11 : (thenIgnore optSign (just '0') eoi s).rest = (just '0' eoi (optSign eoi s).rest).rest := h7
    have h12 : alt2 = none := h9.2.2
    have hnear : Near 1 (choice [radixDigits 'b' 2 .bin, radixDigits 'o' 8 .oct, radixDigits 'x' 16 .hex] : P O (Radix × List Char)) := by
      refine near_choice (by simp) ?_
      intro p hp
      simp only [List.mem_cons, List.not_mem_nil, or_false] at hp
      rcases hp with rfl | rfl | rfl <;> exact near_radixDigits _ _ _
    have h13 := hnear eoi _ e2 (pmap_error.1 h2)
    rw [h11] at h13
    rw [h3, h6, h12]
    have := maxO_lb (n := (optSign eoi s).rest.length - 2) (a := e2) (o := mergeAlts alt1 none) (by omega)
      (mergeAlts_lb (h10.mono (by omega)) lb_none)
    omega

theorem decimalNumber_ok {eoi : Sp O} {s x} (h : (decimalNumber eoi s).out = .ok x) :
    (decimalNumber eoi s).rest.length + 1 ≤ (optSign eoi s).rest.length := by
  obtain ⟨b, h, _⟩ := pmap_ok_inv (b := x.1) (alt := x.2) h
  obtain ⟨a1, b1, c1, d1, d2, d3, d4⟩ := bind_ok_inv h
  obtain ⟨a2, b2, c2, e1, e2, e3, e4⟩ := bind_ok_inv d1
  obtain ⟨a3, b3, c3, f1, f2, f3, f4⟩ := bind_ok_inv e1
  obtain ⟨a4, b4, c4, g1, g2, g3, g4⟩ := bind_ok_inv f1
  have h1 := eats_pmap (eats_digit (O := O)) eoi _ _ g2
  have h2 := (suf_pmap (f := fun b => (a3, b)) (suf_digits (r := 10)) eoi (seq optSign (digit 10) eoi s).rest).length_le
  have h3 := (suf_pmap (f := fun b => (a2, b)) (suf_orNot (suf_pmap (f := fun x => x.1.1 :: x.1.2 :: x.2)
    (suf_seq (suf_seq (suf_just (c := '.')) (suf_digit (r := 10))) (suf_digits (r := 10))))) eoi (seq (seq optSign (digit 10)) (digits 10) eoi s).rest).length_le
  have h4 := (suf_pmap (f := fun b => (a1, b)) (suf_orNot (suf_pmap (f := fun x => x.1.1 :: (x.1.2.toList ++ x.2))
    (suf_seq (suf_seq (suf_orP (suf_just (c := 'e')) (suf_just (c := 'E'))) suf_optSign) (suf_digits (r := 10))))) eoi
    (seq (seq (seq optSign (digit 10)) (digits 10))
      (orNot (pmap (fun x => x.1.1 :: x.1.2 :: x.2) (seq (seq (just '.') (digit 10)) (digits 10)))) eoi s).rest).length_le
  have k1 := congrArg List.length d4
  have k2 := congrArg List.length e4
  have k3 := congrArg List.length f4
  have k4 := congrArg List.length g4
  have k0 : (decimalNumber eoi s).rest.length = (seq (seq (seq (seq optSign (digit 10)) (digits 10))
      (orNot (pmap (fun x => x.1.1 :: x.1.2 :: x.2) (seq (seq (just '.') (digit 10)) (digits 10)))))
      (orNot (pmap (fun x => x.1.1 :: (x.1.2.toList ++ x.2))
        (seq (seq (orP (just 'e') (just 'E')) optSign) (digits 10)))) eoi s).rest.length := rfl
  simp only [seq] at *
  omega

theorem tight_number : TightK 1 (number : P O Literal) := by
  intro eoi s a alt h
  rcases orP_ok_inv quiet_radixNumber h with ⟨h1, h2⟩ | ⟨e1, alt2, h1, h2, h3, h4⟩
  · have h2' : (number eoi s).rest = (radixNumber eoi s).rest := h2
    rw [h2']; exact (tight_radixNumber eoi s a alt h1).mono (by omega)
  · have h4' : (number eoi s).rest = (decimalNumber eoi s).rest := h4
    rw [h4', h3]
    have h5 := radixNumber_error h1
    have h6 := decimalNumber_ok h2
    exact mergeAlts_lb (tight_decimalNumber eoi s a alt2 h2) (lb_some.2 (by omega))

theorem tight_keyword : Tight (keyword : P O Literal) := by
  refine tight_choice ?_
  intro p hp
  simp only [List.mem_cons, List.not_mem_nil, or_false] at hp
  rcases hp with rfl | rfl | rfl <;> exact tight_pmap (tight_mapErr (tight_justStr _))

theorem tight_idChars : Tight (repeated idChar : P O (List Char)) :=
  tight_repeatedB (tight_mapErr (tight_filter _)) suf_idChar quiet_idChar.failQuiet eats_idChar.consumes
    (near_mapErr (near_filter _))

theorem tight_bareIdent : Tight (bareIdent : P O Str) := by
  refine tight_tryMap (tight_choice ?_)
  intro p hp
  simp only [List.mem_cons, List.not_mem_nil, or_false] at hp
  rcases hp with rfl | rfl | rfl
  · exact tight_pmap (tight_seq (j := 0) tight_sign (tight_seq (j := 0) (tight_mapErr (tight_filter _)) tight_idChars
      (suf_repeated suf_idChar).eats0) (suf_seq suf_idSansDig (suf_repeated suf_idChar)).eats0)
  · exact tight_repeatedB tight_sign suf_sign quiet_sign.failQuiet eats_sign.consumes near_sign
  · exact tight_pmap (tight_seq (j := 0) (tight_mapErr (tight_filter _)) tight_idChars (suf_repeated suf_idChar).eats0)

theorem optSign_none {eoi : Sp O} {s} (h1 : (chars s).head? ≠ some '-') (h2 : (chars s).head? ≠ some '+') :
    ∃ e, (optSign eoi s).out = .ok (none, some e) ∧ (optSign eoi s).rest = s ∧ s.length ≤ e.rem := by
  rcases orNot_inv (orP (just '-') (just '+')) eoi s with ⟨a, alt, h3, h⟩ | ⟨e, h3, h⟩
  · rcases orP_ok_inv (quiet_just _) h3 with ⟨h4, _⟩ | ⟨_, _, _, h4, _⟩
    · exact absurd (just_ok_head h4).1 h1
    · exact absurd (just_ok_head h4).1 h2
  · exact ⟨e, congrArg PRes.out h, congrArg PRes.rest h, near_optSignIn eoi s e h3⟩

theorem at_number {eoi : Sp O} {s} (h1 : (chars s).head? ≠ some '-') (h2 : (chars s).head? ≠ some '+')
    (h3 : ∀ c, (chars s).head? = some c → c ∉ Cst.decDigits) : At number eoi s := by
  obtain ⟨e0, ho, hr, hl⟩ := optSign_none (eoi := eoi) h1 h2
  have hf0 : Fails (just '0') eoi s := fails_just_of (fun hc => h3 _ hc (by decide))
  have hfd : Fails (digit 10) eoi s := by
    refine fails_filter_head.2 ?_
    intro c hc
    cases hb : isDigit 10 c with
    | false => rfl
    | true => exact absurd (isDigit10_iff.1 hb) (h3 c hc)
  have key : ∀ {α : Type} {q : P O α}, Near 0 q → Fails q eoi s → At (seq optSign q) eoi s := by
    intro α q hq hf e he
    rcases bind_error_inv he with h | ⟨a, alt, e2, h4, h5, h6⟩
    · rw [ho] at h; cases h
    · rw [ho] at h4; injection h4 with h4; injection h4 with _ h4; subst h4
      rw [hr] at h5
      have := hq eoi s e2 (pmap_error.1 h5)
      rw [h6]; exact maxO_lb (by omega) (lb_some.2 hl)
  have keyf : ∀ {α : Type} {q : P O α}, Fails q eoi s → Fails (seq optSign q) eoi s := by
    intro α q ⟨e, he⟩
    rcases bind_cases optSign (fun a => pmap (fun b => (a, b)) q) eoi s with ⟨e', h, _⟩ | ⟨a, alt, e2, h, h', h''⟩ | ⟨a, alt, b, alt2, h, h', h''⟩
    · rw [ho] at h; cases h
    · exact ⟨_, congrArg PRes.out h''⟩
    · obtain ⟨b', h5, _⟩ := pmap_ok_inv h'
      rw [hr] at h5; rw [he] at h5; cases h5
  have keyT : At (thenIgnore optSign (just '0')) eoi s := by
    intro e he
    rcases bind_error_inv he with h | ⟨a, alt, e2, h4, h5, h6⟩
    · rw [ho] at h; cases h
    · rw [ho] at h4; injection h4 with h4; injection h4 with _ h4; subst h4
      rw [hr] at h5
      have := near_just _ eoi s e2 (pmap_error.1 h5)
      rw [h6]; exact maxO_lb (by omega) (lb_some.2 hl)
  have keyTf : Fails (thenIgnore optSign (just '0')) eoi s := by
    obtain ⟨e, he⟩ := hf0
    rcases bind_cases optSign (fun a => pmap (fun _ => a) (just '0')) eoi s with ⟨e', h, _⟩ | ⟨a, alt, e2, h, h', h''⟩ | ⟨a, alt, b, alt2, h, h', h''⟩
    · rw [ho] at h; cases h
    · exact ⟨_, congrArg PRes.out h''⟩
    · obtain ⟨b', h5, _⟩ := pmap_ok_inv h'
      rw [hr] at h5; rw [he] at h5; cases h5
  refine at_orP (at_pmap (at_seq keyTf keyT)) (at_pmap ?_)
  have k1 := key (near_digit 10) hfd
  have f1 := keyf hfd
  exact at_seq (fails_seq_left (fails_seq_left f1)) (at_seq (fails_seq_left f1) (at_seq f1 k1))

theorem at_justStr {c : Char} {cs : Str} {eoi : Sp O} {s} (h : (chars s).head? ≠ some c) : At (justStr (c :: cs)) eoi s := by
  intro e he
  unfold justStr at he
  cases s with
  | nil => simp
  | cons x t =>
    obtain ⟨x, sp⟩ := x
    have : x ≠ c := by simpa using h
    simp [this, pfail] at he
    rw [← he]; simp

theorem at_keyword {eoi : Sp O} {s} (h : ∀ c, (chars s).head? = some c → ¬ Cst.IdentStart c) : At keyword eoi s := by
  have key : ∀ c : Char, isIdSansDig c = true → (chars s).head? ≠ some c := fun c hc hh =>
    h c hh (isIdSansDig_iff.1 hc)
  refine at_choice (by simp) ?_
  intro p hp
  simp only [List.mem_cons, List.not_mem_nil, or_false] at hp
  rcases hp with rfl | rfl | rfl
  · exact at_pmap (at_mapErr (at_justStr (key 'n' (by decide))))
  · exact at_pmap (at_mapErr (at_justStr (key 't' (by decide))))
  · exact at_pmap (at_mapErr (at_justStr (key 'f' (by decide))))

theorem at_bareIdent {eoi : Sp O} {s} (h : ∀ c, (chars s).head? = some c → ¬ Cst.IdentStart c) : At bareIdent eoi s := by
  have key : ∀ c : Char, isIdSansDig c = true → (chars s).head? ≠ some c := fun c hc hh =>
    h c hh (isIdSansDig_iff.1 hc)
  have hsig := (failsC_sign (eoi := eoi) (key '+' (by decide)) (key '-' (by decide))).fails
  have hin : Fails idSansSignDig eoi s := by
    refine fails_mapErr.2 (fails_filter_head.2 ?_)
    intro c hc
    cases hb : isIdSansSignDig c with
    | false => rfl
    | true => exact absurd (isIdSansSignDig_iff.1 hb).2.2 (h c hc)
  have hfc := (failsC_bareIdent (eoi := eoi) h).fails
  unfold bareIdent at hfc ⊢
  intro e he
  rcases tryMap_error_inv he with h1 | ⟨a, alt, h1, _⟩
  · refine at_choice (by simp) ?_ e h1
    intro p hp
    simp only [List.mem_cons, List.not_mem_nil, or_false] at hp
    rcases hp with rfl | rfl | rfl
    · exact at_pmap (at_seq hsig (near_sign.at _ _))
    · intro e he
      exact near_sign.at _ _ e (repeatedB_error (by simp) eoi s e he)
    · exact at_pmap (at_seq hin (at_mapErr ((near_filter _).at _ _)))
  · exfalso
    obtain ⟨p, hp, h2, _⟩ := choice_ok_inv h1
    simp only [List.mem_cons, List.not_mem_nil, or_false] at hp
    have aux : ∀ {β : Type} {p : P O β} {x}, Fails p eoi s → (p eoi s).out = .ok x → False := by
      rintro β p x ⟨e, he⟩ h; rw [he] at h; cases h
    rcases hp with rfl | rfl | rfl
    · exact aux (fails_pmap.2 (fails_seq_left hsig)) h2
    · exact aux (fails_repeatedB (by decide) (by decide) hsig) h2
    · exact aux (fails_pmap.2 (fails_seq_left hin)) h2

section
variable [Offset O]

theorem tight_ident : TightK 1 (ident : P O Str) := by
  refine tight_tryMap (tight_choice ?_)
  intro p hp
  simp only [List.mem_cons, List.not_mem_nil, or_false] at hp
  rcases hp with rfl | rfl | rfl
  · exact tight_pmap tight_number
  · exact tight_pmap (tight_bareIdent.mono (by omega))
  · exact tight_pmap (tight_string.mono (by omega))

theorem tight_literal : TightK 1 (literal : P O Literal) := by
  refine tight_choice ?_
  intro p hp
  simp only [List.mem_cons, List.not_mem_nil, or_false] at hp
  rcases hp with rfl | rfl | rfl
  · exact tight_pmap (tight_string.mono (by omega))
  · exact tight_keyword.mono (by omega)
  · exact tight_number

theorem tight_typeName : Tight (typeName : P O TypeName) :=
  tight_pmap (tight_thenIgnore (j := 1) (tight_ignoreThen (j := 0) (tight_just _) tight_ident suf_ident.eats0) (tight_just _) eats_just)

theorem tight_typeNameValue : TightK 1 (typeNameValue : P O (Value (Sp O))) :=
  tight_pmap (tight_seq (j := 0) (tight_spanned tight_typeName) (tight_spanned tight_literal) (suf_spanned suf_literal).eats0)

theorem at_literal {eoi : Sp O} {s} (h : NoName (chars s)) : At literal eoi s := by
  have key : ∀ c : Char, isIdSansDig c = true → (chars s).head? ≠ some c := fun c hc hh =>
    (h c hh).1 (isIdSansDig_iff.1 hc)
  refine at_choice (by simp) ?_
  intro p hp
  simp only [List.mem_cons, List.not_mem_nil, or_false] at hp
  rcases hp with rfl | rfl | rfl
  · exact at_pmap (at_string (key 'r' (by decide)) (fun hc => (h _ hc).2.2 rfl))
  · exact at_keyword (fun c hc => (h c hc).1)
  · exact at_number (key '-' (by decide)) (key '+' (by decide)) (fun c hc => (h c hc).2.1)

theorem at_typeName {eoi : Sp O} {s} (h : (chars s).head? ≠ some '(') : At typeName eoi s :=
  have hf := fails_just_of (eoi := eoi) h
  at_pmap (at_thenIgnore (fails_ignoreThen_left hf) (at_ignoreThen hf ((near_just _).at _ _)))

theorem fails_typeName_head {eoi : Sp O} {s} (h : (chars s).head? ≠ some '(') : Fails typeName eoi s :=
  fails_pmap.2 (fails_thenIgnore_left (fails_ignoreThen_left (fails_just_of h)))

theorem at_typeNameValue {eoi : Sp O} {s} (h : (chars s).head? ≠ some '(') : At typeNameValue eoi s :=
  at_pmap (at_seq (fails_mapWithSpan.2 (fails_typeName_head h)) (at_spanned (at_typeName h)))

theorem typeName_ok_head {eoi : Sp O} {s x} (h : (typeName eoi s).out = .ok x) : (chars s).head? = some '(' := by
  by_cases hp : (chars s).head? = some '('
  · exact hp
  · obtain ⟨e, he⟩ := fails_typeName_head (eoi := eoi) hp; rw [h] at he; cases he

theorem typeNameValue_ok_head {eoi : Sp O} {s x} (h : (typeNameValue eoi s).out = .ok x) : (chars s).head? = some '(' := by
  obtain ⟨b, h, _⟩ := pmap_ok_inv (b := x.1) (alt := x.2) h
  obtain ⟨a, alt1, alt2, h1, _⟩ := bind_ok_inv h
  obtain ⟨c, h2, _⟩ := mapWithSpan_ok_inv h1
  exact typeName_ok_head h2

theorem noName_paren {s : Str} (h : s.head? = some '(') : NoName s := by
  intro c hc
  rw [h] at hc; injection hc with hc; subst hc
  refine ⟨?_, by decide, by decide⟩
  rw [← isIdSansDig_iff]; decide

theorem fails_literal_noName {eoi : Sp O} {s} (hn : NoName (chars s)) : Fails literal eoi s := by
  refine (failsC_literal (fun hc => (hn _ hc).2.2 rfl) (noName_noRaw hn) ?_ (noName_noNum hn)).fails
  rintro k hk ⟨w, hw⟩
  have hkk : ∃ c, k.head? = some c ∧ Cst.IdentStart c := by
    simp only [Cst.keywords, List.mem_cons, List.not_mem_nil, or_false] at hk
    rcases hk with rfl | rfl | rfl
    · exact ⟨'t', rfl, by rw [← isIdSansDig_iff]; decide⟩
    · exact ⟨'f', rfl, by rw [← isIdSansDig_iff]; decide⟩
    · exact ⟨'n', rfl, by rw [← isIdSansDig_iff]; decide⟩
  obtain ⟨c, h1, h2⟩ := hkk
  obtain ⟨k', rfl⟩ := head_eq_some.1 h1
  exact (hn c (by rw [← hw]; rfl)).1 h2

theorem not_ok_of_fails {p : P O α} {eoi : Sp O} {s x} (h : Fails p eoi s) : (p eoi s).out ≠ .ok x := by
  obtain ⟨e, he⟩ := h; rw [he]; intro hh; cases hh

theorem tight_value : TightK 1 (value : P O (Value (Sp O))) := by
  intro eoi s a alt h
  have hx : ∀ y z, (typeNameValue eoi s).out = .ok y →
      (pmap (fun l => (⟨none, l⟩ : Value (Sp O))) (spanned literal) eoi s).out = .ok z → False := by
    intro y z hy hz
    have := fails_literal_noName (eoi := eoi) (noName_paren (typeNameValue_ok_head hy))
    exact not_ok_of_fails (fails_pmap.2 (fails_mapWithSpan.2 this)) hz
  rcases orP_ok_inv' hx h with ⟨alt1, h1, h2, h3⟩ | ⟨e1, alt2, h1, h2, h3, h4⟩
  · have h2' : (value eoi s).rest = (typeNameValue eoi s).rest := h2
    rw [h2']
    have h4 := tight_typeNameValue eoi s a alt1 h1
    rcases h3 with rfl | ⟨e2, h5, rfl⟩
    · exact h4
    · have h6 := at_pmap (f := fun l => (⟨none, l⟩ : Value (Sp O))) (at_spanned (at_literal (eoi := eoi) (noName_paren (typeNameValue_ok_head h1)))) e2 h5
      have h7 := (suf_typeNameValue eoi s).length_le
      exact mergeAlts_lb h4 (lb_some.2 (by omega))
  · have h4' : (value eoi s).rest = (pmap (fun l => (⟨none, l⟩ : Value (Sp O))) (spanned literal) eoi s).rest := h4
    rw [h4', h3]
    have hc : (chars s).head? ≠ some '(' := fun hc =>
      not_ok_of_fails (fails_pmap.2 (fails_mapWithSpan.2 (fails_literal_noName (eoi := eoi) (noName_paren hc)))) h2
    have h5 := at_typeNameValue hc e1 h1
    have h6 : (pmap (fun l => (⟨none, l⟩ : Value (Sp O))) (spanned literal) eoi s).rest.length ≤ s.length :=
      (suf_literal eoi s).length_le
    exact mergeAlts_lb (tight_pmap (tight_spanned tight_literal) eoi s a alt2 h2) (lb_some.2 (by omega))

/-- The alternative of an optional value, unless it is `=` without a value. -/
theorem optValue_alt {eoi : Sp O} {s a alt} (h : (optValue eoi s).out = .ok (a, alt))
    (hne : (chars (optValue eoi s).rest).head? ≠ some '=') : LB ((optValue eoi s).rest.length - 1) alt := by
  rcases orNot_inv (ignoreThen (just '=') value) eoi s with ⟨b, alt1, h1, h2⟩ | ⟨e, h1, h2⟩
  · have h2' : optValue eoi s = _ := h2
    rw [h2'] at h ⊢
    injection h with h; injection h with _ h; subst h
    exact tight_ignoreThen (j := 0) (tight_just _) tight_value suf_value.eats0 eoi s b alt1 h1
  · have h2' : optValue eoi s = _ := h2
    rw [h2'] at h hne ⊢
    injection h with h; injection h with _ h; subst h
    have := at_ignoreThen (q := (value : P O _)) (fails_just_of (eoi := eoi) (s := s) hne) ((near_just _).at _ _) e h1
    exact lb_some.2 (by simp only; omega)

end

end Knuffel
