import Verif.Theory.BlameLex
/-!
# Two texts with the same beginning: names, literals and entries
-/

set_option linter.unusedSimpArgs false
set_option linter.unusedSectionVars false
set_option linter.unusedVariables false

namespace Knuffel
open Cst

variable {O α β γ : Type} [Offset O] {C : Twin O} {k : Bool} {n : Nat}

/-! ### Names without quotes -/

/-- What is read for a name, before the check for keywords. -/
def identChoice : P O Str :=
  choice [
    pmap (fun x => x.1 :: x.2.1 :: x.2.2) (seq sign (seq idSansDig (repeated idChar))),
    repeatedB 1 (some 1) sign,
    pmap (fun x => x.1 :: x.2) (seq idSansSignDig (repeated idChar))]

theorem fails_sign {eoi : Sp O} {x : Tok O} {t} (h : ¬ (x.1 = '+' ∨ x.1 = '-')) : Fails sign eoi (x :: t) :=
  (failsC_sign (by simpa [chars] using fun hh => h (Or.inl hh)) (by simpa [chars] using fun hh => h (Or.inr hh))).fails

theorem ok_oneSign {eoi : Sp O} {x : Tok O} {t} (h : x.1 = '+' ∨ x.1 = '-') :
    Ok (repeatedB 1 (some 1) sign) eoi (x :: t) [x.1] t := by
  obtain ⟨c, sp⟩ := x
  exact ok_repeatedB_of (.cons (ok_sign.2 ⟨.single, h⟩) (by simp) (.nil _)) (by simp) (Or.inl (by simp))

theorem bl_identChoice : Bl C false n identChoice identChoice := by
  refine bl_choice ⟨(bl_sign.seq (bl_filter.mapErr.seq bl_filter.mapErr.repeated)).pmap, ?_,
    bl_sign.repeatedB (fun h => by cases h) (Or.inl (by omega)), ?_, (bl_filter.mapErr.seq bl_filter.mapErr.repeated).pmap, ?_, trivial⟩
  · intro x u _ _ _ e he _
    by_cases hx : x.1 = '+' ∨ x.1 = '-'
    · cases u with
      | nil =>
        right
        intro q hq
        simp only [List.mem_cons, List.not_mem_nil, or_false] at hq
        rcases hq with rfl | rfl
        · exact Or.inr ((ok_oneSign hx).touch (Nat.le_refl _))
        · left
          refine fails_pmap.2 (fails_seq_left (fails_mapErr.2 (fails_filter_head.2 ?_)))
          intro c hc
          simp [chars] at hc
          subst hc
          rcases hx with h | h <;> rw [h] <;> decide
      | cons y u =>
        by_cases hy : isIdSansDig y.1 = true
        · exfalso
          obtain ⟨c, sp⟩ := x
          obtain ⟨d, sp2⟩ := y
          obtain ⟨as, t2, h7⟩ := idChars_total (eoi := C.eoi) (s := u ++ C.v)
          have : Ok (pmap (fun x : Char × Char × List Char => x.1 :: x.2.1 :: x.2.2)
              (seq sign (seq idSansDig (repeated idChar)))) C.eoi ((c, sp) :: ((d, sp2) :: u ++ C.v)) (c :: d :: as) t2 :=
            ok_pmap.2 ⟨(c, d, as), ok_seq.2 ⟨_, ok_sign.2 ⟨.single, hx⟩, ok_seq.2 ⟨u ++ C.v,
              ok_idSansDig.2 ⟨.single, isIdSansDig_iff.1 hy⟩, h7⟩⟩, rfl⟩
          exact this.not_fails ⟨e, he⟩
        · left
          obtain ⟨c, sp⟩ := x
          refine fails_pmap.2 (fails_seq_right (ok_sign.2 ⟨.single, hx⟩) (fails_seq_left (fails_mapErr.2 (fails_filter_head.2 ?_))))
          intro d hd
          simp [chars] at hd
          subst hd
          simpa using hy
    · exact Or.inl (fails_pmap.2 (fails_seq_left (fails_sign hx)))
  · intro x u _ _ _ e he _
    left
    by_cases hx : x.1 = '+' ∨ x.1 = '-'
    · exact absurd ⟨e, he⟩ (ok_oneSign hx).not_fails
    · exact fails_repeatedB (by decide) (by decide) (fails_sign hx)
  · intro x u _ _ _ e he _
    exact Or.inr (by simp)

theorem tight_identChoice : Tight (identChoice : P O Str) := by
  refine tight_choice ?_
  intro p hp
  simp only [List.mem_cons, List.not_mem_nil, or_false] at hp
  rcases hp with rfl | rfl | rfl
  · exact tight_pmap (tight_seq (j := 0) tight_sign (tight_seq (j := 0) (tight_mapErr (tight_filter _)) tight_idChars
      (suf_repeated suf_idChar).eats0) (suf_seq suf_idSansDig (suf_repeated suf_idChar)).eats0)
  · exact tight_repeatedB tight_sign suf_sign quiet_sign.failQuiet eats_sign.consumes near_sign
  · exact tight_pmap (tight_seq (j := 0) (tight_mapErr (tight_filter _)) tight_idChars (suf_repeated suf_idChar).eats0)

/-- A tight parser that stops before the end of the common part has not looked beyond. -/
theorem TightK.not_al {j} {p : P O α} (h : TightK j p) {eoi : Sp O} {s a alt m} (ho : (p eoi s).out = .ok (a, alt))
    (hl : m + j < (p eoi s).rest.length) : ¬ Al m alt := by
  rintro ⟨l, rfl, h2⟩
  have := lb_some.1 (h eoi s a _ ho)
  omega

theorem bl_bareIdent : Bl C false n bareIdent bareIdent := by
  refine bl_identChoice.tryMap ?_
  intro x u _ _ _ a alt ho ha hl
  exact absurd ha (tight_identChoice.not_al ho (by simpa using hl))

/-- A name is read wherever one can begin. -/
theorem identChoice_total {eoi : Sp O} {x : Tok O} {t} (h : IdentStart x.1) : ∃ w t', Ok identChoice eoi (x :: t) w t' := by
  obtain ⟨c, sp⟩ := x
  by_cases hx : c = '+' ∨ c = '-'
  · rcases quiet_identChoice.cases eoi ((c, sp) :: t) with h | h
    · exact h
    · exact absurd (fails_choice.1 h.fails _ (by simp)) (ok_oneSign (x := (c, sp)) hx).not_fails
  · obtain ⟨as, t2, h7⟩ := idChars_total (eoi := eoi) (s := t)
    refine ⟨c :: as, t2, ok_choice_cons.2 (Or.inr ⟨fails_pmap.2 (fails_seq_left (fails_sign hx)), ok_choice_cons.2 (Or.inr
      ⟨fails_repeatedB (by decide) (by decide) (fails_sign hx), ok_choice_cons.2 (Or.inl ?_)⟩)⟩)⟩
    exact ok_pmap.2 ⟨(c, as), ok_seq.2 ⟨t, ok_idSansSignDig.2 ⟨.single, fun h => hx (Or.inl h), fun h => hx (Or.inr h), h⟩, h7⟩, rfl⟩

theorem Ok.touch_tryMap {f : α → Sp O → Except (PErr O) β} {p : P O α} {eoi : Sp O} {s a t m} (h : Ok p eoi s a t)
    (ht : t.length ≤ m) : Touch m (tryMap f p eoi s) := by
  obtain ⟨_, ⟨alt, h1⟩, h2⟩ := h
  unfold tryMap
  simp only [h1]
  split
  · exact touch_ok.2 (Or.inr (by rw [h2]; exact ht))
  · exact touch_error.2 (by rw [h2]; exact ht)

/-- The whole rest of the common part belongs to the name. -/
theorem bareIdent_touch {eoi : Sp O} {x : Tok O} {u v : List (Tok O)} (hx : IdentStart x.1)
    (hu : u = [] ∨ (¬ (x.1 = '+' ∨ x.1 = '-') ∧ ∀ y ∈ u, IdentChar y.1)) : Touch v.length (bareIdent eoi (x :: (u ++ v))) := by
  obtain ⟨w, t, hok⟩ := identChoice_total (eoi := eoi) (t := u ++ v) hx
  refine hok.touch_tryMap ?_
  obtain ⟨h1, h2, h3⟩ := identChoice_sound hok
  have hw : w ≠ [] := by rintro rfl; exact h1
  have hwl : 0 < w.length := List.length_pos_iff.2 hw
  have hl := h2.length
  rcases hu with rfl | ⟨hs, hu⟩
  · simp at hl; omega
  · apply Classical.byContradiction
    intro hlt
    have hlt : v.length < t.length := Nat.lt_of_not_le hlt
    obtain ⟨b, rfl, hb⟩ := takes_split (u := x :: u) (v := v) h2 (by omega)
    cases b with
    | nil => simp at hlt
    | cons y b =>
      have hy : y ∈ u := by
        rcases List.suffix_cons_iff.1 hb with h | h
        · injection h with h4 h5
          subst h5
          simp only [List.length_cons, List.length_append] at hl; omega
        · exact h.subset (by simp)
      rcases h3 y.1 (by simp [chars]) with h | ⟨h, -⟩
      · exact h (hu y hy)
      · obtain ⟨pre, h5, h6⟩ := h2
        cases pre with
        | nil => simp [chars] at h6; exact hw h6
        | cons z pre =>
          simp at h5
          rcases h with h | h <;> rw [h] at h6 <;> simp [chars] at h6
          · exact hs (Or.inl (by rw [h5.1, h6.1]))
          · exact hs (Or.inr (by rw [h5.1, h6.1]))

/-! ### What can begin what -/

theorem fails_seq_total {p : P O α} {q : P O β} {eoi : Sp O} {s} (hq : ∀ t, ¬ Fails q eoi t) (h : Fails (seq p q) eoi s) :
    Fails p eoi s := by
  obtain ⟨e, he⟩ := h
  rcases bind_error_inv he with h | ⟨a, alt, e2, h1, h2, h3⟩
  · exact ⟨e, h⟩
  · exact absurd ⟨e2, pmap_error.1 h2⟩ (hq _)

/-- Numbers are read exactly where there is a digit, perhaps after a sign. -/
theorem fails_number_iff {eoi : Sp O} {s} : Fails number eoi s ↔ NoNum (chars s) := by
  refine ⟨?_, fun h => (failsC_number h).fails⟩
  intro h
  have hd : Fails (seq optSign (digit 10)) eoi s := by
    have h2 := (fails_orP.1 h).2
    exact fails_seq_total (fun _ => not_fails_repeated) (fails_seq_total (fun _ => not_fails_orNot)
      (fails_seq_total (fun _ => not_fails_orNot) (fails_pmap.1 h2)))
  intro c rest hc
  obtain ⟨sp, t, rfl⟩ := toks_of_head (s := s) (c := c) (by rw [hc]; rfl)
  have hrest : chars t = rest := by simpa [chars] using hc
  have no : ∀ {o t'}, Ok optSign eoi ((c, sp) :: t) o t' → ∀ d, (chars t').head? = some d → d ∉ Cst.decDigits := by
    intro o t' ho d hd' hm
    obtain ⟨sp', t2, rfl⟩ := toks_of_head hd'
    have : Ok (digit 10) eoi ((d, sp') :: t2) d t2 := (ok_digit (r := .dec)).2 ⟨.single, hm⟩
    exact (show Ok (seq optSign (digit 10)) eoi _ (o, d) t2 from ok_seq.2 ⟨_, ho, this⟩).not_fails hd
  by_cases hs : c = '-' ∨ c = '+'
  · have ho : Ok optSign eoi ((c, sp) :: t) (some c) t :=
      ok_optSign.2 ⟨by rcases hs with h | h <;> simp [h, SignOk], .single, by simp⟩
    refine ⟨by rcases hs with h | h <;> rw [h] <;> decide, fun _ d hd' => no ho d (by rw [hrest]; exact hd')⟩
  · have ho : Ok optSign eoi ((c, sp) :: t) none ((c, sp) :: t) :=
      ok_optSign.2 ⟨by simp [SignOk], takes_nil.2 rfl, fun _ => ⟨by simpa [chars] using fun h => hs (Or.inl h), by simpa [chars] using fun h => hs (Or.inr h)⟩⟩
    exact ⟨no ho c (by simp [chars]), fun h => absurd h.symm hs⟩

theorem fails_number_head {eoi : Sp O} {x : Tok O} {t} (h1 : x.1 ∉ decDigits) (h2 : ¬ (x.1 = '+' ∨ x.1 = '-')) :
    Fails number eoi (x :: t) := by
  refine fails_number_iff.2 ?_
  intro c rest hc
  simp [chars] at hc
  obtain ⟨rfl, -⟩ := hc
  exact ⟨h1, fun h => absurd h h2⟩

/-- After a sign the next character decides. -/
theorem fails_number_next {eoi eoi' : Sp O} {x y : Tok O} {t t'} (h : Fails number eoi (x :: y :: t)) :
    Fails number eoi' (x :: y :: t') := by
  rw [fails_number_iff] at h ⊢
  intro c rest hc
  simp [chars] at hc
  obtain ⟨rfl, rfl⟩ := hc
  obtain ⟨h1, h2⟩ := h x.1 (chars (y :: t)) (by simp [chars])
  exact ⟨h1, fun hs d hd => h2 hs d (by simpa [chars] using hd)⟩

theorem fails_string_head {eoi : Sp O} {x : Tok O} {t} (h1 : x.1 ≠ 'r') (h2 : x.1 ≠ '"') : Fails string eoi (x :: t) := by
  refine (failsC_string (by simpa [chars] using h2) ?_).fails
  rintro ⟨n, hn⟩
  obtain ⟨r, hr⟩ := hn
  simp [chars] at hr
  exact h1 hr.1.symm

theorem fails_keyword_head {eoi : Sp O} {x : Tok O} {t} (h1 : x.1 ≠ 'n') (h2 : x.1 ≠ 't') (h3 : x.1 ≠ 'f') :
    Fails keyword eoi (x :: t) := by
  refine fails_choice.2 ?_
  intro p hp
  simp only [List.mem_cons, List.not_mem_nil, or_false] at hp
  rcases hp with rfl | rfl | rfl <;>
    exact fails_pmap.2 (fails_mapErr.2 (fails_justStr_head (by assumption)))

theorem fails_identChoice_head {eoi : Sp O} {x : Tok O} {t} (h : ¬ IdentStart x.1) : Fails identChoice eoi (x :: t) := by
  have hs : ¬ (x.1 = '+' ∨ x.1 = '-') := by
    rintro (h' | h') <;> rw [h'] at h <;> exact h (isIdSansDig_iff.1 (by decide))
  refine fails_choice.2 ?_
  intro p hp
  simp only [List.mem_cons, List.not_mem_nil, or_false] at hp
  rcases hp with rfl | rfl | rfl
  · exact fails_pmap.2 (fails_seq_left (fails_sign hs))
  · exact fails_repeatedB (by decide) (by decide) (fails_sign hs)
  · exact fails_pmap.2 (fails_seq_left (failsC_idSansSignDig (by
      intro c hc; simp [chars] at hc; subst hc; exact fun h' => h h'.2.2)).fails)

theorem fails_bareIdent_head {eoi : Sp O} {x : Tok O} {t} (h : ¬ IdentStart x.1) : Fails bareIdent eoi (x :: t) :=
  fails_tryMap.2 (Or.inl (fails_identChoice_head h))

theorem identStart_sign {c : Char} (h : c = '+' ∨ c = '-') : IdentStart c := by
  rcases h with rfl | rfl <;> exact isIdSansDig_iff.1 (by decide)

theorem bareIdent_fails_cases {eoi : Sp O} {x : Tok O} {t} (h : Fails bareIdent eoi (x :: t)) :
    ¬ IdentStart x.1 ∨ x.1 = 'n' ∨ x.1 = 't' ∨ x.1 = 'f' := by
  rcases fails_tryMap.1 h with h | ⟨w, alt, e, h1, h2⟩
  · left
    intro hx
    obtain ⟨w, t', hok⟩ := identChoice_total (eoi := eoi) (t := t) hx
    exact hok.not_fails h
  · right
    have hT := (identChoice_sound (Quiet.ok quiet_identChoice h1)).2.1
    obtain ⟨pre, h5, h6⟩ := hT
    cases pre with
    | nil =>
      simp [chars] at h6
      subst h6
      have : checkKeyword [] (spanSince eoi (x :: t) (identChoice eoi (x :: t)).rest) = .ok [] := by
        simp [checkKeyword]
      rw [show (choice _ : P O Str) = identChoice from rfl, this] at h2; cases h2
    | cons z pre =>
      simp at h5
      rw [← h6] at h2
      unfold checkKeyword at h2
      split at h2
      · rename_i hk
        rw [h5.1]
        simp only [chars, List.map_cons] at hk
        rcases hk with hk | hk | hk
        · exact Or.inr (Or.inl (List.cons.inj (hk.trans (show "true".toList = 't' :: "rue".toList by decide))).1)
        · exact Or.inr (Or.inr (List.cons.inj (hk.trans (show "false".toList = 'f' :: "alse".toList by decide))).1)
        · exact Or.inl (List.cons.inj (hk.trans (show "null".toList = 'n' :: "ull".toList by decide))).1
      · cases h2

/-! ### Names -/

theorem Touch.pmap {f : α → β} {p : P O α} {eoi : Sp O} {s m} (h : Touch m (p eoi s)) : Touch m (pmap f p eoi s) := by
  cases ho : (p eoi s).out with
  | error e => exact (touch_error' (e := e) (by simp [Knuffel.pmap, ho])).2 ((touch_error' ho).1 h)
  | ok x => exact (touch_ok' (a := f x.1) (alt := x.2) (by simp [Knuffel.pmap, ho])).2
              ((touch_ok' (a := x.1) (alt := x.2) ho).1 h)

/-- Where a number fails touching the last tokens, names also do. -/
theorem number_touch {x : Tok O} {u : List (Tok O)} (h : Fails number C.eoi (x :: (u ++ C.v))) :
    Fails number C.eoi' (x :: (u ++ C.v')) ∨ (x.1 = '+' ∨ x.1 = '-') ∧ Touch C.v.length (bareIdent C.eoi (x :: (u ++ C.v))) := by
  by_cases hx : x.1 = '+' ∨ x.1 = '-'
  · cases u with
    | nil => exact Or.inr ⟨hx, bareIdent_touch (identStart_sign hx) (Or.inl rfl)⟩
    | cons y u => exact Or.inl (fails_number_next h)
  · exact Or.inl (fails_number_head (fails_number_iff.1 h x.1 _ rfl).1 hx)

/-- A number before the last tokens is one whatever follows. -/
theorem number_stays {x : Tok O} {u : List (Tok O)} {l t} (h : Ok number C.eoi (x :: (u ++ C.v)) l t) (ht : C.v.length < t.length) :
    ¬ Fails number C.eoi' (x :: (u ++ C.v')) := by
  intro hf
  cases u with
  | nil =>
    obtain ⟨_, ⟨alt, h1⟩, h2⟩ := h
    have := eats_number C.eoi _ _ h1
    rw [h2] at this
    simp at this
    omega
  | cons y u => exact h.not_fails (fails_number_next hf)

theorem bl_ident (hU : CodesOk (C.U ++ C.v)) : Bl C false n ident ident := by
  unfold ident
  refine Bl.tryMap (bl_choice ⟨bl_number.pmap, ?_, bl_bareIdent.pmap, ?_, (bl_string hU).pmap, ?_, trivial⟩) ?_
  · intro x u _ _ _ e he _
    rcases number_touch (fails_pmap.1 ⟨e, he⟩) with h | ⟨hx, h⟩
    · exact Or.inl (fails_pmap.2 h)
    · right
      intro q hq
      simp only [List.mem_cons, List.not_mem_nil, or_false] at hq
      rcases hq with rfl | rfl
      · exact Or.inr h.pmap
      · left
        exact fails_pmap.2 (fails_string_head (by rcases hx with h | h <;> rw [h] <;> decide) (by rcases hx with h | h <;> rw [h] <;> decide))
  · intro x u _ _ _ e he _
    rcases bareIdent_fails_cases (fails_pmap.1 ⟨e, he⟩) with h | h
    · exact Or.inl (fails_pmap.2 (fails_bareIdent_head h))
    · right
      intro q hq
      simp only [List.mem_cons, List.not_mem_nil, or_false] at hq
      subst hq
      left
      exact fails_pmap.2 (fails_string_head (by rcases h with h | h | h <;> rw [h] <;> decide) (by rcases h with h | h | h <;> rw [h] <;> decide))
  · intro x u _ _ _ e he _
    exact Or.inr (by simp)
  · intro x u _ _ _ a alt ho ha hl sp e hf
    cases a with
    | some s => simp [checkNumber] at hf
    | none =>
      obtain ⟨p, hp, h1, h2, -⟩ := choice_ok_inv ho
      simp only [List.mem_cons, List.not_mem_nil, or_false] at hp
      rw [h2] at hl
      rcases hp with rfl | rfl | rfl
      · obtain ⟨l, h3, -⟩ := pmap_ok_inv h1
        have hok := Quiet.ok quiet_number h3
        have hst := number_stays hok hl
        rcases quiet_number.cases C.eoi' (x :: (u ++ C.v')) with ⟨l', t', h4⟩ | h4
        · refine (failsC_tryMap_err (f := checkNumber) (a := none) (t := t') (e := _) (ok_choice_cons.2 (Or.inl (ok_pmap.2 ⟨l', h4, rfl⟩))) rfl).fails
        · exact absurd h4.fails hst
      · obtain ⟨l, h3, h4⟩ := pmap_ok_inv h1
        cases h4
      · obtain ⟨l, h3, h4⟩ := pmap_ok_inv h1
        cases h4

theorem bl_literal (hU : CodesOk (C.U ++ C.v)) : Bl C false n literal literal := by
  unfold literal
  refine bl_choice ⟨(bl_string hU).pmap, ?_, bl_keyword, ?_, bl_number, ?_, trivial⟩
  · intro x u _ _ _ e he _
    by_cases hx : x.1 = 'r' ∨ x.1 = '"'
    · right
      intro q hq
      simp only [List.mem_cons, List.not_mem_nil, or_false] at hq
      left
      rcases hq with rfl | rfl
      · rcases hx with h | h <;> exact fails_keyword_head (by rw [h]; decide) (by rw [h]; decide) (by rw [h]; decide)
      · rcases hx with h | h <;> exact fails_number_head (by rw [h]; decide) (by rw [h]; decide)
    · exact Or.inl (fails_pmap.2 (fails_string_head (fun h => hx (Or.inl h)) (fun h => hx (Or.inr h))))
  · intro x u _ _ _ e he _
    by_cases hx : x.1 = 'n' ∨ x.1 = 't' ∨ x.1 = 'f'
    · right
      intro q hq
      simp only [List.mem_cons, List.not_mem_nil, or_false] at hq
      subst hq
      left
      rcases hx with h | h | h <;> exact fails_number_head (by rw [h]; decide) (by rw [h]; decide)
    · exact Or.inl (fails_keyword_head (fun h => hx (Or.inl h)) (fun h => hx (Or.inr (Or.inl h))) (fun h => hx (Or.inr (Or.inr h))))
  · intro x u _ _ _ e he _
    exact Or.inr (by simp)

theorem bl_typeName (hU : CodesOk (C.U ++ C.v)) : Bl C k n typeName typeName :=
  ((bl_just.ignoreThen (bl_ident hU)).thenIgnore bl_just).pmap

theorem bl_typeNameValue (hU : CodesOk (C.U ++ C.v)) : Bl C k n typeNameValue typeNameValue :=
  (Bl.seq (bl_typeName hU).spanned (bl_literal hU).spanned).pmap

theorem bl_value (hU : CodesOk (C.U ++ C.v)) : Bl C false n value value := by
  refine (bl_typeNameValue hU).orP (bl_literal hU).spanned.pmap ?_
  intro eoi s x hx _
  obtain ⟨c, sp⟩ := x
  have h := typeNameValue_ok_head hx
  exact fails_pmap.2 (fails_mapWithSpan.2 (fails_literal_noName (noName_paren h)))

theorem bl_optValue (hU : CodesOk (C.U ++ C.v)) : Bl C k n optValue optValue := (Bl.ignoreThen bl_just (bl_value hU)).orNot

/-! ### What is read well before the last tokens stays so -/

theorem Bl.same {j} {p p' : P O α} (h : Bl C false n p p') (ht : TightK j p) {u} (hu : u <:+ C.U) (hn : u.length ≤ n) {a alt}
    (ho : (p C.eoi (u ++ C.v)).out = .ok (a, alt)) (hl : C.v.length + j < (p C.eoi (u ++ C.v)).rest.length) :
    ∃ alt' w, (p C.eoi (u ++ C.v)).rest = w ++ C.v ∧ w <:+ u ∧ (p' C.eoi' (u ++ C.v')).out = .ok (a, alt') ∧
      (p' C.eoi' (u ++ C.v')).rest = w ++ C.v' := by
  rcases h.run u hu hn (by simp) with h1 | ⟨a', alt1, alt', w, h1, h2, h3, h4⟩ | ⟨⟨e, h1⟩, _⟩
  · rcases (touch_ok' ho).1 h1 with h | h
    · exact absurd h (ht.not_al ho hl)
    · omega
  · rw [ho] at h1; injection h1 with h1; injection h1 with h1 _; subst h1
    have := h.inn.suf C.eoi (u ++ C.v)
    rw [h3] at this
    exact ⟨alt', w, h3, suf_of_append this, h2, h4⟩
  · rw [ho] at h1; cases h1

theorem not_fails_of_ok {p : P O α} {eoi : Sp O} {s x} (h : (p eoi s).out = .ok x) : ¬ Fails p eoi s := by
  rintro ⟨e, he⟩; rw [h] at he; cases he

theorem literal_stays (hU : CodesOk (C.U ++ C.v)) {u} (hu : u <:+ C.U) {x} (ho : (literal C.eoi (u ++ C.v)).out = .ok x)
    (hl : C.v.length < (literal C.eoi (u ++ C.v)).rest.length) : ¬ Fails literal C.eoi' (u ++ C.v') := by
  intro hf
  obtain ⟨l, alt⟩ := x
  obtain ⟨p, hp, h1, h2, -⟩ := choice_ok_inv ho
  have hl : C.v.length < (p C.eoi (u ++ C.v)).rest.length := by rw [← h2]; exact hl
  have hfp := fails_choice.1 hf p hp
  simp only [List.mem_cons, List.not_mem_nil, or_false] at hp
  rcases hp with rfl | rfl | rfl
  · obtain ⟨_, _, _, _, h3, _⟩ := (bl_string (n := u.length) (k := false) hU).pmap.same (tight_pmap tight_string) hu (Nat.le_refl _) h1 hl
    exact not_fails_of_ok h3 hfp
  · obtain ⟨_, _, _, _, h3, _⟩ := (bl_keyword (n := u.length) (k := false)).same tight_keyword hu (Nat.le_refl _) h1 hl
    exact not_fails_of_ok h3 hfp
  · cases u with
    | nil =>
      have := (suf_number C.eoi ([] ++ C.v)).length_le
      simp only [List.nil_append] at this hl
      omega
    | cons y u => exact number_stays (Quiet.ok quiet_number h1) hl hfp

theorem typeNameValue_stays (hU : CodesOk (C.U ++ C.v)) {u} (hu : u <:+ C.U) {x} (ho : (typeNameValue C.eoi (u ++ C.v)).out = .ok x)
    (hl : C.v.length < (typeNameValue C.eoi (u ++ C.v)).rest.length) : ¬ Fails typeNameValue C.eoi' (u ++ C.v') := by
  intro hf
  obtain ⟨y, alt⟩ := x
  obtain ⟨b, h1, -⟩ := pmap_ok_inv ho
  obtain ⟨a, alt1, alt2, h2, h3, -, h4⟩ := bind_ok_inv h1
  have h4 : (typeNameValue C.eoi (u ++ C.v)).rest = _ := h4
  obtain ⟨l, h5, -⟩ := pmap_ok_inv h3
  obtain ⟨l', h6, -⟩ := mapWithSpan_ok_inv h5
  have hr : (typeNameValue C.eoi (u ++ C.v)).rest = (literal C.eoi (spanned typeName C.eoi (u ++ C.v)).rest).rest := h4
  rw [hr] at hl
  have := (suf_literal C.eoi (spanned typeName C.eoi (u ++ C.v)).rest).length_le
  obtain ⟨alt', w, g1, g2, g3, g4⟩ := (bl_typeName (n := u.length) (k := false) hU).spanned.same (tight_spanned tight_typeName)
    hu (Nat.le_refl _) h2 (by omega)
  rw [g1] at h6 hl
  have hst := literal_stays hU (g2.trans hu) h6 hl
  obtain ⟨e, he⟩ := fails_pmap.1 hf
  rcases bind_error_inv he with h | ⟨a', alt3, e2, k1, k2, k3⟩
  · rw [g3] at h; cases h
  · rw [g4] at k2
    exact hst (fails_mapWithSpan.1 (fails_pmap.1 ⟨e2, k2⟩))

theorem excl_value : Excl (typeNameValue : P O _) (pmap (fun l => ⟨none, l⟩) (spanned literal)) := by
  intro eoi s x hx _
  exact fails_pmap.2 (fails_mapWithSpan.2 (fails_literal_noName (noName_paren (typeNameValue_ok_head hx))))

theorem value_stays (hU : CodesOk (C.U ++ C.v)) {u} (hu : u <:+ C.U) {x} (ho : (value C.eoi (u ++ C.v)).out = .ok x)
    (hl : C.v.length < (value C.eoi (u ++ C.v)).rest.length) : ¬ Fails value C.eoi' (u ++ C.v') := by
  intro hf
  obtain ⟨hf1, hf2⟩ := fails_orP.1 hf
  rcases orP_cases excl_value C.eoi (u ++ C.v) with ⟨a, alt, g1, alt', g2, g3, -⟩ | ⟨e, g1, ⟨b, alt, g2, l, g3, g4, -⟩ | ⟨e2, g2, e3, g3, -⟩⟩
  · exact typeNameValue_stays hU hu g1 (by rw [← g3]; exact hl) hf1
  · obtain ⟨c, h1, -⟩ := pmap_ok_inv g2
    obtain ⟨d, h2, -⟩ := mapWithSpan_ok_inv h1
    have hr : (value C.eoi (u ++ C.v)).rest = (literal C.eoi (u ++ C.v)).rest := g4
    exact literal_stays hU hu h2 (by rw [← hr]; exact hl) (fails_mapWithSpan.1 (fails_pmap.1 hf2))
  · rw [show (value C.eoi (u ++ C.v)).out = _ from g3] at ho; cases ho

end Knuffel
