import Verif.Theory.OrderedLex
/-!
# The order of the diagnostics: names, values and entries
-/

set_option linter.unusedSimpArgs false
set_option linter.unusedSectionVars false
set_option linter.unusedVariables false

namespace Knuffel.Ordered
open Cst

variable {α β : Type} {text : Str}

/-- A name or a literal may begin here. -/
def Nm (s : List (Tok Nat)) : Prop := ¬ NoName (chars s)

/-- An entry may begin here. -/
def Eh (s : List (Tok Nat)) : Prop := Nm s ∨ Hd '(' s

/-- Characters with which no name or literal begins. -/
def stops : List Char := newlineChars ++ [';', '/', '{', '}', '=', '\\', '(', ')']

theorem stops_spec : ∀ d ∈ stops, isIdSansDig d = false ∧ d ∉ decDigits ∧ d ≠ '"' := by decide

theorem noName_hd {d : Char} {s} (h : Hd d s) (hd : d ∈ stops) : NoName (chars s) := by
  intro c hc
  rw [h] at hc
  injection hc with hc
  subst hc
  have := stops_spec _ hd
  refine ⟨?_, this.2⟩
  intro hi
  rw [isIdSansDig_iff.2 hi] at this
  exact absurd this.1 (by decide)

theorem nm_hd {s} (h : Nm s) : ∃ c, Hd c s ∧ c ∉ stops := by
  cases hc : (chars s).head? with
  | none => exact absurd (fun c h' => by rw [hc] at h'; cases h') h
  | some c => exact ⟨c, hc, fun hm => h (noName_hd hc hm)⟩

theorem eh_not {d : Char} {s} (h : Hd d s) (hd : d ∈ stops) (h2 : d ≠ '(') : ¬ Eh s := by
  rintro (h3 | h3)
  · exact h3 (noName_hd h hd)
  · exact h2 (hd_unique h h3)

/-- Neither reads nor records: the parser that may only begin with a name. -/
theorem ident_ok {s x} (h : (ident (offsetEoi text) s).out = .ok x) : Nm s := by
  intro hn
  exact nok (failsC_ident hn).fails h

theorem literal_ok {s x} (h : (literal (offsetEoi text) s).out = .ok x) : Nm s := by
  intro hn
  exact nok (fails_literal_noName hn) h

theorem nm_of_identStart {s} {c : Char} (h : Hd c s) (hc : IdentStart c) : Nm s := fun hn => (hn c h).1 hc

theorem r_bareIdent : R text No Nm bareIdent := by
  intro s hs
  have hfl : Fl text identChoice := fun _ => tr_choice3 (tr_pmap (tr_seq tr_sign (tr_seq tr_idSansDig (tr_repeated tr_idChar))))
    (tr_repeatedB tr_sign) (tr_pmap (tr_seq tr_idSansSignDig (tr_repeated tr_idChar)))
  refine Rd.tryMap (hfl.any s hs) ?_
  intro a alt e ho he
  refine ⟨?_, ?_⟩
  · unfold checkKeyword at he
    split at he
    · injection he with he; subst he
      exact Nat.le_of_eq (since_start hs).symm
    · cases he
  · have := identChoice_sound (Quiet.ok quiet_identChoice ho)
    cases a with
    | nil => exact this.1.elim
    | cons c a =>
      have hc := this.2.1.chars
      intro hn
      have hf : Fails bareIdent (offsetEoi text) s := (failsC_bareIdent (fun c hc => (hn c hc).1)).fails
      cases s with
      | nil => simp at hc
      | cons y t =>
        have h3 : ¬ IdentStart y.1 := (hn y.1 (by simp)).1
        exact nok (fails_identChoice_head h3) ho

theorem r_number {B F} : R text B F number := Fl.any (fun _ => tr_number)
theorem r_keyword {B F} : R text B F keyword := Fl.any (fun _ => tr_keyword)

theorem nm_string {s} (h : Hd 'r' s ∨ Hd '"' s) : Nm s := by
  rcases h with h | h
  · exact nm_of_identStart h (isIdSansDig_iff.1 (by decide))
  · exact fun hn => (hn _ h).2.2 rfl

theorem r_ident : R text No Nm ident := by
  intro s hs
  have h1 : R text No Nm (choice [pmap (fun _ => none) number, pmap some bareIdent, pmap some string]) :=
    R.choice3 (F1 := No) r_number.pmap r_bareIdent.pmap r_string.pmap (fun _ h => h.elim) (fun _ => id) (fun _ => nm_string)
  refine Rd.tryMap (h1 s hs) ?_
  intro a alt e ho he
  cases a with
  | some v => simp [checkNumber] at he
  | none =>
    simp only [checkNumber] at he
    injection he with he; subst he
    refine ⟨Nat.le_of_eq (since_start hs).symm, ?_⟩
    obtain ⟨p, hp, h2, -, -⟩ := choice_ok_inv ho
    simp only [List.mem_cons, List.not_mem_nil, or_false] at hp
    intro hn
    rcases hp with rfl | rfl | rfl
    · obtain ⟨v, h3, -⟩ := pmap_ok_inv h2
      exact nok (failsC_number (noName_noNum hn)).fails h3
    · obtain ⟨v, h3, h4⟩ := pmap_ok_inv h2; cases h4
    · obtain ⟨v, h3, h4⟩ := pmap_ok_inv h2; cases h4

theorem failQuiet_choice {O : Type} {ps : List (P O α)} : FailQuiet (choice ps) := by
  intro eoi s e h
  unfold Knuffel.choice at h ⊢
  generalize (none : Option (Loc O)) = alt at h ⊢
  generalize false = pan at h ⊢
  induction ps generalizing alt pan with
  | nil => cases alt <;> rfl
  | cons p ps ih =>
    unfold Knuffel.choiceGo at h ⊢
    simp only at h ⊢
    cases ho : (p eoi s).out with
    | ok x => simp [ho] at h
    | error e => simp only [ho] at h ⊢; exact ih _ _ h

theorem failQuiet_pmap {O : Type} {f : α → β} {p : P O α} (h : FailQuiet p) : FailQuiet (pmap f p) := by
  intro eoi s e he
  exact h eoi s e (pmap_error.1 he)

theorem failQuiet_spanned {O : Type} {p : P O α} (h : FailQuiet p) : FailQuiet (spanned p) := by
  intro eoi s e he
  cases ho : (p eoi s).out with
  | error e' => exact h eoi s e' ho
  | ok x => simp [spanned, mapWithSpan, ho] at he

theorem failQuiet_ident : FailQuiet (ident : P Nat Str) := by
  intro eoi s e h
  have herrs : (ident eoi s).errs = (choice [pmap (fun _ => none) number, pmap some bareIdent, pmap some string] eoi s).errs := by
    unfold ident tryMap
    cases (choice [pmap (fun _ => none) number, pmap some bareIdent, pmap some string] eoi s).out with
    | error e => rfl
    | ok x => simp only
  rw [herrs]
  cases ho : (choice [pmap (fun _ => none) number, pmap some bareIdent, pmap some string] eoi s).out with
  | error e' => exact failQuiet_choice eoi s e' ho
  | ok x =>
    obtain ⟨a, alt⟩ := x
    cases a with
    | some v => simp [ident, tryMap, ho, checkNumber] at h
    | none =>
      obtain ⟨p, hp, h2, -, h3⟩ := choice_ok_inv ho
      simp only [List.mem_cons, List.not_mem_nil, or_false] at hp
      rw [h3]
      rcases hp with rfl | rfl | rfl
      · exact quiet_pmap quiet_number _ _
      · obtain ⟨v, h3, h4⟩ := pmap_ok_inv h2; cases h4
      · obtain ⟨v, h3, h4⟩ := pmap_ok_inv h2; cases h4

theorem r_literal : R text No Nm literal :=
  R.choice3 (F2 := No) (F := No) r_string.pmap r_keyword r_number (fun _ => nm_string) (fun _ h => h.elim) (fun _ h => h.elim)

theorem r_typeName : R text No (Hd '(') typeName := by
  refine R.pmap ?_
  refine R.bind0 (F2 := No) ?_ (fun _ => fl_just.any.pmap) (fun _ _ _ _ h => h.elim)
  exact R.bind0 (F2 := Nm) fl_just.any (fun _ => r_ident) (fun _ _ _ h _ => hd_of_just h)

theorem typeName_ok {s x} (h : (typeName (offsetEoi text) s).out = .ok x) : Hd '(' s := by
  by_cases hh : Hd '(' s
  · exact hh
  · exact nok (fails_typeName_head hh) h

theorem spanned_ok {p : P Nat α} {eoi s x} (h : (spanned p eoi s).out = .ok x) : ∃ y, (p eoi s).out = .ok y := by
  cases ho : (p eoi s).out with
  | ok y => exact ⟨y, rfl⟩
  | error e => simp [spanned, mapWithSpan, ho] at h

theorem r_typeNameValue : R text No (Hd '(') typeNameValue := by
  refine R.pmap ?_
  refine R.bind0 (F2 := Nm) r_typeName.spanned (fun _ => r_literal.spanned.pmap) ?_
  intro s a alt h _
  obtain ⟨y, h⟩ := spanned_ok h
  exact typeName_ok h

theorem pmap_ok {f : α → β} {p : P Nat α} {eoi s x} (h : (pmap f p eoi s).out = .ok x) : ∃ y, (p eoi s).out = .ok y := by
  obtain ⟨b, alt⟩ := x
  obtain ⟨a, h1, -⟩ := pmap_ok_inv h
  exact ⟨_, h1⟩

theorem bind_ok {p : P Nat α} {f : α → P Nat β} {eoi s x} (h : (Knuffel.bind p f eoi s).out = .ok x) :
    ∃ y, (p eoi s).out = .ok y := by
  cases ho : (p eoi s).out with
  | ok y => exact ⟨y, rfl⟩
  | error e => simp [Knuffel.bind, ho] at h

theorem typeNameValue_ok {s x} (h : (typeNameValue (offsetEoi text) s).out = .ok x) : Hd '(' s := by
  obtain ⟨y, h⟩ := pmap_ok h
  obtain ⟨y, h⟩ := bind_ok h
  obtain ⟨y, h⟩ := spanned_ok h
  exact typeName_ok h

theorem r_value : R text No Eh value := by
  intro s hs
  refine Rd.orP (F1 := Hd '(') (F2 := Nm) hs (r_typeNameValue s hs) (r_literal.spanned.pmap s hs) ?_ ?_ (fun h => h.symm)
  · intro x hx
    have hh := typeNameValue_ok hx
    have hn := noName_hd hh (by decide)
    exact Or.inr ⟨fails_pmap.2 (fails_spanned.2 (fails_literal_noName hn)), fun h => h hn⟩
  · intro x hx hh
    obtain ⟨y, h⟩ := pmap_ok hx
    obtain ⟨y, h⟩ := spanned_ok h
    exact literal_ok h (noName_hd hh (by decide))

theorem r_optValue {F} : R text (Hd '=') F optValue :=
  (R.orNot (F' := F) (R.bind0 (F := Hd '=') (F2 := Eh) fl_just.any (fun _ => r_value) (fun _ _ _ h _ => hd_of_just h))).weaken
    (fun _ h => h.resolve_left id) (fun _ => id)

/-! ### Entries -/

theorem r_litOpt : R text (Hd '=') Nm (seq (spanned literal) optValue) :=
  R.bind0 (F2 := No) r_literal.spanned (fun _ => r_optValue.pmap) (fun _ _ _ _ h => h.elim)

theorem seq_spanned_ok {p : P Nat α} {q : P Nat β} {s a b alt} (hs : s <:+ offsetToks 0 text)
    (h : (seq (spanned p) q (offsetEoi text) s).out = .ok ((a, b), alt)) :
    a.span.start = off text s ∧ ∃ y, (p (offsetEoi text) s).out = .ok y := by
  obtain ⟨a', alt1, alt2, h1, h2, -, -⟩ := bind_ok_inv h
  obtain ⟨b', h3, h4⟩ := pmap_ok_inv h2
  simp only [Prod.mk.injEq] at h4
  rw [h4.1]
  cases ho : (p (offsetEoi text) s).out with
  | error e => simp [spanned, mapWithSpan, ho] at h1
  | ok y =>
    simp only [spanned, mapWithSpan, ho, Except.ok.injEq, Prod.mk.injEq] at h1
    refine ⟨?_, _, rfl⟩
    rw [← h1.1]
    exact since_start hs

theorem r_literalEntry : R text (Hd '=') Nm (tryMap literalEntry (seq (spanned literal) optValue)) := by
  intro s hs
  refine Rd.tryMap (r_litOpt s hs) ?_
  rintro ⟨⟨nameSpan, l⟩, o⟩ alt e ho h
  obtain ⟨h1, y, h2⟩ := seq_spanned_ok hs ho
  refine ⟨?_, literal_ok h2⟩
  cases o with
  | none => cases l <;> simp [literalEntry] at h
  | some v =>
    cases l <;> simp only [literalEntry, reduceCtorEq, Except.error.injEq] at h <;> subst h <;> exact Nat.le_of_eq h1.symm

theorem optValue_none {s alt} (h : (optValue (offsetEoi text) s).out = .ok (none, alt)) : (optValue (offsetEoi text) s).errs = [] := by
  unfold optValue orNot at h ⊢
  cases ho : (ignoreThen (just '=') value (offsetEoi text) s).out with
  | error e => simp [ho]
  | ok x => simp [ho] at h

theorem r_identEntry : R text (Hd '=') Nm (validate identEntryErrs (seq (spanned bareIdent) optValue)) := by
  intro s hs
  have h0 : R text (Hd '=') Nm (seq (spanned bareIdent) optValue) :=
    R.bind0 (F2 := No) r_bareIdent.spanned (fun _ => r_optValue.pmap) (fun _ _ _ _ h => h.elim)
  have h1 := h0 s hs
  unfold validate
  simp only
  cases ho : (seq (spanned bareIdent) optValue (offsetEoi text) s).out with
  | error e =>
    simp only
    refine ⟨h1.suf, ?_, ?_, ?_⟩
    · intro x hx; cases hx
    · intro a alt hx; cases hx
    · intro e' hx
      simp only [Except.error.injEq] at hx
      subst hx
      exact h1.err e ho
  | ok x =>
    obtain ⟨⟨a, o⟩, alt⟩ := x
    simp only
    refine ⟨h1.suf, ?_, ?_, ?_⟩
    · intro x _
      cases o with
      | some v => simpa [identEntryErrs] using h1.steps _ ho
      | none =>
        obtain ⟨a', alt1, alt2, h2, h3, h4, h5⟩ := bind_ok_inv ho
        have hq : (spanned bareIdent (offsetEoi text) s).errs = [] := quiet_mapWithSpan quiet_bareIdent _ _
        obtain ⟨b', h6, h7⟩ := pmap_ok_inv h3
        simp only [Prod.mk.injEq] at h7
        rw [← h7.2] at h6
        have hq2 := optValue_none h6
        have herrs : (seq (spanned bareIdent) optValue (offsetEoi text) s).errs = [] := by
          simp only [seq, Knuffel.bind, h2, h3, hq]
          simpa [pmap] using hq2
        have hlt : (seq (spanned bareIdent) optValue (offsetEoi text) s).rest.length < s.length := by
          have e1 := eats_bareIdent (offsetEoi text) s
          obtain ⟨y, hy⟩ := spanned_ok h2
          have e2 := e1 y hy
          have e3 : (seq (spanned bareIdent) optValue (offsetEoi text) s).rest.length ≤ (bareIdent (offsetEoi text) s).rest.length := by
            unfold seq; rw [h5]
            exact (r_optValue (F := No) _ ((suf_bareIdent _ _).trans hs)).suf.length_le
          omega
        have hst := since_start (t := (seq (spanned bareIdent) optValue (offsetEoi text) s).rest) hs
        have hsp := since_stop hs h1.suf hlt
        rw [herrs]
        simp only [identEntryErrs, List.map_cons, List.map_nil, List.nil_append]
        refine ⟨Nat.le_of_eq hst.symm, ?_, Nat.le_of_eq hsp⟩
        exact Nat.lt_of_le_of_lt (Nat.le_of_eq hst) (Nat.lt_of_lt_of_le (off_lt hs h1.suf hlt) (Nat.le_of_eq hsp.symm))
    · intro b alt' hx
      simp only [Except.ok.injEq, Prod.mk.injEq] at hx
      exact h1.ok (a, o) alt' (by rw [ho, hx.2])
    · intro e he; cases he

theorem r_propOrArgInner : R text (Hd '=') Eh propOrArgInner :=
  R.choice3 r_literalEntry r_identEntry.pmap (r_typeNameValue.pmap.weaken (fun _ h => h.elim) (fun _ => id)) (fun _ => Or.inl) (fun _ => Or.inl) (fun _ => Or.inr)

theorem failsC_inner {s} (h : ¬ Eh s) : FailsC propOrArgInner (offsetEoi text) s := by
  have hn : NoName (chars s) := Classical.not_not.1 fun hn => h (Or.inl hn)
  refine fails_propOrArgInner ?_
  intro c hc
  refine ⟨(hn c hc).1, (hn c hc).2.1, (hn c hc).2.2, ?_⟩
  rintro rfl
  exact h (Or.inr hc)

theorem Wall.hd {s} (h : Wall s) : ∃ c, Hd c s ∧ c ∈ stops ∧ c ≠ '(' ∧ c ≠ '{' ∧ c ≠ '}' ∧ c ∉ newlineChars ∧ c ≠ ';' := by
  rcases h with h | h
  · exact ⟨_, h.hd, by decide⟩
  · exact ⟨_, h, by decide⟩

theorem Wall.no {s} (h : Wall s) {c : Char} (hc : c ≠ '*') : ¬ ['/', c] <+: chars s := by
  rcases h with h | h
  · exact h.no hc
  · exact h.no (by decide)

theorem Wall.not_eh {s} (h : Wall s) : ¬ Eh s := by
  obtain ⟨c, h1, h2, h3, -⟩ := h.hd
  exact eh_not h1 h2 h3

/-- The rest after white space within a node. -/
abbrev afterSp (text : Str) (s : List (Tok Nat)) : List (Tok Nat) := (repeated nodeSpace (offsetEoi text) s).rest

/-- A commented out entry whose entry cannot be read. -/
def Dash (text : Str) (s : List (Tok Nat)) : Prop :=
  ['/', '-'] <+: chars s ∧ (Wall (afterSp text (s.drop 2)) ∨ Eh (afterSp text (s.drop 2)))

theorem r_dashEntry : R text (Hd '=') (Dash text) (ignoreThen (ignoreThen (beginComment '-') (repeated nodeSpace)) propOrArgInner) := by
  refine R.bindF (B1 := Wall) (F1 := No) (F2 := Eh) ?_ (fun _ => r_propOrArgInner) ?_ (fun _ h => h.elim) ?_
  · exact R.bind0 (F2 := No) fl_beginComment.any (fun _ => r_nodeSpaces) (fun _ _ _ _ h => h.elim)
  · intro _ s hs h
    exact (failsC_inner h.not_eh).fails
  · intro s a alt h h2
    obtain ⟨a', alt1, alt2, h3, h4, h5, h6⟩ := bind_ok_inv h
    have h7 := beginComment_rest h3
    unfold ignoreThen at h2
    rw [h6, h7.1] at h2
    exact ⟨beginComment_ok_prefix h3, h2⟩

theorem failQuiet_inner : FailQuiet (propOrArgInner : P Nat _) := failQuiet_choice

theorem failQuiet_propOrArg : FailQuiet (propOrArg : P Nat _) :=
  failQuiet_orP (failQuiet_pmap (failQuiet_ignoreThen (quiet_ignoreThen (quiet_beginComment _) (quiet_repeated quiet_nodeSpace))
    failQuiet_inner)) failQuiet_inner

/-- Where an entry cannot be read. -/
def Bad (text : Str) (s : List (Tok Nat)) : Prop := Dash text s ∨ Eh s

theorem hd_of_prefix {c d : Char} {s : List (Tok Nat)} (h : [c, d] <+: chars s) : Hd c s := by
  obtain ⟨r, h⟩ := h
  rw [Hd, ← h]; rfl

theorem r_propOrArg : R text (Hd '=') (Bad text) propOrArg := by
  intro s hs
  refine Rd.orP (F1 := Dash text) (F2 := Eh) hs (r_dashEntry.pmap s hs) (r_propOrArgInner s hs) ?_ ?_ id
  · intro x hx
    right
    obtain ⟨y, h⟩ := pmap_ok hx
    obtain ⟨y, h⟩ := bind_ok h
    obtain ⟨y, h⟩ := bind_ok h
    have hp := beginComment_ok_prefix h
    have hn : ¬ Eh s := eh_not (hd_of_prefix hp) (by decide) (by decide)
    exact ⟨(failsC_inner hn).fails, hn⟩
  · intro x hx hd
    exact nok (failsC_inner (eh_not (hd_of_prefix hd.1) (by decide) (by decide))).fails hx

theorem fails_propOrArg_wall {s} (h : Wall s) : Fails propOrArg (offsetEoi text) s :=
  fails_orP.2 ⟨fails_pmap.2 (fails_ignoreThen_left (fails_ignoreThen_left (fails_beginComment_of (h.no (by decide))))),
    (failsC_inner h.not_eh).fails⟩

end Knuffel.Ordered
