import Verif.Theory.Left
/-!
# What is left open: strings, comments and braces
-/

set_option linter.unusedSectionVars false
set_option linter.unusedSimpArgs false

namespace Knuffel
open Cst

variable {O α β γ : Type}

/-! ### Errors at the end of the text -/

/-- An error located at the end of the text says that the text ended. -/
def EndEoi (o : Option (Loc O)) : Prop := ∀ e, o = some e → e.rem = 0 → e.err.isEoi = true

theorem endEoi_none : EndEoi (none : Option (Loc O)) := fun _ h => by cases h

theorem endEoi_some {e : Loc O} : EndEoi (some e) ↔ (e.rem = 0 → e.err.isEoi = true) :=
  ⟨fun h => h e rfl, fun h e' he => by injection he with he; subst he; exact h⟩

theorem PErr.isEoi_merge {a b : PErr O} (ha : a.isEoi = true) (hb : b.isEoi = true) : ((a.merge b).getD a).isEoi = true := by
  cases a with
  | unexpected l s f d =>
    cases b with
    | unexpected l' s' f' d' =>
      cases f <;> simp [PErr.isEoi] at ha
      simp [PErr.merge, PErr.isEoi]
    | _ => simp [PErr.isEoi] at hb
  | _ => simp [PErr.isEoi] at ha

theorem endEoi_max {a b : Loc O} (ha : EndEoi (some a)) (hb : EndEoi (some b)) : EndEoi (some (a.max b)) := by
  rw [endEoi_some] at *
  unfold Loc.max
  split
  · exact ha
  · split
    · exact hb
    · have h := fun h1 h2 => PErr.isEoi_merge (a := a.err) (b := b.err) (ha h1) (hb h2)
      cases hm : a.err.merge b.err with
      | none => exact ha
      | some e =>
        rw [hm] at h
        intro h1
        exact h h1 (by simp only at h1; omega)

theorem endEoi_merge {a b : Option (Loc O)} (ha : EndEoi a) (hb : EndEoi b) : EndEoi (mergeAlts a b) := by
  cases a with
  | none => exact hb
  | some a =>
    cases b with
    | none => exact ha
    | some b => exact endEoi_max hb ha

theorem endEoi_maxO {a : Loc O} {b : Option (Loc O)} (ha : EndEoi (some a)) (hb : EndEoi b) : EndEoi (some (a.maxO b)) := by
  cases b with
  | none => exact ha
  | some b => exact endEoi_max ha hb

/-- The alternative error of a success. -/
def EndOk (p : P O α) : Prop := ∀ eoi s x alt, (p eoi s).out = .ok (x, alt) → EndEoi alt

/-- The error of a failure. -/
def EndErr (p : P O α) : Prop := ∀ eoi s e, (p eoi s).out = .error e → EndEoi (some e)

theorem endOk_none {p : P O α} (h : ∀ eoi s a alt, (p eoi s).out = .ok (a, alt) → alt = none) : EndOk p :=
  fun eoi s a alt ho => by rw [h eoi s a alt ho]; exact endEoi_none

theorem endOk_just (c) : EndOk (just c : P O Char) := endOk_none (by
  intro eoi s a alt h
  unfold just at h
  split at h
  · split at h <;> simp [pok, pfail] at h
    exact h.2.symm
  · simp [pfail] at h)

theorem endOk_filter (f) : EndOk (filter f : P O Char) := endOk_none (by
  intro eoi s a alt h
  unfold filter at h
  split at h
  · split at h <;> simp [pok, pfail] at h
    exact h.2.symm
  · simp [pfail] at h)

theorem endOk_filterMap (f : Sp O → Char → Except (PErr O) α) : EndOk (filterMap f) := endOk_none (by
  intro eoi s a alt h
  unfold filterMap at h
  split at h
  · split at h <;> simp [pok, pfail] at h
    exact h.2.symm
  · simp [pfail] at h)

theorem endOk_justStr (cs) : EndOk (justStr cs : P O Unit) := endOk_none (by
  induction cs with
  | nil => intro eoi s a alt h; simp [justStr, pok] at h; exact h.symm
  | cons c cs ih =>
    intro eoi s a alt h
    unfold justStr at h
    split at h
    · split at h
      · exact ih _ _ _ _ h
      · simp [pfail] at h
    · simp [pfail] at h)

theorem isEoi_found {sp : Sp O} {l} : (PErr.expectedFound sp l none).isEoi = true := rfl

theorem endErr_just (c) : EndErr (just c : P O Char) := by
  intro eoi s e h
  unfold just at h
  split at h
  · split at h <;> simp [pok, pfail] at h
    subst h; rw [endEoi_some]; simp
  · simp [pfail] at h; subst h; rw [endEoi_some]; exact fun _ => isEoi_found

theorem endErr_filter (f) : EndErr (filter f : P O Char) := by
  intro eoi s e h
  unfold filter at h
  split at h
  · split at h <;> simp [pok, pfail] at h
    subst h; rw [endEoi_some]; simp
  · simp [pfail] at h; subst h; rw [endEoi_some]; exact fun _ => isEoi_found

theorem endErr_filterMap (f : Sp O → Char → Except (PErr O) α) : EndErr (filterMap f) := by
  intro eoi s e h
  unfold filterMap at h
  split at h
  · split at h <;> simp [pok, pfail] at h
    subst h; rw [endEoi_some]; simp
  · simp [pfail] at h; subst h; rw [endEoi_some]; exact fun _ => isEoi_found

theorem endErr_justStr (cs) : EndErr (justStr cs : P O Unit) := by
  induction cs with
  | nil => intro eoi s e h; simp [justStr, pok] at h
  | cons c cs ih =>
    intro eoi s e h
    unfold justStr at h
    split at h
    · split at h
      · exact ih _ _ _ h
      · simp [pfail] at h; subst h; rw [endEoi_some]; simp
    · simp [pfail] at h; subst h; rw [endEoi_some]; exact fun _ => isEoi_found

theorem endOk_pmap {f : α → β} {p : P O α} (h : EndOk p) : EndOk (pmap f p) := by
  intro eoi s x alt ho
  unfold pmap at ho
  cases hp : (p eoi s).out with
  | error e => simp [hp] at ho
  | ok y =>
    simp only [hp, Except.ok.injEq, Prod.mk.injEq] at ho
    obtain ⟨_, rfl⟩ := ho
    exact h eoi s y.1 _ hp

theorem endErr_pmap {f : α → β} {p : P O α} (h : EndErr p) : EndErr (pmap f p) := by
  intro eoi s e ho
  unfold pmap at ho
  cases hp : (p eoi s).out with
  | error e => simp only [hp, Except.error.injEq] at ho; subst ho; exact h eoi s _ hp
  | ok y => simp [hp] at ho

theorem endOk_mapErr {f} {p : P O α} (h : EndOk p) : EndOk (mapErr f p) := by
  intro eoi s x alt ho
  unfold mapErr at ho
  cases hp : (p eoi s).out with
  | error e => simp [hp] at ho
  | ok y => simp only [hp, Except.ok.injEq] at ho; subst ho; exact h eoi s _ _ hp

theorem endErr_mapErr {f : PErr O → PErr O} {p : P O α} (hf : ∀ e, e.isEoi = true → (f e).isEoi = true) (h : EndErr p) : EndErr (mapErr f p) := by
  intro eoi s e ho
  unfold mapErr at ho
  cases hp : (p eoi s).out with
  | error e1 =>
    simp only [hp, Except.error.injEq] at ho; subst ho
    rw [endEoi_some]
    exact fun h0 => hf _ (endEoi_some.1 (h eoi s _ hp) h0)
  | ok y => simp [hp] at ho

theorem endOk_bind {p : P O α} {f : α → P O β} (hp : EndOk p) (hf : ∀ a, EndOk (f a)) : EndOk (bind p f) := by
  intro eoi s x alt ho
  unfold bind at ho
  cases h1 : (p eoi s).out with
  | error e => simp [h1] at ho
  | ok y =>
    simp only [h1] at ho
    cases h2 : (f y.1 eoi (p eoi s).rest).out with
    | error e => simp [h2] at ho
    | ok z =>
      simp only [h2, Except.ok.injEq, Prod.mk.injEq] at ho
      obtain ⟨_, rfl⟩ := ho
      exact endEoi_merge (hp _ _ _ _ h1) (hf _ _ _ _ _ h2)

theorem endErr_bind {p : P O α} {f : α → P O β} (hp : EndOk p) (hp' : EndErr p) (hf : ∀ a, EndErr (f a)) : EndErr (bind p f) := by
  intro eoi s e ho
  unfold bind at ho
  cases h1 : (p eoi s).out with
  | error e => simp only [h1, Except.error.injEq] at ho; subst ho; exact hp' _ _ _ h1
  | ok y =>
    simp only [h1] at ho
    cases h2 : (f y.1 eoi (p eoi s).rest).out with
    | error e =>
      simp only [h2, Except.error.injEq] at ho; subst ho
      exact endEoi_maxO (hf _ _ _ _ h2) (hp _ _ _ _ h1)
    | ok z => simp [h2] at ho

theorem endOk_orP {p q : P O α} (hq : Quiet p) (hp : EndOk p) (hp' : EndErr p) (hq' : EndOk q) : EndOk (orP p q) := by
  intro eoi s x alt ho
  rcases orP_ok_inv hq ho with ⟨h1, _⟩ | ⟨e1, alt2, h1, h2, h3, _⟩
  · exact hp _ _ _ _ h1
  · rw [h3]; exact endEoi_merge (hq' _ _ _ _ h2) (hp' _ _ _ h1)

theorem endErr_orP {p q : P O α} (hp : EndErr p) (hq : EndErr q) : EndErr (orP p q) := by
  intro eoi s e ho
  obtain ⟨e1, e2, h1, h2, h3⟩ := orP_error_inv ho
  rcases h3 with rfl | rfl
  · exact endEoi_max (hp _ _ _ h1) (hq _ _ _ h2)
  · exact endEoi_max (hq _ _ _ h2) (hp _ _ _ h1)

theorem endOk_repGo {p : P O α} (hp : EndOk p) (hp' : EndErr p) (hq : FailQuiet p) {mn mx eoi} : ∀ {fuel outs errs alt pan s x alt'},
    EndEoi alt → (repGo p mn mx eoi fuel outs errs alt pan s).out = .ok (x, alt') → EndEoi alt' := by
  intro fuel
  induction fuel with
  | zero =>
    intro outs errs alt pan s x alt' ha h
    simp only [repGo, Except.ok.injEq, Prod.mk.injEq] at h
    obtain ⟨_, rfl⟩ := h; exact ha
  | succ fuel ih =>
    intro outs errs alt pan s x alt' ha h
    rw [repGo] at h
    split at h
    · simp only [Except.ok.injEq, Prod.mk.injEq] at h
      obtain ⟨_, rfl⟩ := h; exact ha
    · cases ho : (p eoi s).out with
      | ok y =>
        simp only [ho] at h
        split at h
        · exact ih (endEoi_merge ha (hp _ _ _ _ ho)) h
        · simp only [Except.ok.injEq, Prod.mk.injEq] at h
          obtain ⟨_, rfl⟩ := h
          exact endEoi_merge ha (hp _ _ _ _ ho)
      | error e =>
        simp only [ho, hq _ _ _ ho] at h
        split at h
        · simp at h
        · simp only [Except.ok.injEq, Prod.mk.injEq] at h
          obtain ⟨_, rfl⟩ := h
          exact endEoi_merge ha (endEoi_merge (hp' _ _ _ ho) endEoi_none)

theorem endOk_repeatedB {p : P O α} (hp : EndOk p) (hp' : EndErr p) (hq : FailQuiet p) {mn mx} : EndOk (repeatedB mn mx p) :=
  fun _ _ _ _ h => endOk_repGo hp hp' hq endEoi_none h

theorem endOk_choice {ps : List (P O α)} (h : ∀ p ∈ ps, EndOk p) : EndOk (choice ps) := by
  intro eoi s a alt ho
  obtain ⟨p, hp, h1, _⟩ := choice_ok_inv ho
  exact h p hp eoi s a alt h1

theorem endErr_choice {ps : List (P O α)} (h : ∀ p ∈ ps, EndErr p) : EndErr (choice ps) := by
  have key : ∀ (ps : List (P O α)) alt pan eoi s e, (∀ p ∈ ps, EndErr p) → EndEoi alt →
      (choiceGo alt pan ps eoi s).out = .error e → EndEoi (some e) := by
    intro ps
    induction ps with
    | nil =>
      intro alt pan eoi s e _ ha ho
      cases alt with
      | none => simp [choiceGo] at ho; subst ho; rw [endEoi_some]; exact fun _ => isEoi_found
      | some a => simp [choiceGo] at ho; subst ho; exact ha
    | cons p ps ih =>
      intro alt pan eoi s e hps ha ho
      rw [choiceGo] at ho
      cases hp : (p eoi s).out with
      | ok x => simp [hp] at ho
      | error e1 =>
        simp only [hp] at ho
        exact ih _ _ _ _ _ (fun q hq => hps q (by simp [hq])) (endEoi_merge ha (hps p (by simp) _ _ _ hp)) ho
  exact fun eoi s e ho => key ps none false eoi s e h endEoi_none ho

/-! ### Strings -/

theorem endOk_strChar : EndOk (strChar : P O Char) := by
  refine endOk_orP (quiet_filter _) (endOk_filter _) (endErr_filter _) (endOk_bind (endOk_just _) (fun _ => ?_))
  refine endOk_orP (quiet_filterMap _) (endOk_filterMap _) (endErr_filterMap _) (endOk_bind (endOk_just _) (fun _ => ?_))
  have hb : EndOk (delimitedBy (repeatedB 1 (some 6) (filterMap hexDigit)) (just '{') (just '}') : P O (List Char)) :=
    endOk_bind (endOk_bind (endOk_just _) (fun _ => endOk_repeatedB (endOk_filterMap _) (endErr_filterMap _) (quiet_filterMap _).failQuiet))
      (fun _ => endOk_pmap (endOk_just _))
  intro eoi s x alt ho
  unfold recoverSkipUntil at ho
  cases h1 : (tryMap hexToChar (delimitedBy (repeatedB 1 (some 6) (filterMap hexDigit)) (just '{') (just '}')) eoi s).out with
  | ok y =>
    simp only [h1, Except.ok.injEq] at ho
    subst ho
    unfold tryMap at h1
    cases h2 : (delimitedBy (repeatedB 1 (some 6) (filterMap hexDigit)) (just '{') (just '}') eoi s).out with
    | error e => simp [h2] at h1
    | ok z =>
      simp only [h2] at h1
      split at h1
      · simp only [Except.ok.injEq, Prod.mk.injEq] at h1
        obtain ⟨_, rfl⟩ := h1
        exact hb _ _ _ _ h2
      · simp at h1
  | error e =>
    simp only [h1] at ho
    split at ho
    · simp only [Except.ok.injEq, Prod.mk.injEq] at ho
      obtain ⟨_, rfl⟩ := ho; exact endEoi_none
    · simp at ho

theorem endErr_strChar [Offset O] : EndErr (strChar : P O Char) := by
  refine endErr_orP (endErr_filter _) (endErr_bind (endOk_just _) (endErr_just _) (fun _ => ?_))
  refine endErr_orP (endErr_filterMap _) (endErr_bind (endOk_just _) (endErr_just _) (fun _ => ?_))
  have hd : EndErr (repeatedB 1 (some 6) (filterMap hexDigit) : P O (List Char)) :=
    fun eoi s e h => endErr_filterMap _ eoi s e (repeatedB_error (by simp) eoi s e h)
  have hb : EndErr (hexBraces : P O (List Char)) :=
    endErr_bind (endOk_bind (endOk_just _) (fun _ => endOk_repeatedB (endOk_filterMap _) (endErr_filterMap _) (quiet_filterMap _).failQuiet))
      (endErr_bind (endOk_just _) (endErr_just _) (fun _ => hd)) (fun _ => endErr_pmap (endErr_just _))
  intro eoi s e ho
  have ho' : (recoverSkipUntil ['}', '"', '\\'] '\x00' (tryMap hexToChar hexBraces) eoi s).out = .error e := ho
  unfold recoverSkipUntil at ho'
  cases h2 : (hexBraces eoi s).out with
  | error e1 =>
    have h1 : (tryMap hexToChar hexBraces eoi s).out = .error e1 := by simp [tryMap, h2]
    simp only [h1] at ho'
    split at ho'
    · simp at ho'
    · simp only [Except.error.injEq] at ho'; subst ho'; exact hb _ _ _ h2
  | ok z =>
    obtain ⟨sp, hm⟩ := hexBraces_mem h2
    obtain ⟨t, hsk⟩ := skipTo_isSome (u := ['}', '"', '\\']) (by decide) hm
    simp only [hsk] at ho'
    split at ho' <;> simp at ho'

section
variable [Offset O] {X : PErr O} {eoi : Sp O} {s t : List (Tok O)}

theorem max_zero {a b : Loc O} (h : a.rem = 0) : (a.max b).rem = 0 := by
  unfold Loc.max
  split
  · exact h
  · split
    · omega
    · split <;> simp [h]

theorem maxO_zero {a : Loc O} {b : Option (Loc O)} (h : a.rem = 0) : (a.maxO b).rem = 0 := by
  cases b with
  | none => exact h
  | some b => exact max_zero h

theorem merge_eoi {e : PErr O} (h : e.isEoi = true) (hX : X.open? = true) : (e.merge X).getD e = X := by
  cases X <;> simp [PErr.open?] at hX
  cases e <;> simp [PErr.isEoi] at h
  rfl

/-- The diagnostic for a string left open. -/
def openString (sp : Sp O) : PErr O := .unclosed "string".toList (sp.beforeStart 1) (.char '"') sp.atEnd (.char '"') .eoi

/-- A string without end. -/
theorem hits_escapedString {l : List StrChar} (hl : ∀ c ∈ l, c.Ok) (hT : Takes s ('"' :: l.flatMap StrChar.text) []) :
    Hits (openString (spanSince eoi (s.drop 1) [])) escapedString eoi s := by
  obtain ⟨sp, s1, rfl, h1⟩ := takes_cons.1 hT
  have hr : Reps strChar eoi s1 (l.map StrChar.value) [] := reps_strChar.2 ⟨l, hl, rfl, h1⟩
  have hf : Fails strChar eoi ([] : List (Tok O)) := by
    cases ho : (strChar eoi []).out with
    | error e => exact ⟨e, ho⟩
    | ok x =>
      have := eats_strChar.consumes eoi [] x ho
      simp at this
  obtain ⟨k1, ⟨alt, k2⟩, k3⟩ := (ok_repeated eats_strChar.consumes).2 ⟨hr, hf⟩
  have ha : EndEoi alt := endOk_repGo endOk_strChar endErr_strChar failQuiet_strChar endEoi_none k2
  have hj : just '"' eoi (('"', sp) :: s1) = pok '"' s1 := by simp [just]
  obtain ⟨e, m1, m2, m3, m4, m5⟩ : ∃ e, (thenIgnore (repeated strChar) (just '"') eoi s1).errs = [] ∧
      (thenIgnore (repeated strChar) (just '"') eoi s1).out = .error e ∧ e.rem = 0 ∧ e.err.isEoi = true ∧
      (thenIgnore (repeated strChar) (just '"') eoi s1).rest = [] := by
    simp only [thenIgnore, bind, k1, k2, k3, pmap, just, pfail]
    refine ⟨_, rfl, rfl, maxO_zero rfl, ?_, trivial⟩
    exact endEoi_some.1 (endEoi_maxO (endEoi_some.2 fun _ => isEoi_found) ha) (maxO_zero rfl)
  have key : Hits (openString (spanSince eoi s1 [])) (mapErrWithSpan stringErr (thenIgnore (repeated strChar) (just '"'))) eoi s1 := by
    simp only [Hits, mapErrWithSpan, m1, m2, m3, m5, stringErr, m4, if_true]
    refine ⟨trivial, ?_⟩
    have := merge_eoi (X := openString (spanSince eoi s1 [])) m4 rfl
    unfold openString at this ⊢
    rw [this]
  refine hits_bind (X := openString (spanSince eoi s1 [])) rfl (a := '"') (alt := none) (by rw [hj]; rfl) (by rw [hj]; rfl) (Or.inr lb_none) ?_
  rw [hj]
  exact key

theorem far_of_fails {p : P O α} (hq : (p eoi s).errs = []) (hf : Fails p eoi s) (hn : At p eoi s) (hs : 1 ≤ s.length) : Far p eoi s := by
  obtain ⟨e, he⟩ := hf
  exact ⟨hq, e, he, Nat.le_trans hs (hn e he)⟩

theorem len_pos {c : Char} (h : (chars s).head? = some c) : 1 ≤ s.length := by
  cases s with
  | nil => simp [chars] at h
  | cons x s => simp

theorem far_pmap {f : α → β} {p : P O α} (h : Far p eoi s) : Far (pmap f p) eoi s := by
  obtain ⟨h1, e, h2, h3⟩ := h
  exact ⟨h1, e, by simp [pmap, h2], h3⟩

theorem noSpace_quote {f : Str} : NoSpace ('"' :: f) := ⟨noWs_lit (by decide) (by decide), by simp⟩

theorem solid_quote : Solid '"' := by unfold Solid; decide

theorem spacesText_pos {l : List Cst.Space} (h : l ≠ []) : 1 ≤ (spacesText l).length := by
  cases l with
  | nil => exact absurd rfl h
  | cons x l =>
    have : 1 ≤ x.text.length := by
      cases x with
      | ws w => cases w <;> simp [Space.text, Ws.text]
      | esc l e => simp [Space.text]
    simp only [spacesText, List.flatMap_cons, List.length_append]
    omega

theorem not_identStart_quote : ¬ Cst.IdentStart '"' := by
  intro h
  exact absurd (isIdSansDig_iff.2 h) (by decide)

variable (hq : (chars s).head? = some '"')
include hq

theorem quote_head {c : Char} (h : (chars s).head? = some c) : c = '"' := by
  rw [hq] at h; injection h with h; exact h.symm

theorem quote_ne {c : Char} (h : c ≠ '"') : (chars s).head? ≠ some c := by
  rw [hq]; intro h'; injection h' with h'; exact h h'.symm

theorem far_number_quote : Far number eoi s := by
  have h : ∀ c, (chars s).head? = some c → c ∉ Cst.decDigits := fun c hc => by rw [quote_head hq hc]; decide
  have hf : FailsC number eoi s := by
    refine failsC_number ?_
    intro c r hc
    have : c = '"' := quote_head hq (by rw [hc]; rfl)
    subst this
    exact ⟨by decide, fun h => absurd h (by decide)⟩
  exact far_of_fails hf.1 hf.fails (at_number (quote_ne hq (by decide)) (quote_ne hq (by decide)) h) (len_pos hq)

theorem far_bareIdent_quote : Far bareIdent eoi s := by
  have h : ∀ c, (chars s).head? = some c → ¬ Cst.IdentStart c := fun c hc => by rw [quote_head hq hc]; exact not_identStart_quote
  have hf : FailsC bareIdent eoi s := failsC_bareIdent h
  exact far_of_fails hf.1 hf.fails (at_bareIdent h) (len_pos hq)

theorem far_keyword_quote : Far keyword eoi s := by
  have h : ∀ c, (chars s).head? = some c → ¬ Cst.IdentStart c := fun c hc => by rw [quote_head hq hc]; exact not_identStart_quote
  have hf : FailsC keyword eoi s := by
    refine failsC_keyword ?_
    rintro k hk ⟨w, hw⟩
    have hk' : k.head? ≠ some '"' ∧ k ≠ [] := by
      simp only [Cst.keywords, List.mem_cons, List.not_mem_nil, or_false] at hk
      rcases hk with rfl | rfl | rfl <;> decide
    cases k with
    | nil => exact hk'.2 rfl
    | cons c k =>
      rw [← hw] at hq
      exact hk'.1 (by simpa using hq)
  exact far_of_fails hf.1 hf.fails (at_keyword h) (len_pos hq)

theorem far_rawString_quote : Far rawString eoi s := by
  have hf : Fails rawString eoi s := (failsC_rawString (by
    intro h
    exact quote_ne hq (c := 'r') (by decide) (rawStart_head h))).fails
  exact far_of_fails (quiet_rawString eoi s) hf (at_rawString (quote_ne hq (by decide))) (len_pos hq)

theorem far_typeName_quote : Far typeName eoi s := by
  have hf := failsC_typeName (eoi := eoi) (quote_ne hq (c := '(') (by decide))
  exact far_of_fails hf.1 hf.fails (at_typeName (quote_ne hq (by decide))) (len_pos hq)

variable (hX : X.open? = true) (h : Hits X escapedString eoi s)
include hX h

theorem hits_string : Hits X string eoi s := hits_orP_right (far_rawString_quote hq) h

theorem hits_literal : Hits X literal eoi s := by
  have hs := hits_pmap (f := Literal.string) (hits_string hq hX h)
  refine hits_choice hX ?_ ⟨_, by simp, hs⟩
  intro p hp
  simp only [List.mem_cons, List.not_mem_nil, or_false] at hp
  rcases hp with rfl | rfl | rfl
  · exact Or.inl hs
  · exact Or.inr (far_keyword_quote hq)
  · exact Or.inr (far_number_quote hq)

theorem hits_ident : Hits X ident eoi s := by
  have hs := hits_pmap (f := some) (hits_string hq hX h)
  refine hits_tryMap (hits_choice hX ?_ ⟨_, by simp, hs⟩)
  intro p hp
  simp only [List.mem_cons, List.not_mem_nil, or_false] at hp
  rcases hp with rfl | rfl | rfl
  · exact Or.inr (far_pmap (far_number_quote hq))
  · exact Or.inr (far_pmap (far_bareIdent_quote hq))
  · exact Or.inl hs

theorem hits_inner : Hits X propOrArgInner eoi s := by
  have hl : Hits X (tryMap literalEntry (seq (spanned literal) optValue)) eoi s :=
    hits_tryMap (hits_bind_left (hits_spanned (hits_literal hq hX h)))
  refine hits_choice hX ?_ ⟨_, by simp, hl⟩
  intro p hp
  simp only [List.mem_cons, List.not_mem_nil, or_false] at hp
  rcases hp with rfl | rfl | rfl
  · exact Or.inl hl
  · right
    have hi : ∀ c, (chars s).head? = some c → ¬ Cst.IdentStart c := fun c hc => by rw [quote_head hq hc]; exact not_identStart_quote
    have hf : FailsC (identAlt) eoi s := failsC_pmap.2 (failsC_validate.2 (failsC_seq_left (failsC_spanned.2 (failsC_bareIdent hi))))
    exact far_of_fails hf.1 hf.fails (at_identAlt hi) (len_pos hq)
  · right
    have hn := quote_ne hq (c := '(') (by decide)
    have hf : FailsC (typedAlt) eoi s := failsC_pmap.2 (failsC_pmap.2 (failsC_seq_left (failsC_spanned.2 (failsC_typeName hn))))
    exact far_of_fails hf.1 hf.fails (at_typedAlt hn) (len_pos hq)

/-- A node whose name is a string without end. -/
theorem hits_node {inner : P O (List (SpannedNode (Sp O)))} : Hits X (node inner) eoi s := by
  refine hits_pmap (hits_bind_left (hits_bind_left (hits_bind_left ?_)))
  have hf : Far (spanned typeName) eoi s := by
    obtain ⟨h1, e, h2, h3⟩ := far_typeName_quote (eoi := eoi) hq
    exact ⟨h1, e, by simp [spanned, mapWithSpan, h2], h3⟩
  obtain ⟨m1, ⟨alt, m2, m3⟩, m4⟩ := farAlt_orNot hf
  refine hits_bind hX m1 m2 (Or.inr m3) ?_
  rw [m4]
  exact hits_pmap (hits_spanned (hits_ident hq hX h))

omit hX h in
theorem far_dashEntry_quote : Far dashEntry eoi s := by
  have hn := quote_ne hq (c := '/') (by decide)
  have hf : FailsC (beginComment '-') eoi s := failsC_beginComment (fun ⟨w, hw⟩ => hn (by rw [← hw]; rfl))
  have hf' : FailsC (ignoreThen (beginComment '-') (repeated nodeSpace)) eoi s := failsC_ignoreThen_left hf
  refine far_pmap (far_of_fails (failsC_ignoreThen_left hf').1 (failsC_ignoreThen_left hf').fails ?_ (len_pos hq))
  exact at_ignoreThen hf'.fails (at_ignoreThen hf.fails (at_beginComment hn))

end

section
variable [Offset O] {X : PErr O} {eoi : Sp O} {s t : List (Tok O)}

/-- An entry that fails at the end of the text. -/
theorem hits_entry (hX : X.open? = true) {space : List Cst.Space} {dash' : Option (List Cst.Space)} {s6 s7 : List (Tok O)}
    (g6 : Takes s (spacesText space) s6) (g7 : Takes s6 (dashText dash') s7) (hne : space ≠ [])
    (o9 : SpacesOk true (chars s6) space) (o10 : DashOk true (chars s7) dash')
    (hq : (chars s7).head? = some '"') (h : Hits X propOrArgInner eoi s7) : Hits X spaceEntry eoi s := by
  have l7 := len_pos hq
  have c7 : ∃ r, chars s7 = '"' :: r := head_eq_some.1 hq
  obtain ⟨r, c7⟩ := c7
  have f7 : Far nodeSpace eoi s7 := far_nodeSpace (by rw [c7]; exact noSpace_quote) (Or.inl ⟨quote_ne hq (by decide), l7⟩)
  cases dash' with
  | none =>
    have := takes_nil.1 g7; subst this
    obtain ⟨as, k1, ⟨alt, k2, k3⟩, k4⟩ := far_nodeSpaces1 (eoi := eoi) o9 hne g6 f7 l7
    refine hits_bind hX k1 k2 (Or.inr k3) ?_
    rw [k4]
    exact hits_orP_right (far_dashEntry_quote hq) h
  | some l =>
    have hp : ['/', '-'] <+: chars s6 := ⟨spacesText l ++ chars s7, by rw [g7.chars]; simp [dashText]⟩
    have l6 : 2 ≤ s6.length := by have := g7.length; simp [dashText] at this; omega
    have f6 : Far nodeSpace eoi s6 := far_nodeSpace (by rw [g7.chars]; exact noSpace_dash) (Or.inr l6)
    obtain ⟨as, k1, ⟨alt, k2, k3⟩, k4⟩ := far_nodeSpaces1 (eoi := eoi) o9 hne g6 f6 (by omega)
    refine hits_bind hX k1 k2 (Or.inr k3) ?_
    rw [k4]
    refine hits_orP_left (hits_pmap ?_) ?_
    · obtain ⟨t1, m1, m2⟩ := takes_append.1 (show Takes s6 (['/', '-'] ++ spacesText l) s7 from g7)
      obtain ⟨as', b1, ⟨balt, b2, b3⟩, b4⟩ := far_nodeSpaces (eoi := eoi) (show SpacesOk true (chars s7) l from o10) m2 f7 l7
      obtain ⟨d1, d2, d3⟩ := begun (eoi := eoi) m1
      have hd : FarAlt (ignoreThen (beginComment '-') (repeated nodeSpace)) eoi s6 as' s7 :=
        farAlt_bind (t := t1) ⟨d1, ⟨none, d2, lb_none⟩, d3⟩ ⟨b1, ⟨balt, b2, b3⟩, b4⟩
      obtain ⟨e1, ⟨ealt, e2, e3⟩, e4⟩ := hd
      refine hits_bind hX e1 e2 (Or.inr e3) ?_
      rw [e4]; exact h
    · have hns := notStart_dash hp
      have hf := fails_propOrArgInner (eoi := eoi) hns
      exact far_of_fails hf.1 hf.fails (at_inner hns) (by omega)

/-- A node with an entry that fails at the end of the text. -/
theorem hitN_entry (hX : X.open? = true) {n : Nat} {lines : List Line} {dash : Option (List Cst.Space)} {ty : Option Name} {name : Name}
    {items : List Item} {space : List Cst.Space} {dash' : Option (List Cst.Space)} {s1 s2 s3 s4 s5 s6 s7 : List (Tok O)}
    (g1 : Takes s (linesText lines) s1) (g2 : Takes s1 (dashText dash) s2) (g3 : Takes s2 (tyText ty) s3) (g4 : Takes s3 name.text s4)
    (g5 : Takes s4 (itemsText items) s5) (g6 : Takes s5 (spacesText space) s6) (g7 : Takes s6 (dashText dash') s7)
    (o1 : LinesOk true (chars s1) lines) (o2 : DashOk true (chars s2) dash) (o3 : TyOk ty) (o4 : name.Ok) (o5 : NameStartOk ty name)
    (o6 : NameEndOk (chars s4) name) (o7 : ItemsOk true (chars s5) items) (o8 : space ≠ []) (o9 : SpacesOk true (chars s6) space)
    (o10 : DashOk true (chars s7) dash') (hq : (chars s7).head? = some '"')
    (h : Hits X propOrArgInner eoi s7) : HitN X n eoi s := by
  have l7 := len_pos hq
  obtain ⟨r, c7⟩ := head_eq_some.1 hq
  have c6 : chars s6 = dashText dash' ++ '"' :: r := by rw [g7.chars, c7]
  have e5 : EndTok (chars s5) := by
    rw [g6.chars]
    exact endTok_spaces1 o8 o9
  have e4 : EndTok (chars s4) := by rw [g5.chars]; exact endTok_items o7 e5
  have c2 : chars s2 = tyText ty ++ name.text ++ chars s4 := by rw [g3.chars, g4.chars]; simp
  have l6 : 1 ≤ s6.length := by have := g7.length; omega
  have l5 : 2 ≤ s5.length := by
    have := g6.length
    have hpos := spacesText_pos o8
    omega
  have l4 : 2 ≤ s4.length := by have := g5.length; omega
  have hd6 : (chars s6).head? ≠ some '/' ∧ (chars s6).head? ≠ some '\r' ∧ 1 ≤ s6.length ∨ 2 ≤ s6.length := by
    cases dash' with
    | none =>
      have := takes_nil.1 g7; subst this
      exact Or.inl ⟨quote_ne hq (by decide), quote_ne hq (by decide), l6⟩
    | some l => right; have := g7.length; simp [dashText] at this; omega
  have hn6 : NoSpace (chars s6) := by
    rw [c6]
    cases dash' with
    | none => exact noSpace_quote
    | some l => exact noSpace_dash
  have f6 : Far nodeSpace eoi s6 := far_nodeSpace hn6 (hd6.imp (fun h => ⟨h.1, h.2.2⟩) id)
  have f7 : Far nodeSpace eoi s7 := far_nodeSpace (by rw [c7]; exact noSpace_quote) (Or.inl ⟨quote_ne hq (by decide), l7⟩)
  obtain ⟨v, q1, ⟨halt, q2⟩, q3⟩ := ok_header (eoi := eoi) o3 o4 g3 g4 e4 o6
  have fe : Hits X spaceEntry eoi s5 := hits_entry hX g6 g7 o8 o9 o10 hq h
  obtain ⟨as, i1, i2, i3⟩ := items_hit (eoi := eoi) g5 o7 e5 l5 fe
  obtain ⟨x, k1, ⟨palt, k2, k4⟩, k3⟩ := far_prefix (eoi := eoi) g6 o9 g7 o10 f6 f7 (by omega) (by
    rintro rfl
    have := takes_nil.1 g7; subst this
    exact quote_ne hq (by decide))
  have hc : FarAlt (optChildren (nodesRec n)) eoi s5 none s5 := by
    refine farAlt_orNot ?_
    have hb : FailsC (bracedNodes (nodesRec n)) eoi s7 := failsC_ignoreThen_left (failsC_just_head.2 (quote_ne hq (by decide)))
    obtain ⟨b1, e, b2⟩ := hb
    have hat : s7.length ≤ e.rem :=
      at_ignoreThen (failsC_just_head.2 (quote_ne hq (by decide))).fails ((near_just _).at _ _) e b2
    have hs : (spanned (bracedNodes (nodesRec n)) eoi s7).out = .error e := by simp [spanned, mapWithSpan, b2]
    have hs1 : (spanned (bracedNodes (nodesRec n)) eoi s7).errs = [] := b1
    simp only [Far, seq, bind, pmap, k1, k2, k3, hs, hs1]
    exact ⟨rfl, _, rfl, maxO_lb (by omega) k4⟩
  obtain ⟨c1, ⟨calt, c2', c4⟩, c3⟩ := hc
  have ft : Far (seq (repeated nodeSpace) nodeTerminator) eoi s5 := by
    refine far_term o9 g6 f6 (by omega) (far_terminator ?_ hd6)
    intro a u hu
    exact terminator_stop (d := dash') hu c6 (by decide) (by decide) (by decide)
  obtain ⟨t1, e, t2, t3⟩ := ft
  exact hitN_node hX g1 o1 g2 o2 (by rw [c2]; exact header_solid o4 o5)
    (node_hit hX q1 q2 q3 l4 i1 i2 i3 c1 c2' c3 t1 t2 (Or.inl rfl) (Or.inr c4) (Or.inr (lb_some.2 t3)) (Or.inl rfl))

/-- A text that ends in a string without end. -/
theorem hitN_string (hX : X.open? = true) (o : Open) (hs : o.slot = .node ∨ o.slot = .entry) {n : Nat} (hn : s.length ≤ n)
    (hT : Takes s o.text t) (ho : o.Ok (chars t)) (hq : (chars t).head? = some '"') (h : Hits X escapedString eoi t) : HitN X n eoi s := by
  refine hitN_walk hX o hn hT ho ?_
  intro m s' _ hT' ho'
  rw [← openLeaf_slot] at hs
  have hleaf := openLeaf_cases o
  cases hl : openLeaf o with
  | inside => rw [hl] at hleaf; rcases hleaf with ⟨_, _, h⟩ | ⟨_, _, _, _, _, _, _, _, _, h⟩ <;> cases h
  | after => rw [hl] at hleaf; rcases hleaf with ⟨_, _, h⟩ | ⟨_, _, _, _, _, _, _, _, _, h⟩ <;> cases h
  | node lines dash =>
    rw [hl] at hT' ho'
    obtain ⟨o1, o2⟩ := ho'
    obtain ⟨s1, g1, g2⟩ := takes_append.1 hT'
    obtain ⟨r, c7⟩ := head_eq_some.1 hq
    exact hitN_node hX g1 (by rw [g2.chars]; exact o1) g2 o2 ⟨'"', r, c7, solid_quote⟩ (hits_node hq hX h)
  | entry lines dash ty name items space dash' key vty =>
    rw [hl] at hT' ho' hs
    obtain ⟨rfl, rfl⟩ : key = none ∧ vty = none := by
      cases key <;> cases vty <;> simp [Open.slot] at hs
      exact ⟨rfl, rfl⟩
    obtain ⟨o1, o2, o3, o4, o5, o6, o7, o8, o9, o10, _, _⟩ := ho'
    simp only [keyText, tyText, List.nil_append] at o1 o2 o6 o7 o9 o10
    have hT'' : Takes s' (linesText lines ++ (dashText dash ++ (tyText ty ++ (name.text ++ (itemsText items ++ (spacesText space ++
      dashText dash')))))) t := by simpa [Open.text, keyText, tyText] using hT'
    obtain ⟨s1, g1, hT''⟩ := takes_append.1 hT''
    obtain ⟨s2, g2, hT''⟩ := takes_append.1 hT''
    obtain ⟨s3, g3, hT''⟩ := takes_append.1 hT''
    obtain ⟨s4, g4, hT''⟩ := takes_append.1 hT''
    obtain ⟨s5, g5, hT''⟩ := takes_append.1 hT''
    obtain ⟨s6, g6, g7⟩ := takes_append.1 hT''
    have c6 : chars s6 = dashText dash' ++ chars t := g7.chars
    have c5 : chars s5 = spacesText space ++ dashText dash' ++ chars t := by rw [g6.chars, c6]; simp
    have c4 : chars s4 = itemsText items ++ (spacesText space ++ dashText dash' ++ chars t) := by rw [g5.chars, c5]
    have c2 : chars s2 = tyText ty ++ name.text ++ itemsText items ++ (spacesText space ++ dashText dash' ++ chars t) := by
      rw [g3.chars, g4.chars, c4]; simp
    exact hitN_entry hX g1 g2 g3 g4 g5 g6 g7 (by rw [g2.chars, c2]; exact o1) (by rw [c2]; exact o2) o3 o4 o5
      (by rw [c4]; exact o6) (by rw [c5]; exact o7) o8 (by rw [c6]; exact o9) o10 hq (hits_inner hq hX h)

/-! ### Comments -/

omit [Offset O] in
theorem end_beginComment (c) : EndOk (beginComment c : P O Unit) ∧ EndErr (beginComment c : P O Unit) := by
  have h1 : EndOk (mapErr PErr.withNoExpected (just '/') : P O Char) := endOk_mapErr (endOk_just _)
  have h2 : EndErr (mapErr PErr.withNoExpected (just '/') : P O Char) := endErr_mapErr (by
    intro e he
    cases e with
    | unexpected l sp f x => cases f <;> first | rfl | (simp [PErr.isEoi] at he)
    | _ => simp [PErr.isEoi] at he) (endErr_just _)
  exact ⟨endOk_bind h1 (fun _ => endOk_pmap (endOk_just _)), endErr_bind h1 h2 (fun _ => endErr_pmap (endErr_just _))⟩

omit [Offset O] in
theorem end_rewind {f} : EndOk (rewind (filter f) : P O Char) ∧ EndErr (rewind (filter f) : P O Char) := by
  constructor
  · intro eoi s x alt h
    unfold rewind at h
    cases ho : (filter f eoi s).out with
    | error e => simp [ho] at h
    | ok y => simp only [ho, Except.ok.injEq] at h; subst h; exact endOk_filter f _ _ _ _ ho
  · intro eoi s e h
    unfold rewind at h
    cases ho : (filter f eoi s).out with
    | error e => simp only [ho, Except.error.injEq] at h; subst h; exact endErr_filter f _ _ _ ho
    | ok y => simp [ho] at h

omit [Offset O] in
theorem end_mlChoice {n} (h : EndOk (mlCommentRec n : P O Unit) ∧ EndErr (mlCommentRec n : P O Unit)) :
    EndOk (mlChoice n : P O Unit) ∧ EndErr (mlChoice n : P O Unit) := by
  constructor
  · refine endOk_choice ?_
    intro p hp
    simp only [List.mem_cons, List.not_mem_nil, or_false] at hp
    rcases hp with rfl | rfl | rfl
    · exact h.1
    · exact endOk_pmap (endOk_filter _)
    · exact endOk_pmap (endOk_bind (endOk_just _) (fun _ => endOk_pmap end_rewind.1))
  · refine endErr_choice ?_
    intro p hp
    simp only [List.mem_cons, List.not_mem_nil, or_false] at hp
    rcases hp with rfl | rfl | rfl
    · exact h.2
    · exact endErr_pmap (endErr_filter _)
    · exact endErr_pmap (endErr_bind (endOk_just _) (endErr_just _) (fun _ => endErr_pmap end_rewind.2))

omit [Offset O] in
theorem quiet_mlChoice {n} : Quiet (mlChoice n : P O Unit) := by
  refine quiet_choice ?_
  intro p hp
  simp only [List.mem_cons, List.not_mem_nil, or_false] at hp
  rcases hp with rfl | rfl | rfl
  · exact quiet_mlCommentRec n
  · exact quiet_ignored (quiet_filter _)
  · exact quiet_ignored (quiet_thenIgnore (quiet_just _) (quiet_rewind (quiet_filter _)))

omit [Offset O] in
theorem end_mlCommentRec (n) : EndOk (mlCommentRec n : P O Unit) ∧ EndErr (mlCommentRec n : P O Unit) := by
  induction n with
  | zero =>
    constructor
    · intro eoi s x alt h; simp [mlCommentRec, tooDeep] at h
    · intro eoi s e h; simp [mlCommentRec, tooDeep] at h; subst h; rw [endEoi_some]; exact fun _ => isEoi_found
  | succ n ih =>
    rw [mlCommentRec_succ]
    have hr : EndOk (ignored (repeated (mlChoice n)) : P O Unit) :=
      endOk_pmap (endOk_repeatedB (end_mlChoice ih).1 (end_mlChoice ih).2 quiet_mlChoice.failQuiet)
    have hr' : EndErr (ignored (repeated (mlChoice n)) : P O Unit) := endErr_pmap (fun eoi s e h => absurd h (repGo_not_fails _))
    obtain ⟨b1, b2⟩ := end_beginComment (O := O) '*'
    have h1 := endOk_bind b1 (fun _ => hr)
    have h2 := endErr_bind b1 b2 (fun _ => hr')
    exact ⟨endOk_bind h1 (fun _ => endOk_pmap (endOk_justStr _)), endErr_bind h1 h2 (fun _ => endErr_pmap (endErr_justStr _))⟩

/-- The diagnostic for a comment left open. -/
def openComment (sp : Sp O) : PErr O :=
  .unclosed "comment".toList (sp.atStart 2) (.token "/*".toList) sp.atEnd (.token "*/".toList) .eoi

/-- Where the loop of a comment ends. -/
theorem mlChoice_stop {n} (h : Fails (mlChoice n) eoi s) : chars s = [] ∨ chars s = ['*'] ∨ ['*', '/'] <+: chars s := by
  unfold mlChoice at h
  rw [fails_choice] at h
  have h2 := h (ignored (noneOf '*')) (by simp)
  have h3 := h (ignored (thenIgnore (just '*') (rewind (noneOf '/')))) (by simp)
  rw [fails_ignored] at h2 h3
  unfold noneOf at h2 h3
  rw [fails_filter_head] at h2
  rcases s with _ | ⟨⟨c, sp⟩, s⟩
  · exact Or.inl rfl
  · have hc : c = '*' := by simpa [chars] using h2 c rfl
    subst hc
    rcases s with _ | ⟨⟨d, sp'⟩, s⟩
    · exact Or.inr (Or.inl rfl)
    · right; right
      by_cases hd : d = '/'
      · subst hd; exact ⟨chars s, rfl⟩
      · exfalso
        have hok : Ok (thenIgnore (just '*') (rewind (filter fun x => x != '/'))) eoi (('*', sp) :: (d, sp') :: s) '*' ((d, sp') :: s) := by
          refine ok_thenIgnore.2 ⟨(d, sp') :: s, d, ok_just.2 ⟨sp, rfl, rfl⟩, ?_⟩
          exact ⟨by simp [rewind, filter, hd, pok], ⟨none, by simp [rewind, filter, hd, pok]⟩, by simp [rewind, filter, hd, pok]⟩
        exact hok.not_fails h3

/-- A comment without end is read up to the end of the text. -/
theorem open_mlCommentRec {w : Str} {s1 : List (Tok O)} (hT : Takes s ['/', '*'] s1) (hw : chars s1 = w)
    (ht : NoTie w) (hx : afterComment 1 w = none) :
    ∃ e, (mlCommentRec (s.length + 1) eoi s).errs = [] ∧ (mlCommentRec (s.length + 1) eoi s).out = .error e ∧
      e.rem = 0 ∧ e.err.isEoi = true ∧ (mlCommentRec (s.length + 1) eoi s).rest = [] := by
  have hno := no_block ht hx
  obtain ⟨b1, b2, b3⟩ := begun (eoi := eoi) hT
  have hrn : ∀ e, (repeated (mlChoice s.length) eoi s1).out ≠ .error e := fun e => repGo_not_fails _
  have hrq : (repeated (mlChoice s.length) eoi s1).errs = [] := quiet_repeated quiet_mlChoice eoi s1
  cases hr : (repeated (mlChoice s.length) eoi s1).out with
  | error e => exact absurd hr (hrn e)
  | ok x =>
    obtain ⟨as, alt⟩ := x
    generalize hu : (repeated (mlChoice s.length) eoi s1).rest = u
    have hok : Ok (repeated (mlChoice s.length)) eoi s1 as u := ⟨hrq, ⟨alt, hr⟩, hu⟩
    have hst := mlChoice_stop ((ok_repeated eats_mlChoice.consumes).1 hok).2
    have ha : EndEoi alt := endOk_repeatedB (end_mlChoice (end_mlCommentRec _)).1 (end_mlChoice (end_mlCommentRec _)).2
      quiet_mlChoice.failQuiet eoi s1 as alt hr
    have hj : ∃ e, (justStr "*/".toList eoi u).out = .error e ∧ (justStr "*/".toList eoi u).errs = [] ∧ e.rem = 0 ∧ e.err.isEoi = true ∧
        (justStr "*/".toList eoi u).rest = [] := by
      rcases hst with h | h | h
      · have : u = [] := by simpa [chars] using h
        subst this
        exact ⟨_, rfl, rfl, rfl, rfl, rfl⟩
      · obtain ⟨sp, t, rfl, h1⟩ := chars_eq_cons.1 h
        have : t = [] := by simpa [chars] using h1
        subst this
        exact ⟨_, rfl, rfl, rfl, rfl, rfl⟩
      · exfalso
        obtain ⟨r, hr⟩ := h
        obtain ⟨t, hT2, _⟩ := takes_of_chars (s := u) (a := ['*', '/']) (b := r) hr.symm
        have hall : Ok (mlCommentRec (s.length + 1)) eoi s () t := by
          rw [mlCommentRec_succ, ok_delimitedBy]
          exact ⟨(), s1, (), u, ⟨b1, ⟨none, b2⟩, b3⟩, ok_ignored.2 ⟨as, hok⟩, ok_justStr_takes.2 hT2⟩
        obtain ⟨b, hb, hTb⟩ := mlCommentRec_sound (Nat.le_succ _) hall
        refine hno b hb ⟨chars t, ?_⟩
        have h1 := hTb.chars
        have h2 := hT.chars
        rw [h1, hw] at h2
        simpa [Ws.text] using h2
    obtain ⟨e, j1, j2, j3, j4, j5⟩ := hj
    rw [mlCommentRec_succ]
    simp only [delimitedBy, thenIgnore, ignoreThen, ignored, bind, pmap, b1, b2, b3, hrq, hr, hu, j1, j2, j5, mergeAlts]
    refine ⟨_, rfl, rfl, maxO_zero j3, ?_, trivial⟩
    exact endEoi_some.1 (endEoi_maxO (endEoi_some.2 fun _ => j4) ha) (maxO_zero j3)

/-- A comment without end. -/
theorem hits_mlComment {w : Str} {s1 : List (Tok O)} (hT : Takes s ['/', '*'] s1) (hw : chars s1 = w)
    (ht : NoTie w) (hx : afterComment 1 w = none) (hlen : (spanSince eoi s []).length > 2) :
    Hits (openComment (spanSince eoi s [])) mlComment eoi s := by
  obtain ⟨e', m1, m2, m3, m4, m5⟩ := open_mlCommentRec (eoi := eoi) hT hw ht hx
  simp only [Hits, mlComment, mapErrWithSpan, m1, m2, m3, m5, mlCommentErr, m4, hlen, decide_true, Bool.and_self, if_true]
  refine ⟨trivial, ?_⟩
  have := merge_eoi (X := openComment (spanSince eoi s [])) m4 rfl
  unfold openComment at this ⊢
  rw [this]

theorem withExpectedKind_open {k : Str} (hX : X.open? = true) : PErr.withExpectedKind k X = X := by
  cases X <;> simp [PErr.open?] at hX
  rfl

theorem slash_ne {c : Char} (hp : ['/', '*'] <+: chars s) (h : c ≠ '/') : (chars s).head? ≠ some c := by
  obtain ⟨w, hw⟩ := hp
  rw [← hw]; intro h'; simp at h'; exact h h'.symm

theorem slash_len (hp : ['/', '*'] <+: chars s) : 2 ≤ s.length := length_of_prefix hp

theorem slash_notStart (hp : ['/', '*'] <+: chars s) : NotStart s := by
  obtain ⟨w, hw⟩ := hp
  exact notStart_of_head (c := '/') (by rw [← hw]; rfl) (by decide)

theorem slash_other {c : Char} (hp : ['/', '*'] <+: chars s) (hc : c ≠ '*') : ¬ ['/', c] <+: chars s := by
  obtain ⟨w, hw⟩ := hp
  rw [← hw]; rintro ⟨v, hv⟩
  simp at hv; exact hc hv.1

/-- A slash that begins no line comment ends no node. -/
theorem terminator_slash {c : Char} (hc : c ≠ '/') (hp : ['/', c] <+: chars s) {a u} (h : Ok nodeTerminator eoi s a u) : False := by
  obtain ⟨e, g4, g5⟩ := nodeTerminator_sound h
  obtain ⟨w, hw⟩ := hp
  have hch := g5.chars
  rw [← hw] at hch
  cases e with
  | newline m =>
    obtain ⟨c', h5, h6⟩ := newline_head (n := m) (f := chars u)
    have := congrArg List.head? hch
    simp only [Term.text] at this
    rw [h6] at this
    simp at this
    subst this; revert h5; decide
  | comment m => simp [Term.text, LineComment.text] at hch; exact hc hch.1
  | semicolon => simp [Term.text] at hch
  | eof =>
    have : chars u = [] := g4
    rw [this] at hch
    simp [Term.text] at hch

theorem far_bind {p : P O α} {f : α → P O β} {a t} (h1 : FarAlt p eoi s a t) (h2 : Far (f a) eoi t) : Far (bind p f) eoi s := by
  obtain ⟨g1, ⟨alt, g2, g3⟩, rfl⟩ := h1
  obtain ⟨k1, e, k2, k3⟩ := h2
  simp only [Far, bind, g1, g2, k1, k2]
  exact ⟨rfl, _, rfl, maxO_lb k3 g3⟩

theorem far_spanned {p : P O α} (h : Far p eoi s) : Far (spanned p) eoi s := by
  obtain ⟨h1, e, h2, h3⟩ := h
  exact ⟨h1, e, by simp [spanned, mapWithSpan, h2], h3⟩

theorem dash_farLine {l : List Cst.Space} (g2 : Takes s (dashText (some l)) t) : Far lineSpace eoi s := by
  have hnl : NoLine (chars s) := by
    rw [g2.chars]
    refine ⟨noWs_slash (by decide), ?_, ?_⟩
    · intro c' hc'; simp [Cst.dashText] at hc'; subst hc'; decide
    · rintro ⟨y, hy⟩; simp [Cst.dashText] at hy
  refine far_lineSpace hnl (fun hc => hnl.2.1 _ hc (by decide)) (Or.inr ?_)
  have := g2.length
  simp [dashText] at this
  omega

variable (hp : ['/', '*'] <+: chars s) (hX : X.open? = true)
include hp

theorem far_dash_slash : Far (beginComment '-') eoi s := by
  have hf : FailsC (beginComment '-') eoi s := failsC_beginComment (slash_other hp (by decide))
  obtain ⟨h1, e, h2⟩ := hf
  have := near_beginComment '-' eoi s e h2
  have := slash_len hp
  exact ⟨h1, e, h2, by omega⟩

theorem far_bind_left {p : P O α} {f : α → P O β} (h : Far p eoi s) : Far (bind p f) eoi s := by
  obtain ⟨h1, e, h2, h3⟩ := h
  exact ⟨by simp [bind, h1, h2], e, by simp [bind, h2], h3⟩

theorem far_inner_slash : Far propOrArgInner eoi s := by
  have hns := slash_notStart hp
  have hf := fails_propOrArgInner (eoi := eoi) hns
  exact far_of_fails hf.1 hf.fails (at_inner hns) (by have := slash_len hp; omega)

theorem far_entry_slash : Far propOrArg eoi s := by
  obtain ⟨h1, e1, h2, h3⟩ : Far dashEntry eoi s := far_pmap (far_bind_left hp (far_bind_left hp (far_dash_slash hp)))
  obtain ⟨k1, e2, k2, k3⟩ := far_inner_slash (eoi := eoi) hp
  refine ⟨?_, ?_⟩
  · rcases orP_error h2 k2 with h | h <;> simp [propOrArg_eq, h, h1, k1]
  · rcases orP_error h2 k2 with h | h
    · exact ⟨_, by rw [propOrArg_eq, h], Loc.max_lb h3 k3⟩
    · exact ⟨_, by rw [propOrArg_eq, h], Loc.max_lb k3 h3⟩

theorem far_header_slash : Far header eoi s := by
  have hns := slash_notStart hp
  have hf : FailsC header eoi s := by
    have h1 : Ok (orNot (spanned typeName)) eoi s none s :=
      ok_orNot.2 (Or.inr ⟨rfl, rfl, fails_spanned.2 (failsC_typeName (slash_ne hp (by decide))).fails⟩)
    exact failsC_seq_right h1 (failsC_spanned.2 (failsC_ident hns.noName))
  exact far_of_fails hf.1 hf.fails (at_header hns) (by have := slash_len hp; omega)

theorem far_node_slash {inner : P O (List (SpannedNode (Sp O)))} : Far (node inner) eoi s :=
  far_pmap (far_bind_left hp (far_bind_left hp (far_bind_left hp (far_header_slash hp))))

theorem far_braced_slash {inner : P O (List (SpannedNode (Sp O)))} : Far (bracedNodes inner) eoi s := by
  have hn := slash_ne hp (c := '{') (by decide)
  have hf : FailsC (bracedNodes inner) eoi s := failsC_ignoreThen_left (failsC_just_head.2 hn)
  exact far_of_fails hf.1 hf.fails (at_ignoreThen (failsC_just_head.2 hn).fails ((near_just _).at _ _)) (by have := slash_len hp; omega)

theorem far_term_slash : Far nodeTerminator eoi s :=
  far_terminator (fun _ _ hu => terminator_slash (by decide) hp hu) (Or.inr (slash_len hp))

variable (h : Hits X mlComment eoi s)
include hX h

theorem hits_ws : Hits X ws eoi s := by
  refine hits_mapErr (withExpectedKind_open hX) (hits_orP_right ?_ h)
  have hf := failsC_wsRun (eoi := eoi) (s := s) (by
    obtain ⟨w, hw⟩ := hp
    rw [← hw]; intro c hc; simp at hc; subst hc; decide)
  exact far_of_fails hf.1 hf.fails (near_wsRun.at _ _) (by have := slash_len hp; omega)

theorem hits_nodeSpace : Hits X nodeSpace eoi s := by
  refine hits_orP_left (hits_ws hp hX h) ?_
  have hn := slash_ne hp (c := '\\') (by decide)
  have hf := failsC_escLine (eoi := eoi) hn
  exact far_of_fails hf.1 hf.fails (at_escLine hn) (by have := slash_len hp; omega)

theorem hits_lineSpace : Hits X lineSpace eoi s := by
  refine hits_orP_left (hits_orP_right ?_ (hits_ws hp hX h)) ?_
  · have hf := fails_newline (eoi := eoi) (s := s) (by
      obtain ⟨w, hw⟩ := hp
      rw [← hw]; intro c hc; simp at hc; subst hc; decide)
    exact far_of_fails hf.1 hf.fails (at_newline (slash_ne hp (by decide))) (by have := slash_len hp; omega)
  · have hf := failsC_comment (eoi := eoi) (slash_other hp (c := '/') (by decide))
    obtain ⟨h1, e, h2⟩ := hf
    have h3 := near_comment.at1 eoi s e h2
    have := slash_len hp
    exact ⟨h1, e, h2, by omega⟩

end

section
variable [Offset O] {α β : Type} {X : PErr O} {eoi : Sp O} {s t : List (Tok O)}

/-- Before a node. -/
theorem hitN_node_comment (hX : X.open? = true) {n : Nat} {lines : List Line} {d : Option (List Cst.Space)} {s1 : List (Tok O)}
    (g1 : Takes s (linesText lines) s1) (hl : LinesOk true (chars s1) lines) (g2 : Takes s1 (dashText d) t) (hd : DashOk true (chars t) d)
    (hp : ['/', '*'] <+: chars t) (h : Hits X mlComment eoi t) : HitN X n eoi s := by
  have l2 := slash_len hp
  have hnode : Far (pmap (fun x => ((none : Option Unit), x)) (spanned (node (nodesRec n)))) eoi t := far_pmap (far_spanned (far_node_slash hp))
  cases d with
  | none =>
    have := takes_nil.1 g2; subst this
    obtain ⟨as, k1, k2, k3⟩ := hit_lines (eoi := eoi) hl g1 (hits_lineSpace hp hX h) (by
      obtain ⟨w, hw⟩ := hp
      rw [← hw]; intro c hc; simp at hc; subst hc; decide) (by omega)
    have hd : FarAlt (orNot (thenIgnore (beginComment '-') (repeated nodeSpace))) eoi s1 none s1 :=
      farAlt_orNot (far_bind_left hp (far_dash_slash hp))
    obtain ⟨q1, e, q2, q3⟩ : Far (nodeItem (nodesRec n)) eoi s1 := far_bind hd (far_pmap (far_spanned (far_node_slash hp)))
    exact hitN_first k2 k3 q1 q2 (good_left hX (Or.inr (lb_some.2 q3))) (by rintro rfl; simp at l2) (slash_ne hp (by decide))
  | some l =>
    have hw : chars s1 = '/' :: '-' :: (spacesText l ++ chars t) := by rw [g2.chars]; simp [dashText]
    have l1 : 1 ≤ s1.length := by have := g2.length; omega
    obtain ⟨as, k1, ⟨alt, k2, k3⟩, k4⟩ := far_lines (eoi := eoi) hl g1 (dash_farLine g2) (by
      rw [hw]; intro c hc; simp at hc; subst hc; decide) l1
    have hh := hit_dash (eoi := eoi) (l := l) hd g2 (hits_nodeSpace hp hX h) (by omega)
    obtain ⟨n1, e, n2, n3⟩ : Far (spanned (node (nodesRec n))) eoi t := far_spanned (far_node_slash hp)
    obtain ⟨q1, q2⟩ : Hits X (nodeItem (nodesRec n)) eoi s1 := by
      refine hits_bind_alt hX hh (e := e) ?_ ?_ (Or.inr (lb_some.2 n3))
      · simp only [pmap, n1]
      · simp only [pmap, n2]
    exact hitN_first k2 k4 q1 q2 (good_right hX (Or.inr k3)) (by rintro rfl; simp at l1) (by rw [hw]; simp)

/-- Before an entry. -/
theorem hitN_entry_comment (hX : X.open? = true) {n : Nat} {lines : List Line} {dash : Option (List Cst.Space)} {ty : Option Name} {name : Name}
    {items : List Item} {space : List Cst.Space} {dash' : Option (List Cst.Space)} {s1 s2 s3 s4 s5 s6 s7 : List (Tok O)}
    (g1 : Takes s (linesText lines) s1) (g2 : Takes s1 (dashText dash) s2) (g3 : Takes s2 (tyText ty) s3) (g4 : Takes s3 name.text s4)
    (g5 : Takes s4 (itemsText items) s5) (g6 : Takes s5 (spacesText space) s6) (g7 : Takes s6 (dashText dash') s7)
    (o1 : LinesOk true (chars s1) lines) (o2 : DashOk true (chars s2) dash) (o3 : TyOk ty) (o4 : name.Ok) (o5 : NameStartOk ty name)
    (o6 : NameEndOk (chars s4) name) (o7 : ItemsOk true (chars s5) items) (o8 : space ≠ []) (o9 : SpacesOk true (chars s6) space)
    (o10 : DashOk true (chars s7) dash') (hp : ['/', '*'] <+: chars s7)
    (h : Hits X mlComment eoi s7) : HitN X n eoi s := by
  have l7 := slash_len hp
  have e5 : EndTok (chars s5) := by
    rw [g6.chars]
    exact endTok_spaces1 o8 o9
  have e4 : EndTok (chars s4) := by rw [g5.chars]; exact endTok_items o7 e5
  have c2 : chars s2 = tyText ty ++ name.text ++ chars s4 := by rw [g3.chars, g4.chars]; simp
  have l6 : 2 ≤ s6.length := by have := g7.length; omega
  have l5 : 2 ≤ s5.length := by have := g6.length; omega
  have l4 : 2 ≤ s4.length := by have := g5.length; omega
  have hns := hits_nodeSpace hp hX h
  obtain ⟨v, q1, ⟨halt, q2⟩, q3⟩ := ok_header (eoi := eoi) o3 o4 g3 g4 e4 o6
  obtain ⟨b1, be, b2, b3⟩ : Far (spanned (bracedNodes (nodesRec n))) eoi s7 := far_spanned (far_braced_slash hp)
  refine hitN_node hX g1 o1 g2 o2 (by rw [c2]; exact header_solid o4 o5) ?_
  cases dash' with
  | none =>
    have := takes_nil.1 g7; subst this
    have fe : Hits X spaceEntry eoi s5 := by
      obtain ⟨as, k⟩ := hit_nodeSpaces1 (eoi := eoi) o9 o8 g6 hns (by omega)
      obtain ⟨p1, e, p2, p3⟩ := far_entry_slash (eoi := eoi) hp
      exact hits_bind_alt hX k p1 p2 (Or.inr (lb_some.2 p3))
    obtain ⟨as, i1, i2, i3⟩ := items_hit (eoi := eoi) g5 o7 e5 l5 fe
    have hc : HitAlt X (optChildren (nodesRec n)) eoi s5 none s5 := by
      refine hitAlt_orNot ?_
      have hpre : HitAlt X (ignoreThen (repeated nodeSpace) (orNot (thenIgnore (beginComment '-') (repeated nodeSpace)))) eoi s5 none s6 := by
        obtain ⟨as', k1, k2, k3⟩ := hit_nodeSpaces (eoi := eoi) o9 g6 hns (by omega)
        obtain ⟨d1, ⟨dalt, d2, d3⟩, d4⟩ : FarAlt (orNot (thenIgnore (beginComment '-') (repeated nodeSpace))) eoi s6 none s6 :=
          farAlt_orNot (far_bind_left hp (far_dash_slash hp))
        exact hitAlt_bind k1 k2 (by rw [k3]; exact d1) (by rw [k3]; exact d2) (by rw [k3]; exact d4) (good_left hX (Or.inr d3))
      refine hits_bind_alt hX hpre (e := be) ?_ ?_ (Or.inr (lb_some.2 b3))
      · simp only [pmap, b1]
      · simp only [pmap, b2]
    obtain ⟨c1, c2', c3⟩ := hc
    obtain ⟨t1, t2⟩ := hit_term (eoi := eoi) hX o9 g6 hns (by omega) (far_term_slash hp)
    exact node_hit hX q1 q2 q3 l4 i1 i2 i3 c1 c2' c3 t1 t2 (Or.inl rfl) (Or.inl rfl) (Or.inl rfl) (Or.inl rfl)
  | some l =>
    have hp6 : ['/', '-'] <+: chars s6 := ⟨spacesText l ++ chars s7, by rw [g7.chars]; simp [dashText]⟩
    have f6 : Far nodeSpace eoi s6 := far_nodeSpace (by rw [g7.chars]; exact noSpace_dash) (Or.inr l6)
    have fe : Hits X spaceEntry eoi s5 := by
      obtain ⟨as, k1, ⟨alt, k2, k3⟩, k4⟩ := far_nodeSpaces1 (eoi := eoi) o9 o8 g6 f6 (by omega)
      refine hits_bind hX k1 k2 (Or.inr k3) ?_
      rw [k4]
      refine hits_orP_left (hits_pmap ?_) ?_
      · obtain ⟨t1, m1, m2⟩ := takes_append.1 (show Takes s6 (['/', '-'] ++ spacesText l) s7 from g7)
        obtain ⟨as', w1, w2, w3⟩ := hit_nodeSpaces (eoi := eoi) (show SpacesOk true (chars s7) l from o10) m2 hns (by omega)
        obtain ⟨d1, d2, d3⟩ := begun (eoi := eoi) m1
        have hd : HitAlt X (ignoreThen (beginComment '-') (repeated nodeSpace)) eoi s6 as' s7 :=
          hitAlt_bind d1 d2 (by rw [d3]; exact w1) (by rw [d3]; exact w2) (by rw [d3]; exact w3) rfl
        obtain ⟨p1, e, p2, p3⟩ := far_inner_slash (eoi := eoi) hp
        exact hits_bind_alt hX hd p1 p2 (Or.inr (lb_some.2 p3))
      · have hns := notStart_dash hp6
        have hf := fails_propOrArgInner (eoi := eoi) hns
        exact far_of_fails hf.1 hf.fails (at_inner hns) (by omega)
    obtain ⟨as, i1, i2, i3⟩ := items_hit (eoi := eoi) g5 o7 e5 l5 fe
    have hc : HitAlt X (optChildren (nodesRec n)) eoi s5 none s5 := by
      refine hitAlt_orNot ?_
      have hpre : HitAlt X (ignoreThen (repeated nodeSpace) (orNot (thenIgnore (beginComment '-') (repeated nodeSpace)))) eoi s5 (some ()) s7 := by
        obtain ⟨as', k1, ⟨kalt, k2, k4⟩, k3⟩ := far_nodeSpaces (eoi := eoi) o9 g6 f6 (by omega)
        obtain ⟨d1, d2, d4⟩ := hit_dash (eoi := eoi) (l := l) o10 g7 hns (by omega)
        exact hitAlt_bind k1 k2 (by rw [k3]; exact d1) (by rw [k3]; exact d2) (by rw [k3]; exact d4) (good_right hX (Or.inr k4))
      refine hits_bind_alt hX hpre (e := be) ?_ ?_ (Or.inr (lb_some.2 b3))
      · simp only [pmap, b1]
      · simp only [pmap, b2]
    obtain ⟨c1, c2', c3⟩ := hc
    obtain ⟨t1, e, t2, t3⟩ : Far (seq (repeated nodeSpace) nodeTerminator) eoi s5 :=
      far_term o9 g6 f6 (by omega) (far_terminator (fun _ _ hu => terminator_slash (by decide) hp6 hu) (Or.inr l6))
    exact node_hit hX q1 q2 q3 l4 i1 i2 i3 c1 c2' c3 t1 t2 (Or.inl rfl) (Or.inl rfl) (Or.inr (lb_some.2 t3)) (Or.inl rfl)

/-- A text that ends in a comment without end. -/
theorem hitN_comment (hX : X.open? = true) (o : Open) (hs : o.slot = .node ∨ o.slot = .entry) {n : Nat} (hn : s.length ≤ n)
    (hT : Takes s o.text t) (ho : o.Ok (chars t)) (hp : ['/', '*'] <+: chars t) (h : Hits X mlComment eoi t) : HitN X n eoi s := by
  refine hitN_walk hX o hn hT ho ?_
  intro m s' _ hT' ho'
  rw [← openLeaf_slot] at hs
  have hleaf := openLeaf_cases o
  cases hl : openLeaf o with
  | inside => rw [hl] at hleaf; rcases hleaf with ⟨_, _, h⟩ | ⟨_, _, _, _, _, _, _, _, _, h⟩ <;> cases h
  | after => rw [hl] at hleaf; rcases hleaf with ⟨_, _, h⟩ | ⟨_, _, _, _, _, _, _, _, _, h⟩ <;> cases h
  | node lines dash =>
    rw [hl] at hT' ho'
    obtain ⟨o1, o2⟩ := ho'
    obtain ⟨s1, g1, g2⟩ := takes_append.1 hT'
    exact hitN_node_comment hX g1 (by rw [g2.chars]; exact o1) g2 o2 hp h
  | entry lines dash ty name items space dash' key vty =>
    rw [hl] at hT' ho' hs
    obtain ⟨rfl, rfl⟩ : key = none ∧ vty = none := by
      cases key <;> cases vty <;> simp [Open.slot] at hs
      exact ⟨rfl, rfl⟩
    obtain ⟨o1, o2, o3, o4, o5, o6, o7, o8, o9, o10, _, _⟩ := ho'
    simp only [keyText, tyText, List.nil_append] at o1 o2 o6 o7 o9 o10
    have hT'' : Takes s' (linesText lines ++ (dashText dash ++ (tyText ty ++ (name.text ++ (itemsText items ++ (spacesText space ++
      dashText dash')))))) t := by simpa [Open.text, keyText, tyText] using hT'
    obtain ⟨s1, g1, hT''⟩ := takes_append.1 hT''
    obtain ⟨s2, g2, hT''⟩ := takes_append.1 hT''
    obtain ⟨s3, g3, hT''⟩ := takes_append.1 hT''
    obtain ⟨s4, g4, hT''⟩ := takes_append.1 hT''
    obtain ⟨s5, g5, hT''⟩ := takes_append.1 hT''
    obtain ⟨s6, g6, g7⟩ := takes_append.1 hT''
    have c6 : chars s6 = dashText dash' ++ chars t := g7.chars
    have c5 : chars s5 = spacesText space ++ dashText dash' ++ chars t := by rw [g6.chars, c6]; simp
    have c4 : chars s4 = itemsText items ++ (spacesText space ++ dashText dash' ++ chars t) := by rw [g5.chars, c5]
    have c2 : chars s2 = tyText ty ++ name.text ++ itemsText items ++ (spacesText space ++ dashText dash' ++ chars t) := by
      rw [g3.chars, g4.chars, c4]; simp
    exact hitN_entry_comment hX g1 g2 g3 g4 g5 g6 g7 (by rw [g2.chars, c2]; exact o1) (by rw [c2]; exact o2) o3 o4 o5
      (by rw [c4]; exact o6) (by rw [c5]; exact o7) o8 (by rw [c6]; exact o9) o10 hp h

end

end Knuffel
