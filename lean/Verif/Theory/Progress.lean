import Verif.Theory.Comb
import Verif.Model.Grammar
/-!
# Progress

Every parser leaves a suffix of its input (`Suf`), and successes consume at
least a given number of tokens (`Eats`).
-/

namespace Knuffel

variable {O α β γ : Type}

/-- The rest is a suffix of the input, whatever the outcome. -/
def Suf (p : P O α) : Prop := ∀ eoi s, (p eoi s).rest <:+ s

/-- A success consumes at least `k` tokens. -/
def Eats (k : Nat) (p : P O α) : Prop :=
  ∀ eoi s x, (p eoi s).out = .ok x → (p eoi s).rest.length + k ≤ s.length

theorem Eats.consumes {p : P O α} (h : Eats 1 p) : Consumes p := fun eoi s x hx => by
  have := h eoi s x hx; omega

theorem Eats.mono {p : P O α} {j k : Nat} (h : Eats j p) (hjk : k ≤ j) : Eats k p :=
  fun eoi s x hx => by have := h eoi s x hx; omega

theorem eats_just {c : Char} : Eats 1 (just c : P O Char) := by
  intro eoi s x h
  rcases s with _ | ⟨⟨y, sp⟩, s⟩
  · simp [just, pfail] at h
  · by_cases hy : y = c
    · simp [just, hy, pok]
    · simp [just, hy, pfail] at h

theorem suf_just {c : Char} : Suf (just c : P O Char) := by
  intro eoi s
  rcases s with _ | ⟨⟨y, sp⟩, s⟩
  · simp [just, pfail]
  · by_cases hy : y = c <;> simp [just, hy, pok, pfail]

theorem eats_filter {f : Char → Bool} : Eats 1 (filter f : P O Char) := by
  intro eoi s x h
  rcases s with _ | ⟨⟨y, sp⟩, s⟩
  · simp [filter, pfail] at h
  · by_cases hy : f y = true
    · simp [filter, hy, pok]
    · simp [filter, hy, pfail] at h

theorem suf_filter {f : Char → Bool} : Suf (filter f : P O Char) := by
  intro eoi s
  rcases s with _ | ⟨⟨y, sp⟩, s⟩
  · simp [filter, pfail]
  · by_cases hy : f y = true <;> simp [filter, hy, pok, pfail]

theorem eats_filterMap {f : Sp O → Char → Except (PErr O) α} : Eats 1 (filterMap f) := by
  intro eoi s x h
  rcases s with _ | ⟨⟨y, sp⟩, s⟩
  · simp [filterMap, pfail] at h
  · cases hy : f sp y
    · simp [filterMap, hy, pfail] at h
    · simp [filterMap, hy, pok]

theorem suf_filterMap {f : Sp O → Char → Except (PErr O) α} : Suf (filterMap f) := by
  intro eoi s
  rcases s with _ | ⟨⟨y, sp⟩, s⟩
  · simp [filterMap, pfail]
  · cases hy : f sp y <;> simp [filterMap, hy, pok, pfail]

theorem eats_endP : Eats 0 (endP : P O Unit) := by
  intro eoi s x h
  rcases s with _ | ⟨⟨y, sp⟩, s⟩ <;> simp [endP, pok, pfail]

theorem suf_endP : Suf (endP : P O Unit) := by
  intro eoi s
  rcases s with _ | ⟨⟨y, sp⟩, s⟩ <;> simp [endP, pok, pfail]

theorem eats_justStr {cs : Str} : Eats cs.length (justStr cs : P O Unit) := by
  induction cs with
  | nil => intro eoi s x h; simp [justStr, pok]
  | cons c cs ih =>
    intro eoi s x h
    rcases s with _ | ⟨⟨y, sp⟩, s⟩
    · simp [justStr, pfail] at h
    · by_cases hy : y = c
      · have h' : (justStr cs eoi s).out = .ok x := by simpa [justStr, hy] using h
        have := ih eoi s x h'
        simp [justStr, hy]; omega
      · simp [justStr, hy, pfail] at h

theorem suf_justStr {cs : Str} : Suf (justStr cs : P O Unit) := by
  induction cs with
  | nil => intro eoi s; simp [justStr, pok]
  | cons c cs ih =>
    intro eoi s
    rcases s with _ | ⟨⟨y, sp⟩, s⟩
    · simp [justStr, pfail]
    · by_cases hy : y = c
      · simpa [justStr, hy] using (ih eoi s).trans (List.suffix_cons _ _)
      · simp [justStr, hy, pfail]

theorem eats_pmap {k} {f : α → β} {p : P O α} (h : Eats k p) : Eats k (pmap f p) := by
  intro eoi s x hx
  cases hp : (p eoi s).out with
  | error e => simp [pmap, hp] at hx
  | ok y => exact h eoi s y hp

theorem suf_pmap {f : α → β} {p : P O α} (h : Suf p) : Suf (pmap f p) := h

theorem eats_ignored {k} {p : P O α} (h : Eats k p) : Eats k (ignored p) := eats_pmap h
theorem suf_ignored {p : P O α} (h : Suf p) : Suf (ignored p) := h

theorem eats_mapErr {k} {f} {p : P O α} (h : Eats k p) : Eats k (mapErr f p) := by
  intro eoi s x hx
  cases hp : (p eoi s).out with
  | error e => simp [mapErr, hp] at hx
  | ok y => exact h eoi s y hp

theorem suf_mapErr {f} {p : P O α} (h : Suf p) : Suf (mapErr f p) := h

theorem eats_mapErrWithSpan {k} {f} {p : P O α} (h : Eats k p) : Eats k (mapErrWithSpan f p) := by
  intro eoi s x hx
  cases hp : (p eoi s).out with
  | error e => simp [mapErrWithSpan, hp] at hx
  | ok y => exact h eoi s y hp

theorem suf_mapErrWithSpan {f} {p : P O α} (h : Suf p) : Suf (mapErrWithSpan f p) := h

theorem eats_mapWithSpan {k} {f : α → Sp O → β} {p : P O α} (h : Eats k p) :
    Eats k (mapWithSpan f p) := by
  intro eoi s x hx
  cases hp : (p eoi s).out with
  | error e => simp [mapWithSpan, hp] at hx
  | ok y => exact h eoi s y hp

theorem suf_mapWithSpan {f : α → Sp O → β} {p : P O α} (h : Suf p) : Suf (mapWithSpan f p) := h

theorem eats_tryMap {k} {f : α → Sp O → Except (PErr O) β} {p : P O α} (h : Eats k p) :
    Eats k (tryMap f p) := by
  intro eoi s x hx
  cases hp : (p eoi s).out with
  | error e => simp [tryMap, hp] at hx
  | ok y => exact h eoi s y hp

theorem suf_tryMap {f : α → Sp O → Except (PErr O) β} {p : P O α} (h : Suf p) : Suf (tryMap f p) := h

theorem eats_validate {k} {f : α → Sp O → List (PErr O)} {p : P O α} (h : Eats k p) :
    Eats k (validate f p) := by
  intro eoi s x hx
  cases hp : (p eoi s).out with
  | error e => simp [validate, hp] at hx
  | ok y => simpa [validate, hp] using h eoi s y hp

theorem suf_validate {f : α → Sp O → List (PErr O)} {p : P O α} (h : Suf p) : Suf (validate f p) := by
  intro eoi s
  cases hp : (p eoi s).out <;> simpa [validate, hp] using h eoi s

theorem eats_bind {j k} {p : P O α} {f : α → P O β} (hp : Eats j p) (hf : ∀ a, Eats k (f a)) :
    Eats (j + k) (bind p f) := by
  intro eoi s x hx
  cases h1 : (p eoi s).out with
  | error e => simp [bind, h1] at hx
  | ok y =>
    obtain ⟨a, alt⟩ := y
    cases h2 : (f a eoi (p eoi s).rest).out with
    | error e => simp [bind, h1, h2] at hx
    | ok z =>
      have := hp eoi s _ h1
      have := hf a eoi _ _ h2
      simp [bind, h1, h2]; omega

theorem suf_bind {p : P O α} {f : α → P O β} (hp : Suf p) (hf : ∀ a, Suf (f a)) : Suf (bind p f) := by
  intro eoi s
  cases h1 : (p eoi s).out with
  | error e => simpa [bind, h1] using hp eoi s
  | ok y =>
    obtain ⟨a, alt⟩ := y
    have := (hf a eoi (p eoi s).rest).trans (hp eoi s)
    cases h2 : (f a eoi (p eoi s).rest).out <;> simpa [bind, h1, h2] using this

theorem eats_seq {j k} {p : P O α} {q : P O β} (hp : Eats j p) (hq : Eats k q) : Eats (j + k) (seq p q) :=
  eats_bind hp (fun _ => eats_pmap hq)
theorem suf_seq {p : P O α} {q : P O β} (hp : Suf p) (hq : Suf q) : Suf (seq p q) :=
  suf_bind hp (fun _ => suf_pmap hq)
theorem eats_ignoreThen {j k} {p : P O α} {q : P O β} (hp : Eats j p) (hq : Eats k q) :
    Eats (j + k) (ignoreThen p q) := eats_bind hp (fun _ => hq)
theorem suf_ignoreThen {p : P O α} {q : P O β} (hp : Suf p) (hq : Suf q) : Suf (ignoreThen p q) :=
  suf_bind hp (fun _ => hq)
theorem eats_thenIgnore {j k} {p : P O α} {q : P O β} (hp : Eats j p) (hq : Eats k q) :
    Eats (j + k) (thenIgnore p q) := eats_bind hp (fun _ => eats_pmap hq)
theorem suf_thenIgnore {p : P O α} {q : P O β} (hp : Suf p) (hq : Suf q) : Suf (thenIgnore p q) :=
  suf_bind hp (fun _ => suf_pmap hq)
theorem eats_delimitedBy {i j k} {p : P O α} {l : P O β} {r : P O γ} (hp : Eats i p) (hl : Eats j l)
    (hr : Eats k r) : Eats (j + i + k) (delimitedBy p l r) :=
  eats_thenIgnore (eats_ignoreThen hl hp) hr
theorem suf_delimitedBy {p : P O α} {l : P O β} {r : P O γ} (hp : Suf p) (hl : Suf l) (hr : Suf r) :
    Suf (delimitedBy p l r) := suf_thenIgnore (suf_ignoreThen hl hp) hr

theorem takeA_rest (a b : PRes O α) : (takeA a b).rest = a.rest := by
  unfold takeA; split <;> rfl

theorem eats_orP {k} {p q : P O α} (hp : Eats k p) (hq : Eats k q) : Eats k (orP p q) := by
  intro eoi s x hx
  unfold orP at hx ⊢
  simp only at hx ⊢
  split at hx
  · rename_i h; simp only [h, ↓reduceIte]; exact hp _ _ _ hx
  · rename_i h
    simp only [h, Bool.false_eq_true, ↓reduceIte]
    split at hx
    · rename_i h2
      simp only [h2, ↓reduceIte]
      cases h3 : (q eoi s).out with
      | error e => simp [h3] at hx
      | ok y => exact hq _ _ _ h3
    · rename_i h2
      simp only [h2, Bool.false_eq_true, ↓reduceIte]
      split at hx
      · rename_i h3
        simp only [h3, ↓reduceIte, takeA_rest]
        obtain ⟨y, hy⟩ := (takeA_out_ok _ _).1 ⟨_, hx⟩
        exact hp _ _ _ hy
      · rename_i h3
        simp only [h3, Bool.false_eq_true, ↓reduceIte, takeA_rest]
        obtain ⟨y, hy⟩ := (takeA_out_ok _ _).1 ⟨_, hx⟩
        exact hq _ _ _ hy

theorem suf_orP {p q : P O α} (hp : Suf p) (hq : Suf q) : Suf (orP p q) := by
  intro eoi s
  unfold orP
  simp only
  split
  · exact hp _ _
  · split
    · cases h3 : (q eoi s).out <;> exact hq _ _
    · split
      · rw [takeA_rest]; exact hp _ _
      · rw [takeA_rest]; exact hq _ _

theorem eats_choiceGo {k} {ps : List (P O α)} (h : ∀ p ∈ ps, Eats k p) (alt pan) :
    Eats k (choiceGo alt pan ps) := by
  induction ps generalizing alt pan with
  | nil => intro eoi s x hx; cases alt <;> simp [choiceGo] at hx
  | cons p ps ih =>
    intro eoi s x hx
    cases hp : (p eoi s).out with
    | ok y => simpa [choiceGo, hp] using h p (by simp) eoi s y hp
    | error e =>
      have hx' : (choiceGo (mergeAlts alt (some e))
        (pan || (p eoi s).panicked || clashAlts alt (some e)) ps eoi s).out = .ok x := by
        simpa [choiceGo, hp] using hx
      have := ih (fun q hq => h q (by simp [hq])) _ _ eoi s x hx'
      simpa [choiceGo, hp] using this

theorem suf_choiceGo {ps : List (P O α)} (h : ∀ p ∈ ps, Suf p) (alt pan) :
    Suf (choiceGo alt pan ps) := by
  induction ps generalizing alt pan with
  | nil => intro eoi s; cases alt <;> simp [choiceGo]
  | cons p ps ih =>
    intro eoi s
    cases hp : (p eoi s).out with
    | ok y => simpa [choiceGo, hp] using h p (by simp) eoi s
    | error e =>
      have := ih (fun q hq => h q (by simp [hq])) (mergeAlts alt (some e))
        (pan || (p eoi s).panicked || clashAlts alt (some e)) eoi s
      simpa [choiceGo, hp] using this

theorem eats_choice {k} {ps : List (P O α)} (h : ∀ p ∈ ps, Eats k p) : Eats k (choice ps) :=
  eats_choiceGo h _ _
theorem suf_choice {ps : List (P O α)} (h : ∀ p ∈ ps, Suf p) : Suf (choice ps) := suf_choiceGo h _ _

theorem eats_orNot {p : P O α} (h : Eats 0 p) : Eats 0 (orNot p) := by
  intro eoi s x hx
  cases hp : (p eoi s).out with
  | ok y => simpa [orNot, hp] using h eoi s y hp
  | error e => simp [orNot, hp]

theorem suf_orNot {p : P O α} (h : Suf p) : Suf (orNot p) := by
  intro eoi s
  cases hp : (p eoi s).out with
  | ok y => simpa [orNot, hp] using h eoi s
  | error e => simp [orNot, hp]

theorem eats_rewind {p : P O α} : Eats 0 (rewind p) := by
  intro eoi s x hx
  cases hp : (p eoi s).out with
  | ok y => simp [rewind, hp]
  | error e => simp [rewind, hp] at hx

theorem suf_rewind {p : P O α} (h : Suf p) : Suf (rewind p) := by
  intro eoi s
  cases hp : (p eoi s).out with
  | ok y => simp [rewind, hp]
  | error e => simpa [rewind, hp] using h eoi s

theorem suf_repGo {p : P O α} {mn mx eoi} (h : Suf p) : ∀ (fuel : Nat) {outs errs alt pan s},
    (repGo p mn mx eoi fuel outs errs alt pan s).rest <:+ s := by
  intro fuel
  induction fuel with
  | zero => intro _ _ _ _ s; simp [repGo]
  | succ fuel ih =>
    intro outs errs alt pan s
    rw [repGo]
    split
    · exact List.suffix_refl _
    · cases hp : (p eoi s).out with
      | error e =>
        simp only [hp]
        split
        · exact h _ _
        · exact List.suffix_refl _
      | ok x =>
        obtain ⟨a, aalt⟩ := x
        simp only [hp]
        split
        · exact ih.trans (h _ _)
        · exact h _ _

theorem suf_repeatedB {p : P O α} {mn mx} (h : Suf p) : Suf (repeatedB mn mx p) :=
  fun _ _ => suf_repGo h _
theorem suf_repeated {p : P O α} (h : Suf p) : Suf (repeated p) := suf_repeatedB h

theorem Suf.eats0 {p : P O α} (h : Suf p) : Eats 0 p := fun eoi s _ _ => (h eoi s).length_le

theorem eats_repeatedB {p : P O α} {mn mx} (hs : Suf p) (h : Eats 1 p) (hmn : 0 < mn)
    (hmx : mx ≠ some 0) : Eats 1 (repeatedB mn mx p) := by
  intro eoi s x hx
  unfold repeatedB at hx ⊢
  rw [repGo] at hx ⊢
  have h0 : mx ≠ some ([] : List α).length := by simpa using hmx
  simp only [h0, ↓reduceIte] at hx ⊢
  cases hp : (p eoi s).out with
  | error e =>
    have : ([] : List α).length < mn := by simpa using hmn
    simp only [hp, this, ↓reduceIte] at hx
    simp at hx
  | ok y =>
    obtain ⟨a, aalt⟩ := y
    have := h eoi s _ hp
    simp only [hp]
    split
    · have := (suf_repGo (mn := mn) (mx := mx) (eoi := eoi) hs s.length (outs := [] ++ [a])
        (errs := [] ++ (p eoi s).errs)
        (alt := mergeAlts none aalt) (pan := false || (p eoi s).panicked || clashAlts none aalt)
        (s := (p eoi s).rest)).length_le
      omega
    · exact this

theorem suf_takeUntil {p : P O β} (h : Suf p) : Suf (takeUntil p) := by
  have key : ∀ (fuel : Nat) {eoi outs alt pan s},
      (takeUntilGo p eoi fuel outs alt pan s).rest <:+ s := by
    intro fuel
    induction fuel with
    | zero => intro _ _ _ _ s; simp [takeUntilGo]
    | succ fuel ih =>
      intro eoi outs alt pan s
      rw [takeUntilGo]
      cases hp : (p eoi s).out with
      | ok x => simpa [hp] using h eoi s
      | error e =>
        cases s with
        | nil => simp [hp]
        | cons y s =>
          obtain ⟨c, sp⟩ := y
          simp only [hp]
          exact ih.trans (List.suffix_cons _ _)
  exact fun _ _ => key _

theorem skipTo_suffix {u : List Char} {s t : List (Tok O)} (h : skipTo u s = some t) : t <:+ s := by
  induction s with
  | nil => simp [skipTo] at h
  | cons x s ih =>
    unfold skipTo at h
    split at h
    · simp at h; subst h; exact List.suffix_refl _
    · exact (ih h).trans (List.suffix_cons _ _)

theorem suf_recoverSkipUntil {u : List Char} {fb : α} {p : P O α} (h : Suf p) :
    Suf (recoverSkipUntil u fb p) := by
  intro eoi s
  cases hp : (p eoi s).out with
  | ok x => simpa [recoverSkipUntil, hp] using h eoi s
  | error e =>
    cases hs : skipTo u s with
    | none => simp [recoverSkipUntil, hp, hs]
    | some t => simpa [recoverSkipUntil, hp, hs] using skipTo_suffix hs

theorem suf_sepDelim {delim : P O β} (hd : Suf delim) {eoi alt s} :
    (sepDelim delim eoi alt s).2.2 <:+ s := by
  unfold sepDelim
  cases h : (delim eoi s).out with
  | ok x => simpa [h] using hd eoi s
  | error e => simp [h]

theorem suf_separatedBy {item : P O α} {delim : P O β} (hi : Suf item) (hd : Suf delim) :
    Suf (separatedBy item delim) := by
  have key : ∀ (fuel : Nat) {eoi outs errs alt pan s},
      (sepGo item delim eoi fuel outs errs alt pan s).2.2.2.2.1 <:+ s := by
    intro fuel
    induction fuel with
    | zero => intro _ _ _ _ _ s; simp [sepGo]
    | succ fuel ih =>
      intro eoi outs errs alt pan s
      rw [sepGo]
      cases h1 : (delim eoi s).out with
      | error e => simp [h1]
      | ok x =>
        obtain ⟨b, dalt⟩ := x
        simp only [h1]
        cases h2 : (item eoi (delim eoi s).rest).out with
        | error e => simp
        | ok y =>
          obtain ⟨a, ialt⟩ := y
          simp only
          split
          · exact ih.trans ((hi _ _).trans (hd _ _))
          · exact List.suffix_refl _
  intro eoi s
  unfold separatedBy
  rcases hsd : sepDelim delim eoi none s with ⟨alt0, pan0, s0⟩
  have h0 : s0 <:+ s := by have := suf_sepDelim hd (eoi := eoi) (alt := none) (s := s); rw [hsd] at this; exact this
  simp only
  cases h1 : (item eoi s0).out with
  | error e => exact h0
  | ok y =>
    obtain ⟨a, ialt⟩ := y
    simp only
    rcases hg : sepGo item delim eoi ((item eoi s0).rest.length + 1) [a] (item eoi s0).errs
      (mergeAlts alt0 ialt) (pan0 || (item eoi s0).panicked || clashAlts alt0 ialt)
      (item eoi s0).rest with ⟨outs, errs, alt, pan, s1, err⟩
    have h2 : s1 <:+ (item eoi s0).rest := by
      have := key ((item eoi s0).rest.length + 1) (eoi := eoi) (outs := [a]) (errs := (item eoi s0).errs)
        (alt := mergeAlts alt0 ialt) (pan := pan0 || (item eoi s0).panicked || clashAlts alt0 ialt)
        (s := (item eoi s0).rest)
      rw [hg] at this; exact this
    rcases hsd2 : sepDelim delim eoi alt s1 with ⟨alt', pan', s2⟩
    have h3 : s2 <:+ s1 := by
      have := suf_sepDelim hd (eoi := eoi) (alt := alt) (s := s1); rw [hsd2] at this; exact this
    exact h3.trans (h2.trans ((hi _ _).trans h0))

theorem eats_tooDeep {k} : Eats k (tooDeep : P O α) := by
  intro eoi s x hx; simp [tooDeep] at hx
theorem suf_tooDeep : Suf (tooDeep : P O α) := by
  intro eoi s; simp [tooDeep]

/-! ### The grammar -/

theorem eats_beginComment {c} : Eats 2 (beginComment c : P O Unit) :=
  eats_ignoreThen (eats_mapErr eats_just) (eats_ignored eats_just)
theorem suf_beginComment {c} : Suf (beginComment c : P O Unit) :=
  suf_ignoreThen (suf_mapErr suf_just) (suf_ignored suf_just)

theorem suf_newline : Suf (newline : P O Unit) :=
  suf_mapErr (suf_ignored (suf_orP (suf_orP (suf_orP (suf_orP (suf_orP
    (suf_ignoreThen (suf_orNot suf_just) suf_just) suf_just) suf_just) suf_just) suf_just) suf_just))
theorem eats_newline : Eats 1 (newline : P O Unit) :=
  eats_mapErr (eats_ignored (eats_orP (eats_orP (eats_orP (eats_orP (eats_orP
    (eats_ignoreThen (j := 0) (eats_orNot suf_just.eats0) eats_just) eats_just) eats_just) eats_just) eats_just) eats_just))

theorem suf_wsChar : Suf (wsChar : P O Unit) := suf_ignored suf_filter
theorem eats_wsChar : Eats 1 (wsChar : P O Unit) := eats_ignored eats_filter

theorem suf_comment : Suf (comment : P O Unit) :=
  suf_ignored (suf_seq suf_beginComment (suf_takeUntil (suf_orP suf_newline suf_endP)))
theorem eats_comment : Eats 2 (comment : P O Unit) :=
  eats_ignored (eats_seq (k := 0) eats_beginComment (suf_takeUntil (suf_orP suf_newline suf_endP)).eats0)

theorem suf_mlCommentRec : ∀ n, Suf (mlCommentRec n : P O Unit)
  | 0 => suf_tooDeep
  | n + 1 => by
    refine suf_delimitedBy (suf_ignored (suf_repeated (suf_choice ?_))) suf_beginComment suf_justStr
    intro p hp
    simp only [List.mem_cons, List.not_mem_nil, or_false] at hp
    rcases hp with rfl | rfl | rfl
    · exact suf_mlCommentRec n
    · exact suf_ignored suf_filter
    · exact suf_ignored (suf_thenIgnore suf_just (suf_rewind suf_filter))

theorem eats_mlCommentRec : ∀ n, Eats 4 (mlCommentRec n : P O Unit)
  | 0 => eats_tooDeep
  | n + 1 => by
    refine eats_delimitedBy (i := 0) (j := 2) (k := 2) ?_ eats_beginComment eats_justStr
    refine (suf_ignored (suf_repeated (suf_choice ?_))).eats0
    intro p hp
    simp only [List.mem_cons, List.not_mem_nil, or_false] at hp
    rcases hp with rfl | rfl | rfl
    · exact suf_mlCommentRec n
    · exact suf_ignored suf_filter
    · exact suf_ignored (suf_thenIgnore suf_just (suf_rewind suf_filter))

section
variable [Offset O]

theorem suf_mlComment : Suf (mlComment : P O Unit) := fun eoi s => suf_mlCommentRec _ eoi s
theorem eats_mlComment : Eats 4 (mlComment : P O Unit) := fun eoi s x hx =>
  eats_mapErrWithSpan (eats_mlCommentRec (s.length + 1)) eoi s x hx

theorem suf_ws : Suf (ws : P O Unit) :=
  suf_mapErr (suf_orP (suf_ignored (suf_repeatedB suf_wsChar)) suf_mlComment)
theorem eats_ws : Eats 1 (ws : P O Unit) :=
  eats_mapErr (eats_orP (eats_ignored (eats_repeatedB suf_wsChar eats_wsChar (by decide) (by simp)))
    (eats_mlComment.mono (by decide)))

theorem suf_rawString : Suf (rawString : P O Str) :=
  suf_pmap (suf_bind (suf_thenIgnore (suf_ignoreThen suf_just (suf_pmap (suf_repeated suf_just))) suf_just)
    (fun _ => suf_mapErrWithSpan (suf_takeUntil (suf_ignoreThen suf_just
      (suf_ignored (suf_repeatedB suf_just))))))
theorem eats_rawString : Eats 2 (rawString : P O Str) :=
  eats_pmap (eats_bind (k := 0) (eats_thenIgnore (k := 1) (eats_ignoreThen (k := 0) eats_just
    (suf_pmap (suf_repeated suf_just)).eats0) eats_just)
    (fun _ => (suf_mapErrWithSpan (suf_takeUntil (suf_ignoreThen suf_just
      (suf_ignored (suf_repeatedB suf_just))))).eats0))

theorem suf_escChar : Suf (escChar : P O Char) :=
  suf_orP suf_filterMap (suf_ignoreThen suf_just (suf_recoverSkipUntil (suf_tryMap
    (suf_delimitedBy (suf_repeatedB suf_filterMap) suf_just suf_just))))

theorem suf_strChar : Suf (strChar : P O Char) := suf_orP suf_filter (suf_ignoreThen suf_just suf_escChar)
theorem eats_strChar : Eats 1 (strChar : P O Char) :=
  eats_orP eats_filter (eats_ignoreThen (k := 0) eats_just suf_escChar.eats0)

theorem suf_escapedString : Suf (escapedString : P O Str) :=
  suf_ignoreThen suf_just (suf_mapErrWithSpan (suf_thenIgnore (suf_repeated suf_strChar) suf_just))
theorem eats_escapedString : Eats 2 (escapedString : P O Str) :=
  eats_ignoreThen (k := 1) eats_just (eats_mapErrWithSpan
    (eats_thenIgnore (j := 0) (suf_repeated suf_strChar).eats0 eats_just))

theorem suf_string : Suf (string : P O Str) := suf_orP suf_rawString suf_escapedString
theorem eats_string : Eats 2 (string : P O Str) := eats_orP eats_rawString eats_escapedString

end

theorem suf_sign : Suf (sign : P O Char) := suf_orP suf_just suf_just
theorem eats_sign : Eats 1 (sign : P O Char) := eats_orP eats_just eats_just

theorem suf_idChar : Suf (idChar : P O Char) := suf_mapErr suf_filter
theorem eats_idChar : Eats 1 (idChar : P O Char) := eats_mapErr eats_filter
theorem suf_idSansDig : Suf (idSansDig : P O Char) := suf_mapErr suf_filter
theorem eats_idSansDig : Eats 1 (idSansDig : P O Char) := eats_mapErr eats_filter
theorem suf_idSansSignDig : Suf (idSansSignDig : P O Char) := suf_mapErr suf_filter
theorem eats_idSansSignDig : Eats 1 (idSansSignDig : P O Char) := eats_mapErr eats_filter

theorem suf_bareIdent : Suf (bareIdent : P O Str) := by
  refine suf_tryMap (suf_choice ?_)
  intro p hp
  simp only [List.mem_cons, List.not_mem_nil, or_false] at hp
  rcases hp with rfl | rfl | rfl
  · exact suf_pmap (suf_seq suf_sign (suf_seq suf_idSansDig (suf_repeated suf_idChar)))
  · exact suf_repeatedB suf_sign
  · exact suf_pmap (suf_seq suf_idSansSignDig (suf_repeated suf_idChar))

theorem eats_bareIdent : Eats 1 (bareIdent : P O Str) := by
  refine eats_tryMap (eats_choice ?_)
  intro p hp
  simp only [List.mem_cons, List.not_mem_nil, or_false] at hp
  rcases hp with rfl | rfl | rfl
  · exact eats_pmap (eats_seq (k := 0) eats_sign (suf_seq suf_idSansDig (suf_repeated suf_idChar)).eats0)
  · exact eats_repeatedB suf_sign eats_sign (by decide) (by simp)
  · exact eats_pmap (eats_seq (k := 0) eats_idSansSignDig (suf_repeated suf_idChar).eats0)

theorem suf_digit {r} : Suf (digit r : P O Char) := suf_filter
theorem eats_digit {r} : Eats 1 (digit r : P O Char) := eats_filter
theorem suf_digits {r} : Suf (digits r : P O (List Char)) := suf_repeated suf_filter
theorem suf_optSign : Suf (optSign : P O (Option Char)) := suf_orNot (suf_orP suf_just suf_just)

theorem suf_decimalNumber : Suf (decimalNumber : P O Literal) :=
  suf_pmap (suf_seq (suf_seq (suf_seq (suf_seq suf_optSign suf_digit) suf_digits)
    (suf_orNot (suf_pmap (suf_seq (suf_seq suf_just suf_digit) suf_digits))))
    (suf_orNot (suf_pmap (suf_seq (suf_seq (suf_orP suf_just suf_just) suf_optSign) suf_digits))))
theorem eats_decimalNumber : Eats 1 (decimalNumber : P O Literal) :=
  eats_pmap (eats_seq (j := 1) (k := 0) (eats_seq (j := 1) (k := 0)
    (eats_seq (j := 1) (k := 0) (eats_seq (j := 0) (k := 1) suf_optSign.eats0 eats_digit) suf_digits.eats0)
    (suf_orNot (suf_pmap (suf_seq (suf_seq suf_just suf_digit) suf_digits))).eats0)
    (suf_orNot (suf_pmap (suf_seq (suf_seq (suf_orP suf_just suf_just) suf_optSign) suf_digits))).eats0)

theorem suf_radixDigits {m r x} : Suf (radixDigits m r x : P O (Radix × List Char)) :=
  suf_ignoreThen suf_just (suf_pmap (suf_seq suf_digit suf_digits))
theorem eats_radixDigits {m r x} : Eats 2 (radixDigits m r x : P O (Radix × List Char)) :=
  eats_ignoreThen (k := 1) eats_just (eats_pmap (eats_seq (k := 0) eats_digit suf_digits.eats0))

theorem suf_radixNumber : Suf (radixNumber : P O Literal) := by
  refine suf_pmap (suf_seq (suf_thenIgnore suf_optSign suf_just) (suf_choice ?_))
  intro p hp
  simp only [List.mem_cons, List.not_mem_nil, or_false] at hp
  rcases hp with rfl | rfl | rfl <;> exact suf_radixDigits
theorem eats_radixNumber : Eats 3 (radixNumber : P O Literal) := by
  refine eats_pmap (eats_seq (j := 1) (k := 2) (eats_thenIgnore (j := 0) suf_optSign.eats0 eats_just)
    (eats_choice ?_))
  intro p hp
  simp only [List.mem_cons, List.not_mem_nil, or_false] at hp
  rcases hp with rfl | rfl | rfl <;> exact eats_radixDigits

theorem suf_number : Suf (number : P O Literal) := suf_orP suf_radixNumber suf_decimalNumber
theorem eats_number : Eats 1 (number : P O Literal) :=
  eats_orP (eats_radixNumber.mono (by decide)) eats_decimalNumber

theorem suf_keyword : Suf (keyword : P O Literal) := by
  refine suf_choice ?_
  intro p hp
  simp only [List.mem_cons, List.not_mem_nil, or_false] at hp
  rcases hp with rfl | rfl | rfl <;> exact suf_pmap (suf_mapErr suf_justStr)
theorem eats_keyword : Eats 4 (keyword : P O Literal) := by
  refine eats_choice ?_
  intro p hp
  simp only [List.mem_cons, List.not_mem_nil, or_false] at hp
  rcases hp with rfl | rfl | rfl <;>
    exact eats_pmap (eats_mapErr (eats_justStr.mono (by decide)))

theorem suf_spanned {p : P O α} (h : Suf p) : Suf (spanned p) := suf_mapWithSpan h
theorem eats_spanned {k} {p : P O α} (h : Eats k p) : Eats k (spanned p) := eats_mapWithSpan h

section
variable [Offset O]

theorem suf_ident : Suf (ident : P O Str) := by
  refine suf_tryMap (suf_choice ?_)
  intro p hp
  simp only [List.mem_cons, List.not_mem_nil, or_false] at hp
  rcases hp with rfl | rfl | rfl
  · exact suf_pmap suf_number
  · exact suf_pmap suf_bareIdent
  · exact suf_pmap suf_string
theorem eats_ident : Eats 1 (ident : P O Str) := by
  refine eats_tryMap (eats_choice ?_)
  intro p hp
  simp only [List.mem_cons, List.not_mem_nil, or_false] at hp
  rcases hp with rfl | rfl | rfl
  · exact eats_pmap eats_number
  · exact eats_pmap eats_bareIdent
  · exact eats_pmap (eats_string.mono (by decide))

theorem suf_literal : Suf (literal : P O Literal) := by
  refine suf_choice ?_
  intro p hp
  simp only [List.mem_cons, List.not_mem_nil, or_false] at hp
  rcases hp with rfl | rfl | rfl
  · exact suf_pmap suf_string
  · exact suf_keyword
  · exact suf_number
theorem eats_literal : Eats 1 (literal : P O Literal) := by
  refine eats_choice ?_
  intro p hp
  simp only [List.mem_cons, List.not_mem_nil, or_false] at hp
  rcases hp with rfl | rfl | rfl
  · exact eats_pmap (eats_string.mono (by decide))
  · exact eats_keyword.mono (by decide)
  · exact eats_number

theorem suf_typeName : Suf (typeName : P O TypeName) := suf_pmap (suf_delimitedBy suf_ident suf_just suf_just)
theorem eats_typeName : Eats 3 (typeName : P O TypeName) :=
  eats_pmap (eats_delimitedBy eats_ident eats_just eats_just)

theorem suf_escLine : Suf (escLine : P O Unit) :=
  suf_ignoreThen (suf_ignoreThen suf_just (suf_repeated suf_ws)) (suf_orP suf_comment suf_newline)
theorem eats_escLine : Eats 2 (escLine : P O Unit) :=
  eats_ignoreThen (j := 1) (k := 1) (eats_ignoreThen (k := 0) eats_just (suf_repeated suf_ws).eats0)
    (eats_orP (eats_comment.mono (by decide)) eats_newline)

theorem suf_nodeSpace : Suf (nodeSpace : P O Unit) := suf_orP suf_ws suf_escLine
theorem eats_nodeSpace : Eats 1 (nodeSpace : P O Unit) := eats_orP eats_ws (eats_escLine.mono (by decide))

theorem suf_nodeTerminator : Suf (nodeTerminator : P O Unit) := by
  refine suf_choice ?_
  intro p hp
  simp only [List.mem_cons, List.not_mem_nil, or_false] at hp
  rcases hp with rfl | rfl | rfl | rfl
  · exact suf_newline
  · exact suf_comment
  · exact suf_ignored suf_just
  · exact suf_endP

theorem suf_typeNameValue : Suf (typeNameValue : P O (Value (Sp O))) :=
  suf_pmap (suf_seq (suf_spanned suf_typeName) (suf_spanned suf_literal))
theorem eats_typeNameValue : Eats 4 (typeNameValue : P O (Value (Sp O))) :=
  eats_pmap (eats_seq (eats_spanned eats_typeName) (eats_spanned eats_literal))

theorem suf_value : Suf (value : P O (Value (Sp O))) :=
  suf_orP suf_typeNameValue (suf_pmap (suf_spanned suf_literal))
theorem eats_value : Eats 1 (value : P O (Value (Sp O))) :=
  eats_orP (eats_typeNameValue.mono (by decide)) (eats_pmap (eats_spanned eats_literal))

theorem suf_optValue : Suf (optValue : P O (Option (Value (Sp O)))) :=
  suf_orNot (suf_ignoreThen suf_just suf_value)

theorem suf_propOrArgInner : Suf (propOrArgInner : P O (PropOrArg (Sp O))) := by
  refine suf_choice ?_
  intro p hp
  simp only [List.mem_cons, List.not_mem_nil, or_false] at hp
  rcases hp with rfl | rfl | rfl
  · exact suf_tryMap (suf_seq (suf_spanned suf_literal) suf_optValue)
  · exact suf_pmap (suf_validate (suf_seq (suf_spanned suf_bareIdent) suf_optValue))
  · exact suf_pmap suf_typeNameValue
theorem eats_propOrArgInner : Eats 1 (propOrArgInner : P O (PropOrArg (Sp O))) := by
  refine eats_choice ?_
  intro p hp
  simp only [List.mem_cons, List.not_mem_nil, or_false] at hp
  rcases hp with rfl | rfl | rfl
  · exact eats_tryMap (eats_seq (k := 0) (eats_spanned eats_literal) suf_optValue.eats0)
  · exact eats_pmap (eats_validate (eats_seq (k := 0) (eats_spanned eats_bareIdent) suf_optValue.eats0))
  · exact eats_pmap (eats_typeNameValue.mono (by decide))

theorem suf_propOrArg : Suf (propOrArg : P O (PropOrArg (Sp O))) :=
  suf_orP (suf_pmap (suf_ignoreThen (suf_ignoreThen suf_beginComment (suf_repeated suf_nodeSpace))
    suf_propOrArgInner)) suf_propOrArgInner
theorem eats_propOrArg : Eats 1 (propOrArg : P O (PropOrArg (Sp O))) :=
  eats_orP (eats_pmap (eats_ignoreThen (j := 0) (k := 1)
    (suf_ignoreThen suf_beginComment (suf_repeated suf_nodeSpace)).eats0
    eats_propOrArgInner)) eats_propOrArgInner

theorem suf_lineSpace : Suf (lineSpace : P O Unit) := suf_orP (suf_orP suf_newline suf_ws) suf_comment
theorem eats_lineSpace : Eats 1 (lineSpace : P O Unit) :=
  eats_orP (eats_orP eats_newline eats_ws) (eats_comment.mono (by decide))

theorem suf_spaceEntry : Suf (spaceEntry : P O (PropOrArg (Sp O))) :=
  suf_ignoreThen (suf_repeatedB suf_nodeSpace) suf_propOrArg
theorem eats_spaceEntry : Eats 1 (spaceEntry : P O (PropOrArg (Sp O))) :=
  eats_ignoreThen (j := 0) (suf_repeatedB suf_nodeSpace).eats0 eats_propOrArg

variable {inner : P O (List (SpannedNode (Sp O)))}

theorem suf_bracedNodes (h : Suf inner) : Suf (bracedNodes inner) :=
  suf_ignoreThen suf_just (suf_mapErrWithSpan (suf_thenIgnore h suf_just))

theorem suf_optChildren (h : Suf inner) : Suf (optChildren inner) :=
  suf_orNot (suf_seq (suf_ignoreThen (suf_repeated suf_nodeSpace)
    (suf_orNot (suf_thenIgnore suf_beginComment (suf_repeated suf_nodeSpace))))
    (suf_spanned (suf_bracedNodes h)))

theorem suf_node (h : Suf inner) : Suf (node inner) :=
  suf_pmap (suf_thenIgnore (suf_seq (suf_seq (suf_seq (suf_orNot (suf_spanned suf_typeName))
    (suf_spanned suf_ident)) (suf_repeated suf_spaceEntry)) (suf_optChildren h))
    (suf_seq (suf_repeated suf_nodeSpace) suf_nodeTerminator))
theorem eats_node (h : Suf inner) : Eats 1 (node inner) :=
  eats_pmap (eats_thenIgnore (j := 1) (k := 0) (eats_seq (j := 1) (k := 0) (eats_seq (j := 1) (k := 0)
    (eats_seq (j := 0) (k := 1) (suf_orNot (suf_spanned suf_typeName)).eats0
    (eats_spanned eats_ident)) (suf_repeated suf_spaceEntry).eats0) (suf_optChildren h).eats0)
    (suf_seq (suf_repeated suf_nodeSpace) suf_nodeTerminator).eats0)

theorem suf_nodeItem (h : Suf inner) : Suf (nodeItem inner) :=
  suf_seq (suf_orNot (suf_thenIgnore suf_beginComment (suf_repeated suf_nodeSpace)))
    (suf_spanned (suf_node h))
theorem eats_nodeItem (h : Suf inner) : Eats 1 (nodeItem inner) :=
  eats_seq (j := 0) (k := 1) (suf_orNot (suf_thenIgnore suf_beginComment (suf_repeated suf_nodeSpace))).eats0
    (eats_spanned (eats_node h))

theorem suf_nodesRec : ∀ n, Suf (nodesRec n : P O (List (SpannedNode (Sp O))))
  | 0 => suf_tooDeep
  | n + 1 => suf_pmap (suf_separatedBy (suf_nodeItem (suf_nodesRec n)) (suf_repeated suf_lineSpace))

theorem suf_nodes : Suf (nodes : P O (List (SpannedNode (Sp O)))) := fun eoi s => suf_nodesRec _ eoi s

theorem suf_document : Suf (document : P O (Document (Sp O))) := suf_pmap (suf_thenIgnore suf_nodes suf_endP)

end

end Knuffel
