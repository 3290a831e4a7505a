import Verif.Theory.Unique
/-! Lemmas for C86: a text is that of at most one literal, name or entry. -/

set_option linter.unusedSimpArgs false

namespace Knuffel
open Cst

/-- The characters as tokens. -/
def plainToks (w : Str) : List (Tok Nat) := w.map fun c => (c, ⟨0, 0⟩)

theorem chars_plain (w : Str) : chars (plainToks w) = w := by
  unfold chars plainToks
  rw [List.map_map]
  exact List.map_id _

theorem takes_plain (a f : Str) : Takes (plainToks (a ++ f)) a (plainToks f) :=
  ⟨plainToks a, by simp [plainToks], chars_plain a⟩

/-- What the same parser reads of the same text is the same. -/
theorem uniq_read {α : Type} {p : P Nat α} {eoi : Sp Nat} {a b f g : Str} {va vb : α} (h : a ++ f = b ++ g)
    (ha : ∀ s t, Takes s a t → chars t = f → Ok p eoi s va t) (hb : ∀ s t, Takes s b t → chars t = g → Ok p eoi s vb t) :
    va = vb ∧ f = g := by
  have h1 := ha _ _ (takes_plain a f) (chars_plain f)
  have h2 := hb _ _ (takes_plain b g) (chars_plain g)
  rw [h] at h1
  obtain ⟨e1, e2⟩ := h1.unique h2
  exact ⟨e1, by rw [← chars_plain f, e2, chars_plain]⟩

/-- An end of input. -/
def anyEoi : Sp Nat := ⟨0, 0⟩

theorem uniq_strChar {x y : StrChar} {f g : Str} (hx : x.Ok) (hy : y.Ok) (h : x.text ++ f = y.text ++ g) : x = y ∧ f = g := by
  have hu : 'u' ∉ escapes.map Prod.fst := by decide
  cases x with
  | plain c =>
    cases y with
    | plain d => simpa [StrChar.text] using h
    | esc d => simp [StrChar.text] at h; exact absurd h.1 hx.2
    | unicode w => simp [StrChar.text] at h; exact absurd h.1 hx.2
  | esc c =>
    cases y with
    | plain d => simp [StrChar.text] at h; exact absurd h.1.symm hy.2
    | esc d => simpa [StrChar.text] using h
    | unicode w =>
      simp only [StrChar.text, List.cons_append, List.cons.injEq, true_and] at h
      rw [StrChar.Ok, h.1] at hx; exact absurd hx hu
  | unicode v =>
    cases y with
    | plain d => simp [StrChar.text] at h; exact absurd h.1.symm hy.2
    | esc d =>
      simp only [StrChar.text, List.cons_append, List.cons.injEq, true_and] at h
      rw [StrChar.Ok, ← h.1] at hy; exact absurd hy hu
    | unicode w =>
      simp only [StrChar.text, List.cons_append, List.append_assoc, List.cons.injEq, true_and, List.nil_append] at h
      have hb : ∀ z : Str, ∀ c, ('}' :: z).head? = some c → ¬ c ∈ hexDigits.map Prod.fst := by
        intro z c hc; simp at hc; subst hc; decide
      replace h := cut_unique (Q := fun c => c ∈ hexDigits.map Prod.fst) h hx.2.2.1 hy.2.2.1 (hb f) (hb g)
      obtain ⟨rfl, h⟩ := h
      exact ⟨rfl, by simpa using h⟩

theorem strChar_quote {x : StrChar} {f g : Str} (hx : x.Ok) (h : x.text ++ f = '"' :: g) : False := by
  cases x with
  | plain c => simp [StrChar.text] at h; exact hx.1 h.1
  | esc c => simp [StrChar.text] at h
  | unicode c => simp [StrChar.text] at h

theorem uniq_strChars : ∀ {l m : List StrChar} {f g : Str}, (∀ x ∈ l, x.Ok) → (∀ x ∈ m, x.Ok) →
    l.flatMap StrChar.text ++ '"' :: f = m.flatMap StrChar.text ++ '"' :: g → l = m ∧ f = g
  | [], [], _, _, _, _, h => by simpa using h
  | [], x :: m, f, g, _, hm, h => by
    simp only [List.flatMap_nil, List.nil_append, List.flatMap_cons, List.append_assoc] at h
    exact (strChar_quote (hm x (by simp)) h.symm).elim
  | x :: l, [], f, g, hl, _, h => by
    simp only [List.flatMap_nil, List.nil_append, List.flatMap_cons, List.append_assoc] at h
    exact (strChar_quote (hl x (by simp)) h).elim
  | x :: l, y :: m, f, g, hl, hm, h => by
    simp only [List.flatMap_cons, List.append_assoc] at h
    replace h := uniq_strChar (hl x (by simp)) (hm y (by simp)) h
    obtain ⟨rfl, h⟩ := h
    replace h := uniq_strChars (fun z hz => hl z (by simp [hz])) (fun z hz => hm z (by simp [hz])) h
    obtain ⟨rfl, h⟩ := h
    exact ⟨rfl, h⟩

theorem uniq_quoted {l m : List StrChar} {f g : Str} (hl : ∀ x ∈ l, x.Ok) (hm : ∀ x ∈ m, x.Ok)
    (h : quotedText l ++ f = quotedText m ++ g) : l = m ∧ f = g := by
  simp only [quotedText, List.cons_append, List.append_assoc, List.cons.injEq, true_and, List.nil_append] at h
  exact uniq_strChars hl hm h

theorem uniq_str {x y : StrLit} {f g : Str} (hx : x.Ok) (hy : y.Ok) (h : x.text ++ f = y.text ++ g) : x = y ∧ f = g := by
  have key := uniq_read (p := string) (eoi := anyEoi) (va := x.value) (vb := y.value) h
    (fun s t hT _ => ok_string.2 ⟨x, hx, rfl, hT⟩) (fun s t hT _ => ok_string.2 ⟨y, hy, rfl, hT⟩)
  cases x with
  | quoted l =>
    cases y with
    | quoted m =>
      replace h := uniq_quoted hx hy h
      obtain ⟨rfl, h⟩ := h
      exact ⟨rfl, h⟩
    | raw n b => simp [StrLit.text, quotedText] at h
  | raw n b =>
    cases y with
    | quoted m => simp [StrLit.text, quotedText] at h
    | raw m c =>
      obtain ⟨e1, e2⟩ := key
      simp only [StrLit.value] at e1
      subst e1 e2
      have := congrArg List.length h
      simp [StrLit.text, rawClose] at this
      have hnm : n = m := by omega
      exact ⟨by rw [hnm], rfl⟩

/-! ### Numbers -/

theorem uniq_sign {s s' : Option Char} {d d' : Char} {x y : Str} (hs : SignOk s) (hs' : SignOk s') (hd : d ∈ Cst.radixDigits .hex)
    (hd' : d' ∈ Cst.radixDigits .hex) (h : s.toList ++ d :: x = s'.toList ++ d' :: y) : s = s' ∧ d = d' ∧ x = y := by
  have hp : '+' ∉ Cst.radixDigits .hex := by decide
  have hm : '-' ∉ Cst.radixDigits .hex := by decide
  rcases hs with rfl | rfl | rfl <;> rcases hs' with rfl | rfl | rfl <;> simp at h <;> first
    | (obtain ⟨rfl, rfl⟩ := h; exact ⟨rfl, rfl, rfl⟩)
    | (obtain ⟨rfl, _⟩ := h; contradiction)

theorem decDigits_hex {d : Char} (h : d ∈ decDigits) : d ∈ Cst.radixDigits .hex := by
  have : ∀ d ∈ decDigits, d ∈ Cst.radixDigits .hex := by decide
  exact this d h

theorem uniq_exp {ex ex' : Option (Char × Option Char × Str)}
    (hf : ∀ e s' ds', ex = some (e, s', ds') → (e = 'e' ∨ e = 'E') ∧ SignOk s' ∧ DigitsOk .dec ds')
    (hg : ∀ e s' ds', ex' = some (e, s', ds') → (e = 'e' ∨ e = 'E') ∧ SignOk s' ∧ DigitsOk .dec ds')
    (h : expText ex = expText ex') : ex = ex' := by
  cases ex with
  | none =>
    cases ex' with
    | none => rfl
    | some x => simp [expText] at h
  | some x =>
    obtain ⟨e, s, ds⟩ := x
    cases ex' with
    | none => simp [expText] at h
    | some y =>
      obtain ⟨e', s', ds'⟩ := y
      obtain ⟨_, h1, h2⟩ := hf e s ds rfl
      obtain ⟨_, h3, h4⟩ := hg e' s' ds' rfl
      simp only [expText, List.cons_append, List.cons.injEq] at h
      obtain ⟨rfl, h⟩ := h
      have hp : ¬ ('+' ∈ Cst.radixDigits .dec ∨ '+' = '_') := by decide
      have hm : ¬ ('-' ∈ Cst.radixDigits .dec ∨ '-' = '_') := by decide
      rcases h1 with rfl | rfl | rfl <;> rcases h3 with rfl | rfl | rfl <;> simp at h <;> first
        | (subst h; rfl)
        | (subst h; exact absurd (h2 _ List.mem_cons_self) (by assumption))
        | (subst h; exact absurd (h4 _ List.mem_cons_self) (by assumption))

theorem uniq_num {n m : Num} (hn : n.Ok) (hm : m.Ok) (hv : n.value = m.value) (h : n.text = m.text) : n = m := by
  cases n with
  | dec s d ds fr ex =>
    obtain ⟨h1, h2, h3, h4, h5⟩ := hn
    cases m with
    | radix s' r' d' ds' =>
      obtain ⟨_, g, _⟩ := hm
      simp only [Num.value] at hv
      split at hv
      · cases hv
      · simp only [Literal.int.injEq] at hv
        exact absurd hv.1.symm g
    | dec s' d' ds' fr' ex' =>
      obtain ⟨g1, g2, g3, g4, g5⟩ := hm
      simp only [Num.text, List.append_assoc, List.cons_append] at h
      replace h := uniq_sign h1 g1 (decDigits_hex h2) (decDigits_hex g2) h; obtain ⟨rfl, rfl, h⟩ := h
      have hend : ∀ {ex : Option (Char × Option Char × Str)},
          (∀ e s' ds', ex = some (e, s', ds') → (e = 'e' ∨ e = 'E') ∧ SignOk s' ∧ DigitsOk .dec ds') →
          ∀ c, (expText ex).head? = some c → ¬ (c ∈ Cst.radixDigits .dec ∨ c = '_') := by
        intro ex he c hc
        rcases expText_head he hc with rfl | rfl <;> decide
      have hend2 : ∀ {fr : Option (Char × Str)} {ex : Option (Char × Option Char × Str)},
          (∀ e s' ds', ex = some (e, s', ds') → (e = 'e' ∨ e = 'E') ∧ SignOk s' ∧ DigitsOk .dec ds') →
          ∀ c, (fracText fr ++ expText ex).head? = some c → ¬ (c ∈ Cst.radixDigits .dec ∨ c = '_') := by
        intro fr ex he c hc
        rcases head_append hc with hc | ⟨_, hc⟩
        · rw [fracText_head hc]; decide
        · exact hend he c hc
      replace h := cut_unique (Q := fun c => c ∈ Cst.radixDigits .dec ∨ c = '_') h h3 g3 (hend2 h5) (hend2 g5); obtain ⟨rfl, h⟩ := h
      have hfr : fr = fr' ∧ expText ex = expText ex' := by
        have dot : ∀ {ex : Option (Char × Option Char × Str)} {w : Str},
          (∀ e s' ds', ex = some (e, s', ds') → (e = 'e' ∨ e = 'E') ∧ SignOk s' ∧ DigitsOk .dec ds') →
          '.' :: w ≠ expText ex := by
          intro ex w he hw
          have := expText_head he (c := '.') (by rw [← hw]; rfl)
          revert this; decide
        cases fr with
        | none =>
          cases fr' with
          | none => exact ⟨rfl, h⟩
          | some y => exact absurd h.symm (dot h5)
        | some x =>
          cases fr' with
          | none => exact absurd h (dot g5)
          | some y =>
            obtain ⟨a, as⟩ := x
            obtain ⟨b, bs⟩ := y
            simp only [fracText, List.cons_append, List.cons.injEq, true_and] at h
            obtain ⟨rfl, h⟩ := h
            replace h := cut_unique (Q := fun c => c ∈ Cst.radixDigits .dec ∨ c = '_') h (h4 _ _ rfl).2 (g4 _ _ rfl).2 (hend h5) (hend g5); obtain ⟨rfl, h⟩ := h
            exact ⟨rfl, h⟩
      obtain ⟨rfl, h'⟩ := hfr
      rw [uniq_exp h5 g5 h']
  | radix s r d ds =>
    obtain ⟨h1, h2, h3, h4⟩ := hn
    cases m with
    | dec s' d' ds' fr' ex' =>
      simp only [Num.value] at hv
      split at hv
      · cases hv
      · simp only [Literal.int.injEq] at hv
        exact absurd hv.1 h2
    | radix s' r' d' ds' =>
      obtain ⟨g1, g2, g3, g4⟩ := hm
      simp only [Num.value, Literal.int.injEq] at hv
      obtain ⟨rfl, _⟩ := hv
      simp only [Num.text] at h
      replace h := uniq_sign h1 g1 (by decide) (by decide) h; obtain ⟨rfl, _, h⟩ := h
      simp only [List.cons.injEq, true_and] at h
      obtain ⟨rfl, rfl⟩ := h
      rfl

theorem uniq_lit {l m : Lit} {f g : Str} (hl : l.Ok) (hm : m.Ok) (hf : EndTok f) (hg : EndTok g)
    (h : l.text ++ f = m.text ++ g) : l = m ∧ f = g := by
  obtain ⟨hv, rfl⟩ := uniq_read (p := literal) (eoi := anyEoi) (va := l.value) (vb := m.value) h
    (fun s t hT e => literal_complete hl hT (Or.inl (by rw [e]; exact hf.numEnd')))
    (fun s t hT e => literal_complete hm hT (Or.inl (by rw [e]; exact hg.numEnd')))
  refine ⟨?_, rfl⟩
  have hnum : ∀ n : Num, (∃ r s, n.value = .int r s) ∨ ∃ s, n.value = .decimal s := by
    intro n
    cases n with
    | dec s d ds fr ex => simp only [Num.value]; split <;> simp
    | radix s r d ds => simp [Num.value]
  have ht := List.append_cancel_right h
  cases l with
  | str x =>
    cases m with
    | str y =>
      rw [(uniq_str (f := f) (g := f) hl hm h).1]
    | null => cases hv
    | bool b => cases hv
    | num n => rcases hnum n with ⟨r, s, e⟩ | ⟨s, e⟩ <;> simp [Lit.value, e] at hv
  | null =>
    cases m with
    | str y => cases hv
    | null => rfl
    | bool b => cases hv
    | num n => rcases hnum n with ⟨r, s, e⟩ | ⟨s, e⟩ <;> simp [Lit.value, e] at hv
  | bool b =>
    cases m with
    | str y => cases hv
    | null => cases hv
    | bool c => cases hv; rfl
    | num n => rcases hnum n with ⟨r, s, e⟩ | ⟨s, e⟩ <;> simp [Lit.value, e] at hv
  | num n =>
    cases m with
    | str y => rcases hnum n with ⟨r, s, e⟩ | ⟨s, e⟩ <;> simp [Lit.value, e] at hv
    | null => rcases hnum n with ⟨r, s, e⟩ | ⟨s, e⟩ <;> simp [Lit.value, e] at hv
    | bool c => rcases hnum n with ⟨r, s, e⟩ | ⟨s, e⟩ <;> simp [Lit.value, e] at hv
    | num k => rw [uniq_num hl hm hv ht]

/-! ### Names and entries -/

theorem ident_cut {v w f g : Str} (hv : IdentShape v) (hw : IdentShape w) (hf : IdentEnd f) (hg : IdentEnd g)
    (h : v ++ f = w ++ g) : v = w ∧ f = g :=
  cut_unique (Q := fun c => IdentChar c ∨ c = '!') h (fun _ hc => identShape_mem hv hc) (fun _ hc => identShape_mem hw hc)
    (fun c hc => by have := hf c hc; simpa [not_or] using this) (fun c hc => by have := hg c hc; simpa [not_or] using this)

theorem ident_begins {v f g : Str} {c : Char} (hv : IdentShape v) (hc : c ∈ punct) : v ++ f ≠ c :: g := by
  intro h
  cases v with
  | nil => exact hv
  | cons d v =>
    simp at h
    exact identShape_not_mem hv hc (by simp [h.1])

theorem uniq_name {n m : Name} {f g : Str} (hn : n.Ok) (hm : m.Ok) (hf : IdentEnd f ∨ ∃ l, n = .quoted l)
    (hg : IdentEnd g ∨ ∃ l, m = .quoted l) (h : n.text ++ f = m.text ++ g) : n = m ∧ f = g := by
  cases n with
  | bare v =>
    cases m with
    | bare w =>
      replace h := ident_cut hn.1 hm.1 (by simpa using hf) (by simpa using hg) h; obtain ⟨rfl, h⟩ := h
      exact ⟨rfl, h⟩
    | quoted l => exact (ident_begins hn.1 (c := '"') (by decide) h).elim
  | quoted l =>
    cases m with
    | bare w => exact (ident_begins hm.1 (c := '"') (by decide) h.symm).elim
    | quoted k =>
      replace h := uniq_quoted hn hm h
      obtain ⟨rfl, h⟩ := h
      exact ⟨rfl, h⟩

theorem identEnd_paren {f : Str} : IdentEnd (')' :: f) := by
  intro c hc
  simp at hc; subst hc
  exact ⟨fun h => h.2.1 (by decide), by decide⟩

theorem uniq_ty {n m : Option Name} {f g : Str} (hn : TyOk n) (hm : TyOk m) (hf : f.head? ≠ some '(') (hg : g.head? ≠ some '(')
    (h : tyText n ++ f = tyText m ++ g) : n = m ∧ f = g := by
  cases n with
  | none =>
    cases m with
    | none => exact ⟨rfl, h⟩
    | some b => exact absurd (by rw [show f = tyText (some b) ++ g from h]; rfl) hf
  | some a =>
    cases m with
    | none => exact absurd (by rw [show g = tyText (some a) ++ f from h.symm]; rfl) hg
    | some b =>
      simp only [tyText, List.cons_append, List.append_assoc, List.cons.injEq, true_and, List.nil_append] at h
      replace h := uniq_name hn hm (Or.inl identEnd_paren) (Or.inl identEnd_paren) h
      obtain ⟨rfl, h⟩ := h
      exact ⟨rfl, by simpa using h⟩

theorem uniq_val {v w : Val} {f g : Str} (hv : v.Ok) (hw : w.Ok) (hf : EndTok f) (hg : EndTok g)
    (h : v.text ++ f = w.text ++ g) : v = w ∧ f = g := by
  have key : ∀ {l : Lit} {x : Str}, l.Ok → (l.text ++ x).head? ≠ some '(' := by
    intro l x hl hh
    obtain ⟨c, rest, h1, h2⟩ := lit_head hl
    rw [h1] at hh
    simp at hh; subst hh
    revert h2; decide
  obtain ⟨ty, l⟩ := v
  obtain ⟨ty', l'⟩ := w
  simp only [Val.text, List.append_assoc] at h
  replace h := uniq_ty hv.1 hw.1 (key hv.2) (key hw.2) h
  obtain ⟨rfl, h⟩ := h
  replace h := uniq_lit hv.2 hw.2 hf hg h
  obtain ⟨rfl, h⟩ := h
  exact ⟨rfl, h⟩

theorem uniq_propName {n m : PropName} {f g : Str} (hn : n.Ok) (hm : m.Ok) (h : n.text ++ '=' :: f = m.text ++ '=' :: g) :
    n = m ∧ f = g := by
  have key : ∀ {v : Str} {s : StrLit} {f g : Str}, IdentShape v → v ++ '=' :: f = s.text ++ g → False := by
    intro v s f g hv h
    cases s with
    | quoted l => exact ident_begins hv (c := '"') (by decide) h
    | raw n b =>
      have hq : ∀ c, ('"' :: (b ++ rawClose n ++ g)).head? = some c → ¬ (IdentChar c ∨ c = '!') := by
        intro c hc
        simp at hc; subst hc
        rintro (h | h)
        · exact h.2.1 (by decide)
        · revert h; decide
      have := cut_unique (Q := fun c => IdentChar c ∨ c = '!') (a := v) (b := 'r' :: List.replicate n '#') (x := '=' :: f)
        (y := '"' :: (b ++ rawClose n ++ g)) (by rw [h]; simp [StrLit.text]) (fun _ hc => identShape_mem hv hc)
        (by
          intro c hc
          left
          rw [← isIdChar_iff]
          simp at hc
          rcases hc with rfl | ⟨_, rfl⟩ <;> decide)
        (fun c hc => by have := identEnd_eq (f := f) c hc; simpa [not_or] using this) hq
      simp at this
  cases n with
  | bare v =>
    cases m with
    | bare w =>
      replace h := ident_cut hn.1.1 hm.1.1 identEnd_eq identEnd_eq h; obtain ⟨rfl, h⟩ := h
      exact ⟨rfl, by simpa using h⟩
    | str s => exact (key hn.1.1 h).elim
  | str s =>
    cases m with
    | bare w => exact (key hm.1.1 h.symm).elim
    | str s' =>
      replace h := uniq_str hn hm h
      obtain ⟨rfl, h⟩ := h
      exact ⟨rfl, by simpa using h⟩

theorem uniq_entry {d e : Entry} {f g : Str} (hd : d.Ok) (he : e.Ok) (hf : EndTok f) (hg : EndTok g)
    (h : d.text ++ f = e.text ++ g) : d = e ∧ f = g := by
  have hc : ∀ {e : Entry} {f : Str}, e.Ok → EndTok f →
      Ok propOrArgInner anyEoi (plainToks (e.text ++ f)) (entryValue (spf anyEoi (plainToks (e.text ++ f))) 0 e) (plainToks f) :=
    fun he hf => propOrArgInner_complete rfl he (takes_plain _ _) (by rw [chars_plain]; exact hf)
  have h1 := hc hd hf
  have h2 := hc he hg
  rw [h] at h1
  obtain ⟨hv, ht⟩ := h1.unique h2
  cases d with
  | arg v =>
    cases e with
    | arg w =>
      replace h := uniq_val hd he hf hg h
      obtain ⟨rfl, h⟩ := h
      exact ⟨rfl, h⟩
    | prop n w => cases hv
  | prop n v =>
    cases e with
    | arg w => cases hv
    | prop m w =>
      simp only [Entry.text, List.append_assoc, List.cons_append] at h
      replace h := uniq_propName hd.1 he.1 h
      obtain ⟨rfl, h⟩ := h
      replace h := uniq_val hd.2 he.2 hf hg h
      obtain ⟨rfl, h⟩ := h
      exact ⟨rfl, h⟩

end Knuffel
