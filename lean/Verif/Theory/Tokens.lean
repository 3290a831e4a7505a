import Verif.Theory.Strings
/-!
# Numbers, identifiers and literals: the parser against the specification
-/

set_option linter.unusedSimpArgs false
set_option linter.unusedSectionVars false

namespace Knuffel

open Cst (StrChar StrLit Num Lit Name)

variable {O α β γ : Type}

/-! ### Digits -/

theorem isDigit10_iff {c : Char} : isDigit 10 c = true ↔ c ∈ Cst.radixDigits .dec := by
  have h10 : Cst.radixDigits .dec = ['0','1','2','3','4','5','6','7','8','9'] := by decide
  rw [h10]
  simp only [isDigit, digitVal, inRange, List.mem_cons,
    List.not_mem_nil, char_eq_iff, Bool.and_eq_true, decide_eq_true_eq]
  simp only [Char.reduceToNat, or_false]
  split
  · rename_i h
    split at h
    · injection h with h; subst h; simp; omega
    · split at h
      · injection h with h; subst h; simp; omega
      · split at h
        · injection h with h; subst h; simp; omega
        · simp at h
  · rename_i h
    split at h
    · simp at h
    · simp; omega

theorem isDigit8_iff {c : Char} : isDigit 8 c = true ↔ c ∈ Cst.radixDigits .oct := by
  have h10 : Cst.radixDigits .oct = ['0','1','2','3','4','5','6','7'] := by decide
  rw [h10]
  simp only [isDigit, digitVal, inRange, List.mem_cons,
    List.not_mem_nil, char_eq_iff, Bool.and_eq_true, decide_eq_true_eq]
  simp only [Char.reduceToNat, or_false]
  split
  · rename_i h
    split at h
    · injection h with h; subst h; simp; omega
    · split at h
      · injection h with h; subst h; simp; omega
      · split at h
        · injection h with h; subst h; simp; omega
        · simp at h
  · rename_i h
    split at h
    · simp at h
    · simp; omega

theorem isDigit2_iff {c : Char} : isDigit 2 c = true ↔ c ∈ Cst.radixDigits .bin := by
  have h10 : Cst.radixDigits .bin = ['0','1'] := by decide
  rw [h10]
  simp only [isDigit, digitVal, inRange, List.mem_cons,
    List.not_mem_nil, char_eq_iff, Bool.and_eq_true, decide_eq_true_eq]
  simp only [Char.reduceToNat, or_false]
  split
  · rename_i h
    split at h
    · injection h with h; subst h; simp; omega
    · split at h
      · injection h with h; subst h; simp; omega
      · split at h
        · injection h with h; subst h; simp; omega
        · simp at h
  · rename_i h
    split at h
    · simp at h
    · simp; omega

/-- The base of a radix. -/
def radixBase : Radix → Nat
  | .bin => 2 | .oct => 8 | .dec => 10 | .hex => 16

theorem isDigit_iff {r : Radix} {c : Char} :
    isDigit (radixBase r) c = true ↔ c ∈ Cst.radixDigits r := by
  cases r
  case dec => exact isDigit10_iff
  case hex => exact isDigit16_iff
  case oct => exact isDigit8_iff
  case bin => exact isDigit2_iff

theorem ok_digit {r : Radix} {eoi : Sp O} {s a t} :
    Ok (digit (radixBase r)) eoi s a t ↔ Takes s [a] t ∧ a ∈ Cst.radixDigits r := by
  unfold digit
  rw [ok_filter_takes, isDigit_iff]

theorem ok_digits {r : Radix} {eoi : Sp O} {s as t} :
    Ok (digits (radixBase r)) eoi s as t ↔ Takes s as t ∧ Cst.DigitsOk r as ∧
      ∀ c, (chars t).head? = some c → c ∉ Cst.radixDigits r ∧ c ≠ '_' := by
  unfold digits
  rw [ok_repeated_filter]
  unfold Cst.DigitsOk
  refine and_congr_right fun _ => and_congr ?_ ?_
  · refine forall_congr' fun c => imp_congr_right fun _ => ?_
    simp only [Bool.or_eq_true, beq_iff_eq, isDigit_iff]
    exact or_comm
  · refine forall_congr' fun c => imp_congr_right fun _ => ?_
    simp only [Bool.or_eq_false_iff, ← isDigit_iff]
    simp [and_comm]

theorem ok_optSign {eoi : Sp O} {s o t} :
    Ok optSign eoi s o t ↔ Cst.SignOk o ∧ Takes s o.toList t ∧
      (o = none → (chars s).head? ≠ some '-' ∧ (chars s).head? ≠ some '+') := by
  unfold optSign Cst.SignOk
  rw [ok_orNot]
  constructor
  · rintro (⟨a, rfl, h⟩ | ⟨rfl, rfl, h⟩)
    · rcases ok_orP.1 h with h | ⟨_, h⟩
      · obtain ⟨hT, rfl⟩ := ok_just_takes.1 h
        exact ⟨by simp, hT, by simp⟩
      · obtain ⟨hT, rfl⟩ := ok_just_takes.1 h
        exact ⟨by simp, hT, by simp⟩
    · rw [fails_orP, fails_just_head, fails_just_head] at h
      exact ⟨by simp, .nil, fun _ => h⟩
  · rintro ⟨ho, hT, hn⟩
    rcases ho with rfl | rfl | rfl
    · right
      have := takes_nil.1 hT
      subst this
      exact ⟨rfl, rfl, fails_orP.2 ⟨fails_just_head.2 (hn rfl).1, fails_just_head.2 (hn rfl).2⟩⟩
    · left
      refine ⟨'+', rfl, ok_orP_right ?_ (ok_just_takes.2 ⟨hT, rfl⟩)⟩
      rw [fails_just_head, hT.chars]; simp
    · left
      exact ⟨'-', rfl, ok_orP_left (ok_just_takes.2 ⟨hT, rfl⟩)⟩

/-! ### Numbers -/

theorem any_point {sg : Option Char} {d : Char} {ds : Str} {fr : Option (Char × Str)}
    {ex : Option (Char × Option Char × Str)} (h : (Num.dec sg d ds fr ex).Ok) :
    ((sg.toList ++ d :: ds ++ Cst.fracText fr ++ Cst.expText ex).any
      (fun c => c == '.' || c == 'e' || c == 'E')) = (fr.isSome || ex.isSome) := by
  obtain ⟨h1, h2, h3, h4, h5⟩ := h
  have hd : ∀ c, c ∈ Cst.radixDigits .dec ∨ c = '_' → (c == '.' || c == 'e' || c == 'E') = false := by
    intro c hc
    rcases hc with hc | rfl
    · revert c; decide
    · rfl
  have hpre : (sg.toList ++ d :: ds).any (fun c => c == '.' || c == 'e' || c == 'E') = false := by
    rw [List.any_eq_false]
    intro c hc
    simp only [Bool.not_eq_true]
    rcases List.mem_append.1 hc with hc | hc
    · rcases h1 with rfl | rfl | rfl
      · simp at hc
      · simp at hc; subst hc; rfl
      · simp at hc; subst hc; rfl
    · rcases List.mem_cons.1 hc with rfl | hc
      · exact hd _ (Or.inl h2)
      · exact hd _ (h3 c hc)
  rw [List.any_append, List.any_append, hpre]
  congr 1
  · cases fr <;> simp [Cst.fracText]
  · cases ex with
    | none => rfl
    | some x =>
      obtain ⟨e, s', ds'⟩ := x
      rcases (h5 e s' ds' rfl).1 with rfl | rfl <;> simp [Cst.expText]

theorem decimalLit_eq {sg : Option Char} {d : Char} {ds : Str} {fr : Option (Char × Str)}
    {ex : Option (Char × Option Char × Str)} (h : (Num.dec sg d ds fr ex).Ok) :
    decimalLit (sg.toList ++ d :: ds ++ Cst.fracText fr ++ Cst.expText ex) =
      (Num.dec sg d ds fr ex).value := by
  unfold decimalLit
  simp only [any_point h, Num.value]
  cases fr <;> cases ex <;> simp [Cst.strip, Cst.fracText, Cst.expText]

/-- The parser of the fraction. -/
def fracP : P O (Option (List Char)) :=
  orNot (pmap (fun x => x.1.1 :: x.1.2 :: x.2) (seq (seq (just '.') (digit 10)) (digits 10)))

/-- The parser of the exponent. -/
def expP : P O (Option (List Char)) :=
  orNot (pmap (fun x => x.1.1 :: (x.1.2.toList ++ x.2))
        (seq (seq (orP (just 'e') (just 'E')) optSign) (digits 10)))

theorem fracP_sound {eoi : Sp O} {s o t} (h : Ok fracP eoi s o t) :
    ∃ fr, (∀ d' ds', fr = some (d', ds') → d' ∈ Cst.decDigits ∧ Cst.DigitsOk .dec ds') ∧
      o.getD [] = Cst.fracText fr ∧ Takes s (Cst.fracText fr) t := by
  unfold fracP at h
  rcases ok_orNot.1 h with ⟨a, rfl, hh⟩ | ⟨rfl, rfl, _⟩
  · replace h := hh; clear hh
    obtain ⟨x, hh, rfl⟩ := ok_pmap.1 h; replace h := hh
    obtain ⟨⟨a, b⟩, ds⟩ := x
    obtain ⟨t1, h1, h2⟩ := ok_seq.1 h
    obtain ⟨t2, h3, h4⟩ := ok_seq.1 h1
    simp only at h1 h2 h3 h4
    obtain ⟨h3', rfl⟩ := ok_just_takes.1 h3
    obtain ⟨h5, h6⟩ := (ok_digit (r := .dec)).1 h4
    obtain ⟨h7, h8, _⟩ := (ok_digits (r := .dec)).1 h2
    refine ⟨some (b, ds), ?_, rfl, h3'.trans (h5.trans h7)⟩
    rintro d' ds' heq
    simp at heq
    obtain ⟨rfl, rfl⟩ := heq
    exact ⟨h6, h8⟩
  · exact ⟨none, by simp, rfl, .nil⟩

theorem expP_sound {eoi : Sp O} {s o t} (h : Ok expP eoi s o t) :
    ∃ ex, (∀ e s' ds', ex = some (e, s', ds') → (e = 'e' ∨ e = 'E') ∧ Cst.SignOk s' ∧
        Cst.DigitsOk .dec ds') ∧
      o.getD [] = Cst.expText ex ∧ Takes s (Cst.expText ex) t := by
  unfold expP at h
  rcases ok_orNot.1 h with ⟨a, rfl, hh⟩ | ⟨rfl, rfl, _⟩
  · replace h := hh; clear hh
    obtain ⟨x, hh, rfl⟩ := ok_pmap.1 h; replace h := hh
    obtain ⟨⟨a, b⟩, ds⟩ := x
    obtain ⟨t1, h1, h2⟩ := ok_seq.1 h
    obtain ⟨t2, h3, h4⟩ := ok_seq.1 h1
    simp only at h1 h2 h3 h4
    obtain ⟨h5, h6, _⟩ := ok_optSign.1 h4
    obtain ⟨h7, h8, _⟩ := (ok_digits (r := .dec)).1 h2
    have h9 : (a = 'e' ∨ a = 'E') ∧ Takes s [a] t2 := by
      rcases ok_orP.1 h3 with h | ⟨_, h⟩
      · obtain ⟨hT, rfl⟩ := ok_just_takes.1 h; exact ⟨by simp, hT⟩
      · obtain ⟨hT, rfl⟩ := ok_just_takes.1 h; exact ⟨by simp, hT⟩
    refine ⟨some (a, b, ds), ?_, rfl, h9.2.trans (h6.trans h7)⟩
    rintro d' s' ds' heq
    simp at heq
    obtain ⟨rfl, rfl, rfl⟩ := heq
    exact ⟨h9.1, h5, h8⟩
  · exact ⟨none, by simp, rfl, .nil⟩

theorem decimalNumber_eq : (decimalNumber : P O Literal) =
  pmap (fun x =>
      let ((((sg, d), ds), frac), exp) := x
      decimalLit (sg.toList ++ [d] ++ ds ++ (frac.getD []) ++ (exp.getD [])))
    (seq (seq (seq (seq optSign (digit 10)) (digits 10)) fracP) expP) := rfl

theorem decimalNumber_sound {eoi : Sp O} {s v t} (h : Ok decimalNumber eoi s v t) :
    ∃ n : Num, n.Ok ∧ Takes s n.text t ∧ v = n.value := by
  rw [decimalNumber_eq] at h
  obtain ⟨x, hh, rfl⟩ := ok_pmap.1 h; replace h := hh
  obtain ⟨⟨⟨⟨sg, d⟩, ds⟩, fr⟩, ex⟩ := x
  obtain ⟨t1, h, h1⟩ := ok_seq.1 h
  obtain ⟨t2, h, h2⟩ := ok_seq.1 h
  obtain ⟨t3, h, h3⟩ := ok_seq.1 h
  obtain ⟨t4, h5, h4⟩ := ok_seq.1 h
  simp only at h1 h2 h3 h4 h5
  obtain ⟨ex', he1, he2, he3⟩ := expP_sound h1
  obtain ⟨fr', hf1, hf2, hf3⟩ := fracP_sound h2
  obtain ⟨h6, h7, _⟩ := (ok_digits (r := .dec)).1 h3
  obtain ⟨h8, h9⟩ := (ok_digit (r := .dec)).1 h4
  obtain ⟨h10, h11, _⟩ := ok_optSign.1 h5
  have hok : (Num.dec sg d ds fr' ex').Ok := ⟨h10, h9, h7, hf1, he1⟩
  refine ⟨.dec sg d ds fr' ex', hok, ?_, ?_⟩
  · have := h11.trans (h8.trans (h6.trans (hf3.trans he3)))
    simpa [Num.text] using this
  · rw [← decimalLit_eq hok]
    simp only [he2, hf2]
    simp

theorem radixDigits_sound {mark : Char} {r : Radix} {eoi : Sp O} {s x t}
    (h : Ok (radixDigits mark (radixBase r) r) eoi s x t) :
    ∃ d ds, x = (r, d :: ds) ∧ d ∈ Cst.radixDigits r ∧ Cst.DigitsOk r ds ∧
      Takes s (mark :: d :: ds) t := by
  unfold radixDigits at h
  obtain ⟨_, t1, h1, h2⟩ := ok_ignoreThen.1 h
  obtain ⟨h1', rfl⟩ := ok_just_takes.1 h1
  obtain ⟨⟨d, ds⟩, hh, rfl⟩ := ok_pmap.1 h2; replace h2 := hh
  obtain ⟨t2, h3, h4⟩ := ok_seq.1 h2
  obtain ⟨h5, h6⟩ := ok_digit.1 h3
  obtain ⟨h7, h8, _⟩ := ok_digits.1 h4
  exact ⟨d, ds, rfl, h6, h8, h1'.trans (h5.trans h7)⟩

theorem radixNumber_sound {eoi : Sp O} {s v t} (h : Ok radixNumber eoi s v t) :
    ∃ n : Num, n.Ok ∧ Takes s n.text t ∧ v = n.value := by
  unfold radixNumber at h
  obtain ⟨⟨sg, r, ds⟩, hh, rfl⟩ := ok_pmap.1 h; replace h := hh
  obtain ⟨t1, h1, h2⟩ := ok_seq.1 h
  simp only at h1 h2
  obtain ⟨t2, _, h3, h4⟩ := ok_thenIgnore.1 h1
  obtain ⟨h4', rfl⟩ := ok_just_takes.1 h4
  obtain ⟨h5, h6, _⟩ := ok_optSign.1 h3
  have fin : ∀ (r' : Radix), r' ≠ .dec → Ok (radixDigits (Cst.radixMark r') (radixBase r') r') eoi t1 (r, ds) t →
      ∃ n : Num, n.Ok ∧ Takes s n.text t ∧
        Literal.int r (sg.toList ++ ds.filter (fun c => c != '_')) = n.value := by
    intro r' hr h
    obtain ⟨d, ds', heq, h7, h8, h9⟩ := radixDigits_sound h
    simp at heq
    obtain ⟨rfl, rfl⟩ := heq
    exact ⟨.radix sg r d ds', ⟨h5, hr, h7, h8⟩, by simpa [Num.text] using h6.trans (h4'.trans h9), rfl⟩
  rcases ok_choice_cons.1 h2 with h | ⟨_, h⟩
  · exact fin .bin (by decide) h
  rcases ok_choice_cons.1 h with h | ⟨_, h⟩
  · exact fin .oct (by decide) h
  rcases ok_choice_cons.1 h with h | ⟨_, h⟩
  · exact fin .hex (by decide) h
  · simp at h

theorem number_sound {eoi : Sp O} {s v t} (h : Ok number eoi s v t) :
    ∃ n : Num, n.Ok ∧ Takes s n.text t ∧ v = n.value := by
  rcases ok_orP.1 h with h | ⟨_, h⟩
  · exact radixNumber_sound h
  · exact decimalNumber_sound h

/-- The characters that may follow an entry. -/
def endChars : List Char := Cst.wsChars ++ Cst.newlineChars ++ ['/', '\\', '{', ';']

/-- The text is empty or begins with a character that ends an entry. -/
def EndTok (s : Str) : Prop := ∀ c, s.head? = some c → c ∈ endChars

/-- Not a character that continues a number. -/
def NumEnd (s : Str) : Prop := ∀ c, s.head? = some c →
  c ∉ Cst.radixDigits .hex ∧ c ≠ '_' ∧ c ≠ '.' ∧ c ≠ 'o' ∧ c ≠ 'x'

theorem EndTok.numEnd {s : Str} (h : EndTok s) : NumEnd s := by
  intro c hc
  have : ∀ c ∈ endChars, c ∉ Cst.radixDigits .hex ∧ c ≠ '_' ∧ c ≠ '.' ∧ c ≠ 'o' ∧ c ≠ 'x' := by
    decide
  exact this c (h c hc)

theorem digit_hex {r : Radix} {c : Char} (h : c ∈ Cst.radixDigits r) : c ∈ Cst.radixDigits .hex := by
  cases r
  case hex => exact h
  all_goals revert h; revert c; decide

theorem ok_digits_end {r : Radix} {eoi : Sp O} {s as t} (hT : Takes s as t) (hd : Cst.DigitsOk r as)
    (he : ∀ c, (chars t).head? = some c → c ∉ Cst.radixDigits .hex ∧ c ≠ '_') :
    Ok (digits (radixBase r)) eoi s as t := by
  rw [ok_digits]
  refine ⟨hT, hd, fun c hc => ⟨fun h => (he c hc).1 (digit_hex h), (he c hc).2⟩⟩

theorem head_append {a b : Str} {c : Char} (h : (a ++ b).head? = some c) :
    a.head? = some c ∨ (a = [] ∧ b.head? = some c) := by
  cases a with
  | nil => right; exact ⟨rfl, h⟩
  | cons x a => left; exact h

theorem fracP_complete {eoi : Sp O} {s t} {fr}
    (hf : ∀ d' ds', fr = some (d', ds') → d' ∈ Cst.decDigits ∧ Cst.DigitsOk .dec ds')
    (hT : Takes s (Cst.fracText fr) t)
    (he : ∀ c, (chars t).head? = some c → c ∉ Cst.radixDigits .dec ∧ c ≠ '_' ∧ c ≠ '.') :
    ∃ o, Ok fracP eoi s o t ∧ o.getD [] = Cst.fracText fr := by
  unfold fracP
  cases fr with
  | none =>
    have := takes_nil.1 hT; subst this
    refine ⟨none, ok_orNot.2 (Or.inr ⟨rfl, rfl, ?_⟩), rfl⟩
    rw [fails_pmap]
    refine fails_seq_left (fails_seq_left ?_)
    rw [fails_just_head]
    intro h
    exact (he _ h).2.2 rfl
  | some x =>
    obtain ⟨d, ds⟩ := x
    obtain ⟨h1, h2⟩ := hf d ds rfl
    obtain ⟨sp, s1, rfl, h3⟩ := takes_cons.1 hT
    obtain ⟨sp', s2, rfl, h4⟩ := takes_cons.1 h3
    refine ⟨some ('.' :: d :: ds), ok_orNot.2 (Or.inl ⟨_, rfl, ok_pmap.2 ⟨(('.', d), ds),
      ok_seq.2 ⟨s2, ok_seq.2 ⟨_, ok_just.2 ⟨sp, rfl, rfl⟩, ?_⟩, ?_⟩, rfl⟩⟩), rfl⟩
    · exact (ok_digit (r := .dec)).2 ⟨.single, h1⟩
    · exact (ok_digits (r := .dec)).2 ⟨h4, h2, fun c hc => ⟨(he c hc).1, (he c hc).2.1⟩⟩

theorem expP_complete {eoi : Sp O} {s t} {ex}
    (hf : ∀ e s' ds', ex = some (e, s', ds') → (e = 'e' ∨ e = 'E') ∧ Cst.SignOk s' ∧
        Cst.DigitsOk .dec ds')
    (hT : Takes s (Cst.expText ex) t)
    (he : ∀ c, (chars t).head? = some c → c ∉ Cst.radixDigits .hex ∧ c ≠ '_')
    (hs : (chars t).head? ≠ some '+' ∧ (chars t).head? ≠ some '-') :
    ∃ o, Ok expP eoi s o t ∧ o.getD [] = Cst.expText ex := by
  unfold expP
  cases ex with
  | none =>
    have := takes_nil.1 hT; subst this
    refine ⟨none, ok_orNot.2 (Or.inr ⟨rfl, rfl, ?_⟩), rfl⟩
    rw [fails_pmap]
    refine fails_seq_left (fails_seq_left ?_)
    rw [fails_orP, fails_just_head, fails_just_head]
    constructor
    · intro h; exact (he _ h).1 (by decide)
    · intro h; exact (he _ h).1 (by decide)
  | some x =>
    obtain ⟨e, sg, ds⟩ := x
    obtain ⟨h1, h2, h3⟩ := hf e sg ds rfl
    obtain ⟨sp, s1, rfl, h4⟩ := takes_cons.1 hT
    obtain ⟨s2, h5, h6⟩ := takes_append.1 h4
    refine ⟨some (e :: (sg.toList ++ ds)), ok_orNot.2 (Or.inl ⟨_, rfl, ok_pmap.2 ⟨((e, sg), ds),
      ok_seq.2 ⟨s2, ok_seq.2 ⟨s1, ?_, ?_⟩, ?_⟩, rfl⟩⟩), rfl⟩
    · rcases h1 with rfl | rfl
      · exact ok_orP_left (ok_just.2 ⟨sp, rfl, rfl⟩)
      · refine ok_orP_right ?_ (ok_just.2 ⟨sp, rfl, rfl⟩)
        rw [fails_just_head]; simp
    · refine ok_optSign.2 ⟨h2, h5, ?_⟩
      rintro rfl
      have := takes_nil.1 h5; subst this
      have hc := h6.chars
      constructor <;>
      · intro hh
        rw [hc] at hh
        rcases head_append hh with hh | ⟨_, hh⟩
        · obtain ⟨w, hw⟩ := head_eq_some.1 hh
          rw [hw] at h3
          rcases h3 _ (List.mem_cons_self ..) with h | h
          · revert h; decide
          · revert h; decide
        · first | exact hs.1 hh | exact hs.2 hh
    · exact ok_digits_end (r := .dec) h6 h3 he

/-- Two-way conditions on what follows a number. -/
def NumEnd' (s : Str) : Prop := NumEnd s ∧ s.head? ≠ some '+' ∧ s.head? ≠ some '-'

theorem EndTok.numEnd' {s : Str} (h : EndTok s) : NumEnd' s := by
  refine ⟨h.numEnd, ?_, ?_⟩
  · intro hc; have := h _ hc; revert this; decide
  · intro hc; have := h _ hc; revert this; decide

theorem expText_head {ex : Option (Char × Option Char × Str)} {c : Char}
    (hf : ∀ e s' ds', ex = some (e, s', ds') → (e = 'e' ∨ e = 'E') ∧ Cst.SignOk s' ∧
        Cst.DigitsOk .dec ds') (h : (Cst.expText ex).head? = some c) : c = 'e' ∨ c = 'E' := by
  cases ex with
  | none => simp [Cst.expText] at h
  | some x =>
    obtain ⟨e, s', ds'⟩ := x
    simp [Cst.expText] at h
    subst h
    exact (hf _ _ _ rfl).1

theorem fracText_head {fr : Option (Char × Str)} {c : Char}
    (h : (Cst.fracText fr).head? = some c) : c = '.' := by
  cases fr with
  | none => simp [Cst.fracText] at h
  | some x => simp [Cst.fracText] at h; exact h.symm

theorem number_complete {eoi : Sp O} {s t} {n : Num} (hn : n.Ok) (hT : Takes s n.text t)
    (he : NumEnd' (chars t)) : Ok number eoi s n.value t := by
  cases n with
  | dec sg d ds fr ex =>
    have hok := hn
    obtain ⟨h1, h2, h3, h4, h5⟩ := hn
    have hT' : Takes s (sg.toList ++ ([d] ++ (ds ++ (Cst.fracText fr ++ Cst.expText ex)))) t := by
      simpa [Num.text] using hT
    obtain ⟨t1, h6, hT'⟩ := takes_append.1 hT'
    obtain ⟨t2, h7, hT'⟩ := takes_append.1 hT'
    obtain ⟨t3, h8, hT'⟩ := takes_append.1 hT'
    obtain ⟨t4, h9, h10⟩ := takes_append.1 hT'
    have hsign : Ok optSign eoi s sg t1 := by
      refine ok_optSign.2 ⟨h1, h6, ?_⟩
      rintro rfl
      have := takes_nil.1 h6; subst this
      rw [h7.chars]
      have : ∀ d ∈ Cst.decDigits, d ≠ '-' ∧ d ≠ '+' := by decide
      have := this d h2
      simpa using this
    -- heads
    have he4 : ∀ c, (chars t4).head? = some c → c ∉ Cst.radixDigits .dec ∧ c ≠ '_' ∧ c ≠ '.' ∧
        c ≠ 'b' ∧ c ≠ 'o' ∧ c ≠ 'x' := by
      intro c hc
      rw [h10.chars] at hc
      rcases head_append hc with hc | ⟨_, hc⟩
      · rcases expText_head h5 hc with rfl | rfl <;> decide
      · have := he.1 c hc
        refine ⟨fun h => this.1 (digit_hex h), this.2.1, this.2.2.1, ?_, this.2.2.2.1, this.2.2.2.2⟩
        rintro rfl; exact this.1 (by decide)
    have he3 : ∀ c, (chars t3).head? = some c → c ∉ Cst.radixDigits .dec ∧ c ≠ '_' ∧
        c ≠ 'b' ∧ c ≠ 'o' ∧ c ≠ 'x' := by
      intro c hc
      rw [h9.chars] at hc
      rcases head_append hc with hc | ⟨_, hc⟩
      · rcases fracText_head hc with rfl; decide
      · have := he4 c hc
        exact ⟨this.1, this.2.1, this.2.2.2⟩
    have he2 : ∀ c, (chars t2).head? = some c → c ≠ 'b' ∧ c ≠ 'o' ∧ c ≠ 'x' := by
      intro c hc
      rw [h8.chars] at hc
      rcases head_append hc with hc | ⟨_, hc⟩
      · obtain ⟨w, hw⟩ := head_eq_some.1 hc
        rw [hw] at h3
        rcases h3 c (List.mem_cons_self ..) with h | rfl
        · exact (by decide : ∀ c ∈ Cst.radixDigits .dec, c ≠ 'b' ∧ c ≠ 'o' ∧ c ≠ 'x') c h
        · decide
      · exact (he3 c hc).2.2
    obtain ⟨fo, hfo, hfo'⟩ := fracP_complete (eoi := eoi) h4 h9
      (fun c hc => ⟨(he4 c hc).1, (he4 c hc).2.1, (he4 c hc).2.2.1⟩)
    obtain ⟨eo, heo, heo'⟩ := expP_complete (eoi := eoi) h5 h10
      (fun c hc => ⟨(he.1 c hc).1, (he.1 c hc).2.1⟩) he.2
    refine ok_orP_right ?_ ?_
    · unfold radixNumber
      rw [fails_pmap]
      by_cases hd : d = '0'
      · subst hd
        refine fails_seq_right (t := t2) (a := sg) (ok_thenIgnore.2 ⟨t1, '0', hsign,
          ok_just_takes.2 ⟨h7, rfl⟩⟩) ?_
        rw [fails_choice]
        intro p hp
        simp only [List.mem_cons, List.not_mem_nil, or_false] at hp
        rcases hp with rfl | rfl | rfl <;>
        · refine fails_ignoreThen_left ?_
          rw [fails_just_head]
          intro h
          have := he2 _ h
          simp at this
      · refine fails_seq_left (fails_thenIgnore_right hsign ?_)
        rw [fails_just_head, h7.chars]
        simpa using hd
    · rw [decimalNumber_eq]
      refine ok_pmap.2 ⟨((((sg, d), ds), fo), eo), ok_seq.2 ⟨t4, ok_seq.2 ⟨t3, ok_seq.2 ⟨t2,
        ok_seq.2 ⟨t1, hsign, (ok_digit (r := .dec)).2 ⟨h7, h2⟩⟩, ?_⟩, hfo⟩, heo⟩, ?_⟩
      · exact (ok_digits (r := .dec)).2 ⟨h8, h3, fun c hc => ⟨(he3 c hc).1, (he3 c hc).2.1⟩⟩
      · rw [← decimalLit_eq hok]
        simp only [hfo', heo']
        simp
  | radix sg r d ds =>
    obtain ⟨h1, h2, h3, h4⟩ := hn
    have hT' : Takes s (sg.toList ++ (['0'] ++ ([Cst.radixMark r] ++ ([d] ++ ds)))) t := by
      simpa [Num.text] using hT
    obtain ⟨t1, h6, hT'⟩ := takes_append.1 hT'
    obtain ⟨t2, h7, hT'⟩ := takes_append.1 hT'
    obtain ⟨t3, h8, hT'⟩ := takes_append.1 hT'
    obtain ⟨t4, h9, h10⟩ := takes_append.1 hT'
    have hsign : Ok optSign eoi s sg t1 := by
      refine ok_optSign.2 ⟨h1, h6, ?_⟩
      rintro rfl
      have := takes_nil.1 h6; subst this
      rw [h7.chars]
      simp
    refine ok_orP_left ?_
    unfold radixNumber
    refine ok_pmap.2 ⟨(sg, r, d :: ds), ok_seq.2 ⟨t2, ok_thenIgnore.2 ⟨t1, '0', hsign,
      ok_just_takes.2 ⟨h7, rfl⟩⟩, ?_⟩, rfl⟩
    have hr : Ok (radixDigits (Cst.radixMark r) (radixBase r) r) eoi t2 (r, d :: ds) t := by
      unfold radixDigits
      refine ok_ignoreThen.2 ⟨Cst.radixMark r, t3, ok_just_takes.2 ⟨h8, rfl⟩, ok_pmap.2
        ⟨(d, ds), ok_seq.2 ⟨t4, ok_digit.2 ⟨h9, h3⟩, ?_⟩, rfl⟩⟩
      exact ok_digits_end h10 h4 (fun c hc => ⟨(he.1 c hc).1, (he.1 c hc).2.1⟩)
    have hf : ∀ m base r', m ≠ Cst.radixMark r →
        Fails (radixDigits m base r' : P O (Radix × List Char)) eoi t2 := by
      intro m base r' hm
      refine fails_ignoreThen_left ?_
      rw [fails_just_head, h8.chars]
      simp
      exact fun h => hm h.symm
    cases r with
    | dec => exact absurd rfl h2
    | bin => exact ok_choice_cons.2 (Or.inl hr)
    | oct => exact ok_choice_cons.2 (Or.inr ⟨hf _ _ _ (by decide), ok_choice_cons.2 (Or.inl hr)⟩)
    | hex => exact ok_choice_cons.2 (Or.inr ⟨hf _ _ _ (by decide), ok_choice_cons.2
        (Or.inr ⟨hf _ _ _ (by decide), ok_choice_cons.2 (Or.inl hr)⟩)⟩)

/-- The text does not begin like a number. -/
def NoNum (s : Str) : Prop :=
  ∀ c rest, s = c :: rest → c ∉ Cst.decDigits ∧
    ((c = '+' ∨ c = '-') → ∀ d, rest.head? = some d → d ∉ Cst.decDigits)

theorem optSign_total {eoi : Sp O} {s : List (Tok O)} : ∃ o t, Ok optSign eoi s o t := by
  by_cases h1 : (chars s).head? = some '-'
  · obtain ⟨sp, t, rfl⟩ := toks_of_head h1
    exact ⟨some '-', t, ok_optSign.2 ⟨by simp [Cst.SignOk], .single, by simp⟩⟩
  by_cases h2 : (chars s).head? = some '+'
  · obtain ⟨sp, t, rfl⟩ := toks_of_head h2
    exact ⟨some '+', t, ok_optSign.2 ⟨by simp [Cst.SignOk], .single, by simp⟩⟩
  · exact ⟨none, s, ok_optSign.2 ⟨by simp [Cst.SignOk], .nil, fun _ => ⟨h1, h2⟩⟩⟩

theorem failsC_number {eoi : Sp O} {s} (h : NoNum (chars s)) : FailsC number eoi s := by
  obtain ⟨o, t, ho⟩ := optSign_total (eoi := eoi) (s := s)
  obtain ⟨h1, h2, h3⟩ := ok_optSign.1 ho
  have hd : ∀ c, (chars t).head? = some c → c ∉ Cst.decDigits := by
    intro c hc
    rcases h1 with rfl | rfl | rfl
    · have := takes_nil.1 h2; subst this
      obtain ⟨w, hw⟩ := head_eq_some.1 hc
      exact (h c w hw).1
    · exact (h '+' (chars t) (by rw [h2.chars]; rfl)).2 (by simp) c hc
    · exact (h '-' (chars t) (by rw [h2.chars]; rfl)).2 (by simp) c hc
  refine failsC_orP ?_ ?_
  · unfold radixNumber
    rw [failsC_pmap]
    refine failsC_seq_left (failsC_thenIgnore_right ho ?_)
    rw [failsC_just_head]
    intro hh
    exact hd _ hh (by decide)
  · rw [decimalNumber_eq, failsC_pmap]
    refine failsC_seq_left (failsC_seq_left (failsC_seq_left (failsC_seq_right ho ?_)))
    unfold digit
    rw [failsC_filter_head]
    intro c hc
    have := hd c hc
    have h10 := (isDigit10_iff (c := c))
    cases hb : isDigit 10 c
    · rfl
    · exact absurd (h10.1 hb) this

/-! ### Bare identifiers -/

theorem ok_idChar {eoi : Sp O} {s a t} : Ok idChar eoi s a t ↔ Takes s [a] t ∧ Cst.IdentChar a := by
  unfold idChar; rw [ok_mapErr, ok_filter_takes, isIdChar_iff]
theorem ok_idSansDig {eoi : Sp O} {s a t} :
    Ok idSansDig eoi s a t ↔ Takes s [a] t ∧ Cst.IdentStart a := by
  unfold idSansDig; rw [ok_mapErr, ok_filter_takes, isIdSansDig_iff]
theorem ok_idSansSignDig {eoi : Sp O} {s a t} :
    Ok idSansSignDig eoi s a t ↔ Takes s [a] t ∧ (a ≠ '+' ∧ a ≠ '-' ∧ Cst.IdentStart a) := by
  unfold idSansSignDig; rw [ok_mapErr, ok_filter_takes, isIdSansSignDig_iff]

theorem failsC_idSansDig {eoi : Sp O} {s} (h : ∀ c, (chars s).head? = some c → ¬ Cst.IdentStart c) :
    FailsC idSansDig eoi s := by
  unfold idSansDig
  rw [failsC_mapErr, failsC_filter_head]
  intro c hc
  have := h c hc
  rw [← isIdSansDig_iff] at this
  simpa using this

theorem failsC_idSansSignDig {eoi : Sp O} {s}
    (h : ∀ c, (chars s).head? = some c → ¬ (c ≠ '+' ∧ c ≠ '-' ∧ Cst.IdentStart c)) :
    FailsC idSansSignDig eoi s := by
  unfold idSansSignDig
  rw [failsC_mapErr, failsC_filter_head]
  intro c hc
  have := h c hc
  rw [← isIdSansSignDig_iff] at this
  simpa using this

theorem ok_idChars {eoi : Sp O} {s as t} : Ok (repeated idChar) eoi s as t ↔
    Takes s as t ∧ (∀ c ∈ as, Cst.IdentChar c) ∧ ∀ c, (chars t).head? = some c → ¬ Cst.IdentChar c := by
  rw [ok_repeated eats_idChar.consumes]
  have h1 : Reps idChar eoi s as t ↔ Takes s as t ∧ ∀ c ∈ as, Cst.IdentChar c := by
    constructor
    · intro h
      induction h with
      | nil => exact ⟨.nil, by simp⟩
      | cons h1 _ _ ih =>
        obtain ⟨hT, hf⟩ := ok_idChar.1 h1
        exact ⟨hT.trans ih.1, List.forall_mem_cons.2 ⟨hf, ih.2⟩⟩
    · rintro ⟨hT, hf⟩
      induction as generalizing s with
      | nil => have := takes_nil.1 hT; subst this; exact .nil _
      | cons a as ih =>
        obtain ⟨sp, s1, rfl, hT'⟩ := takes_cons.1 hT
        exact .cons (ok_idChar.2 ⟨.single, hf a (by simp)⟩) (by simp)
          (ih hT' (fun c hc => hf c (by simp [hc])))
  have h2 : Fails idChar eoi t ↔ ∀ c, (chars t).head? = some c → ¬ Cst.IdentChar c := by
    unfold idChar
    rw [fails_mapErr, fails_filter_head]
    refine forall_congr' fun c => imp_congr_right fun _ => ?_
    rw [← isIdChar_iff]; simp
  rw [h1, h2, and_assoc]

theorem idChars_total {eoi : Sp O} {s : List (Tok O)} : ∃ as t, Ok (repeated idChar) eoi s as t := by
  induction s with
  | nil => exact ⟨[], [], ok_idChars.2 ⟨.nil, by simp, by simp⟩⟩
  | cons x s ih =>
    obtain ⟨c, sp⟩ := x
    by_cases h : Cst.IdentChar c
    · obtain ⟨as, t, h1⟩ := ih
      obtain ⟨h2, h3, h4⟩ := ok_idChars.1 h1
      exact ⟨c :: as, t, ok_idChars.2 ⟨.cons h2, List.forall_mem_cons.2 ⟨h, h3⟩, h4⟩⟩
    · exact ⟨[], _, ok_idChars.2 ⟨.nil, by simp, by simpa using h⟩⟩

theorem ok_sign {eoi : Sp O} {s a t} : Ok sign eoi s a t ↔ Takes s [a] t ∧ (a = '+' ∨ a = '-') := by
  unfold sign
  constructor
  · intro h
    rcases ok_orP.1 h with h | ⟨_, h⟩
    · obtain ⟨hT, rfl⟩ := ok_just_takes.1 h; exact ⟨hT, by simp⟩
    · obtain ⟨hT, rfl⟩ := ok_just_takes.1 h; exact ⟨hT, by simp⟩
  · rintro ⟨hT, rfl | rfl⟩
    · exact ok_orP_left (ok_just_takes.2 ⟨hT, rfl⟩)
    · refine ok_orP_right ?_ (ok_just_takes.2 ⟨hT, rfl⟩)
      rw [fails_just_head, hT.chars]; simp

theorem failsC_sign {eoi : Sp O} {s} (h1 : (chars s).head? ≠ some '+') (h2 : (chars s).head? ≠ some '-') :
    FailsC sign eoi s := failsC_orP (failsC_just_head.2 h1) (failsC_just_head.2 h2)

theorem checkKeyword_ok {s v : Str} {sp : Sp O} :
    checkKeyword s sp = .ok v ↔ v = s ∧ s ∉ Cst.keywords := by
  unfold checkKeyword
  simp only [Cst.keywords, List.mem_cons, List.not_mem_nil, or_false]
  split
  · rename_i h; simp only [reduceCtorEq, false_iff]; exact fun hh => hh.2 h
  · rename_i h; simp only [Except.ok.injEq]; exact ⟨fun hh => ⟨hh.symm, h⟩, fun hh => hh.1.symm⟩

/-- What follows a bare identifier. -/
def IdentMunch (v : Str) (s : Str) : Prop :=
  ∀ c, s.head? = some c → ¬ Cst.IdentChar c ∨ ((v = ['+'] ∨ v = ['-']) ∧ c ∈ Cst.decDigits)

theorem identStart_of {c : Char} (h : Cst.IdentChar c) (h' : c ∉ Cst.decDigits) : Cst.IdentStart c :=
  ⟨Or.inl h, h'⟩

theorem identChoice_sound {eoi : Sp O} {s v t} (h : Ok (choice [
      pmap (fun x => x.1 :: x.2.1 :: x.2.2) (seq sign (seq idSansDig (repeated idChar))),
      repeatedB 1 (some 1) sign,
      pmap (fun x => x.1 :: x.2) (seq idSansSignDig (repeated idChar))]) eoi s v t) :
    Cst.IdentShape v ∧ Takes s v t ∧ IdentMunch v (chars t) := by
  rcases ok_choice_cons.1 h with h | ⟨hf, h⟩
  · obtain ⟨⟨a, b, cs⟩, hh, rfl⟩ := ok_pmap.1 h; replace h := hh
    obtain ⟨t1, h1, h2⟩ := ok_seq.1 h
    obtain ⟨t2, h3, h4⟩ := ok_seq.1 h2
    simp only at h1 h3 h4
    obtain ⟨h5, h6⟩ := ok_sign.1 h1
    obtain ⟨h7, h8⟩ := ok_idSansDig.1 h3
    obtain ⟨h9, h10, h11⟩ := ok_idChars.1 h4
    exact ⟨⟨Or.inl ⟨h6, h8⟩, h10⟩, h5.trans (h7.trans h9), fun c hc => Or.inl (h11 c hc)⟩
  rcases ok_choice_cons.1 h with h | ⟨hf2, h⟩
  · obtain ⟨h1, h2⟩ := ok_repeatedB eats_sign.consumes h
    have hl : v.length = 1 := by
      have := repeatedB_le_max h
      rcases h2 with h2 | h2
      · simpa using h2.symm
      · omega
    match v, hl, h1 with
    | [a], _, h1 =>
      cases h1 with
      | cons h3 _ h4 =>
        cases h4
        obtain ⟨h5, h6⟩ := ok_sign.1 h3
        refine ⟨?_, h5, ?_⟩
        · rcases h6 with rfl | rfl <;> simp [Cst.IdentShape]
        · intro c hc
          by_cases hi : Cst.IdentChar c
          · right
            refine ⟨by simpa using h6, ?_⟩
            apply Classical.byContradiction
            intro hd
            obtain ⟨sp, t', rfl⟩ := toks_of_head hc
            obtain ⟨as, t2, h7⟩ := idChars_total (eoi := eoi) (s := t')
            have : Ok (pmap (fun x : Char × Char × List Char => x.1 :: x.2.1 :: x.2.2)
                (seq sign (seq idSansDig (repeated idChar)))) eoi s (a :: c :: as) t2 :=
              ok_pmap.2 ⟨(a, c, as), ok_seq.2 ⟨_, h3, ok_seq.2 ⟨t',
                ok_idSansDig.2 ⟨.single, identStart_of hi hd⟩, h7⟩⟩, rfl⟩
            exact this.not_fails hf
          · exact Or.inl hi
  rcases ok_choice_cons.1 h with h | ⟨_, h⟩
  · obtain ⟨⟨a, cs⟩, hh, rfl⟩ := ok_pmap.1 h; replace h := hh
    obtain ⟨t1, h1, h2⟩ := ok_seq.1 h
    simp only at h1 h2
    obtain ⟨h5, h6⟩ := ok_idSansSignDig.1 h1
    obtain ⟨h9, h10, h11⟩ := ok_idChars.1 h2
    refine ⟨?_, h5.trans h9, fun c hc => Or.inl (h11 c hc)⟩
    cases cs with
    | nil => simp only [Cst.IdentShape]; exact Or.inr (Or.inr h6.2.2)
    | cons d cs =>
      exact ⟨Or.inr ⟨h6.1, h6.2.1, h6.2.2, h10 d (by simp)⟩, fun c hc => h10 c (by simp [hc])⟩
  · simp at h

theorem bareIdent_sound {eoi : Sp O} {s v t} (h : Ok bareIdent eoi s v t) :
    Cst.BareIdent v ∧ Takes s v t ∧ IdentMunch v (chars t) := by
  unfold bareIdent at h
  obtain ⟨w, h, hk⟩ := ok_tryMap.1 h
  obtain ⟨rfl, hk⟩ := checkKeyword_ok.1 hk
  have hs := identChoice_sound h
  exact ⟨⟨hs.1, hk⟩, hs.2⟩

/-- The text does not continue an identifier. -/
def IdentEnd (s : Str) : Prop := ∀ c, s.head? = some c → ¬ Cst.IdentChar c ∧ c ≠ '!'

theorem IdentEnd.start {s : Str} (h : IdentEnd s) : ∀ c, s.head? = some c → ¬ Cst.IdentStart c := by
  rintro c hc ⟨h1 | h1, _⟩
  · exact (h c hc).1 h1
  · exact (h c hc).2 h1

theorem identChoice_complete {eoi : Sp O} {s v t} (hs : Cst.IdentShape v) (hT : Takes s v t)
    (he : IdentEnd (chars t)) : Ok (choice [
      pmap (fun x => x.1 :: x.2.1 :: x.2.2) (seq sign (seq idSansDig (repeated idChar))),
      repeatedB 1 (some 1) sign,
      pmap (fun x => x.1 :: x.2) (seq idSansSignDig (repeated idChar))]) eoi s v t := by
  -- not a sign first: the third alternative
  have third : ∀ c cs, v = c :: cs → c ≠ '+' → c ≠ '-' → Cst.IdentStart c →
      (∀ x ∈ cs, Cst.IdentChar x) → Ok (choice [
      pmap (fun x => x.1 :: x.2.1 :: x.2.2) (seq sign (seq idSansDig (repeated idChar))),
      repeatedB 1 (some 1) sign,
      pmap (fun x => x.1 :: x.2) (seq idSansSignDig (repeated idChar))]) eoi s v t := by
    rintro c cs rfl h1 h2 h3 h4
    obtain ⟨sp, s1, rfl, hT'⟩ := takes_cons.1 hT
    have hsig : Fails sign eoi ((c, sp) :: s1) :=
      (failsC_sign (by simpa using h1) (by simpa using h2)).fails
    refine ok_choice_cons.2 (Or.inr ⟨?_, ok_choice_cons.2 (Or.inr ⟨?_, ok_choice_cons.2 (Or.inl ?_)⟩)⟩)
    · rw [fails_pmap]; exact fails_seq_left hsig
    · exact fails_repeatedB (by decide) (by decide) hsig
    · exact ok_pmap.2 ⟨(c, cs), ok_seq.2 ⟨s1, ok_idSansSignDig.2 ⟨.single, h1, h2, h3⟩,
        ok_idChars.2 ⟨hT', h4, fun c hc => (he c hc).1⟩⟩, rfl⟩
  match v, hs, hT, third with
  | [c], hs, hT, third =>
    by_cases hsg : c = '+' ∨ c = '-'
    · refine ok_choice_cons.2 (Or.inr ⟨?_, ok_choice_cons.2 (Or.inl ?_)⟩)
      · rw [fails_pmap]
        refine fails_seq_right (ok_sign.2 ⟨hT, hsg⟩) (fails_seq_left (failsC_idSansDig he.start).fails)
      · refine ok_repeatedB_of (.cons (ok_sign.2 ⟨hT, hsg⟩) ?_ (.nil _)) (by simp) (Or.inl (by simp))
        have := hT.length
        simp at this
        omega
    · have h1 : c ≠ '+' := fun h => hsg (Or.inl h)
      have h2 : c ≠ '-' := fun h => hsg (Or.inr h)
      rcases hs with h | h | h
      · exact absurd h h1
      · exact absurd h h2
      · exact third c [] rfl h1 h2 h (by simp)
  | c :: d :: rest, ⟨h0, hr⟩, hT, third =>
    rcases h0 with h | h
    · obtain ⟨sp, s1, rfl, hT'⟩ := takes_cons.1 hT
      obtain ⟨sp', s2, rfl, hT2⟩ := takes_cons.1 hT'
      refine ok_choice_cons.2 (Or.inl (ok_pmap.2 ⟨(c, d, rest), ok_seq.2 ⟨_, ok_sign.2 ⟨.single, h.1⟩,
        ok_seq.2 ⟨s2, ok_idSansDig.2 ⟨.single, h.2⟩,
          ok_idChars.2 ⟨hT2, hr, fun c hc => (he c hc).1⟩⟩⟩, rfl⟩))
    · exact third c (d :: rest) rfl h.1 h.2.1 h.2.2.1 (List.forall_mem_cons.2 ⟨h.2.2.2, hr⟩)

theorem bareIdent_complete {eoi : Sp O} {s v t} (hv : Cst.BareIdent v) (hT : Takes s v t)
    (he : IdentEnd (chars t)) : Ok bareIdent eoi s v t := by
  unfold bareIdent
  exact ok_tryMap.2 ⟨v, identChoice_complete hv.1 hT he, checkKeyword_ok.2 ⟨rfl, hv.2⟩⟩

theorem failsC_bareIdent {eoi : Sp O} {s} (h : ∀ c, (chars s).head? = some c → ¬ Cst.IdentStart c) :
    FailsC bareIdent eoi s := by
  unfold bareIdent
  refine failsC_tryMap_of ?_
  have h1 : (chars s).head? ≠ some '+' := fun hc => h _ hc (by
    rw [← isIdSansDig_iff]; decide)
  have h2 : (chars s).head? ≠ some '-' := fun hc => h _ hc (by
    rw [← isIdSansDig_iff]; decide)
  have hsig := failsC_sign (eoi := eoi) h1 h2
  rw [failsC_choice]
  intro p hp
  simp only [List.mem_cons, List.not_mem_nil, or_false] at hp
  rcases hp with rfl | rfl | rfl
  · rw [fails_pmap]; exact fails_seq_left hsig.fails
  · exact fails_repeatedB (by decide) (by decide) hsig.fails
  · rw [fails_pmap]
    exact fails_seq_left (failsC_idSansSignDig (fun c hc hh => h c hc hh.2.2)).fails

theorem noNum_ident {v f : Str} (hv : Cst.IdentShape v) (hf : IdentEnd f) : NoNum (v ++ f) := by
  rintro c rest heq
  match v, hv with
  | [c'], hs =>
    simp at heq
    obtain ⟨rfl, rfl⟩ := heq
    constructor
    · rcases hs with rfl | rfl | hs
      · decide
      · decide
      · exact hs.2
    · rintro _ d hd hdd
      refine (hf d hd).1 ?_
      rw [← isIdChar_iff]
      have : ∀ d ∈ Cst.decDigits, isIdChar d = true := by decide
      exact this d hdd
  | c' :: d' :: rest', ⟨hs, _⟩ =>
    simp at heq
    obtain ⟨rfl, rfl⟩ := heq
    rcases hs with ⟨h1, h2⟩ | ⟨h1, h2, h3, h4⟩
    · constructor
      · rcases h1 with rfl | rfl <;> decide
      · rintro _ d hd
        simp at hd
        subst hd
        exact h2.2
    · refine ⟨h3.2, ?_⟩
      rintro (h | h)
      · exact absurd h h1
      · exact absurd h h2

/-! ### Names -/

section
variable [Offset O]

theorem checkNumber_ok {x : Option Str} {sp : Sp O} {v : Str} :
    checkNumber x sp = .ok v ↔ x = some v := by
  cases x <;> simp [checkNumber]

/-- What follows a name: a bare name is not continued. -/
def NameMunch (n : Name) (s : Str) : Prop :=
  match n with
  | .bare v => IdentMunch v s
  | .quoted _ => True

theorem ident_sound {eoi : Sp O} {s v t} (h : Ok ident eoi s v t) :
    ∃ n : Name, n.Ok ∧ Takes s n.text t ∧ v = n.value ∧ NameMunch n (chars t) := by
  unfold ident at h
  obtain ⟨o, h, hk⟩ := ok_tryMap.1 h
  rw [checkNumber_ok] at hk
  subst hk
  rcases ok_choice_cons.1 h with h | ⟨_, h⟩
  · obtain ⟨_, _, h⟩ := ok_pmap.1 h
    simp at h
  rcases ok_choice_cons.1 h with h | ⟨hb, h⟩
  · obtain ⟨w, h', heq⟩ := ok_pmap.1 h
    simp at heq
    subst heq; replace h := h'; clear h'
    obtain ⟨h1, h2, h3⟩ := bareIdent_sound h
    exact ⟨.bare w, h1, h2, rfl, h3⟩
  rcases ok_choice_cons.1 h with h | ⟨_, h⟩
  · obtain ⟨w, h', heq⟩ := ok_pmap.1 h
    simp at heq
    subst heq; replace h := h'; clear h'
    obtain ⟨l, h1, h2, h3⟩ := ok_string.1 h
    cases l with
    | quoted l => exact ⟨.quoted l, h1, h3, h2, trivial⟩
    | raw n b =>
      -- `r` begins a bare identifier
      exfalso
      have h3' : Takes s ('r' :: (List.replicate n '#' ++ '"' :: b ++ Cst.rawClose n)) t := by
        simpa [StrLit.text] using h3
      obtain ⟨sp, s1, rfl, h4⟩ := takes_cons.1 h3'
      have h4' : Takes s1 (List.replicate n '#' ++ ('"' :: b ++ Cst.rawClose n)) t := by
        simpa using h4
      obtain ⟨t1, h5, h6⟩ := takes_append.1 h4'
      refine (bareIdent_complete (eoi := eoi) (s := ('r', sp) :: s1) (v := 'r' :: List.replicate n '#')
        (t := t1) ?_ (.cons h5) ?_).not_fails (by simpa [fails_pmap] using hb)
      · refine ⟨?_, ?_⟩
        · have hh : Cst.IdentChar '#' := by rw [← isIdChar_iff]; decide
          have hr : Cst.IdentStart 'r' := by rw [← isIdSansDig_iff]; decide
          cases n with
          | zero => exact Or.inr (Or.inr hr)
          | succ n =>
            refine ⟨Or.inr ⟨by decide, by decide, hr, hh⟩, ?_⟩
            intro x hx
            rw [List.eq_of_mem_replicate hx]
            exact hh
        · simp [Cst.keywords]
      · intro c hc
        rw [h6.chars] at hc
        simp at hc
        subst hc
        rw [← isIdChar_iff]; decide
  · simp at h

theorem ident_complete {eoi : Sp O} {s t} {n : Name} (hn : n.Ok) (hT : Takes s n.text t)
    (he : IdentEnd (chars t) ∨ ∃ l, n = .quoted l) : Ok ident eoi s n.value t := by
  unfold ident
  refine ok_tryMap.2 ⟨some n.value, ?_, rfl⟩
  cases n with
  | bare v =>
    have he : IdentEnd (chars t) := by
      rcases he with he | ⟨l, hl⟩
      · exact he
      · cases hl
    refine ok_choice_cons.2 (Or.inr ⟨?_, ok_choice_cons.2 (Or.inl ?_)⟩)
    · rw [fails_pmap]
      refine (failsC_number ?_).fails
      rw [hT.chars]
      exact noNum_ident hn.1 he
    · exact ok_pmap.2 ⟨v, bareIdent_complete hn hT he, rfl⟩
  | quoted l =>
    have hc := hT.chars
    simp only [Name.text, Cst.quotedText, List.cons_append] at hc
    refine ok_choice_cons.2 (Or.inr ⟨?_, ok_choice_cons.2 (Or.inr ⟨?_, ok_choice_cons.2 (Or.inl ?_)⟩)⟩)
    · rw [fails_pmap]
      refine (failsC_number ?_).fails
      rw [hc]
      rintro c rest heq
      injection heq with h1 h2
      subst h1
      exact ⟨by decide, by simp⟩
    · rw [fails_pmap]
      refine (failsC_bareIdent ?_).fails
      rw [hc]
      rintro c heq
      simp at heq
      subst heq
      rw [← isIdSansDig_iff]; decide
    · exact ok_pmap.2 ⟨_, ok_string.2 ⟨.quoted l, hn, rfl, hT⟩, rfl⟩

/-- A text at which no name begins. -/
def NoName (s : Str) : Prop := ∀ c, s.head? = some c → ¬ Cst.IdentStart c ∧ c ∉ Cst.decDigits ∧ c ≠ '"'

theorem noName_noNum {s : Str} (h : NoName s) : NoNum s := by
  rintro c rest rfl
  have := h c rfl
  refine ⟨this.2.1, ?_⟩
  rintro (rfl | rfl)
  · exact absurd (by rw [← isIdSansDig_iff]; decide) this.1
  · exact absurd (by rw [← isIdSansDig_iff]; decide) this.1

theorem noName_noRaw {s : Str} (h : NoName s) : ¬ RawStart s := by
  intro hr
  have := h _ (rawStart_head hr)
  exact this.1 (by rw [← isIdSansDig_iff]; decide)

theorem failsC_ident {eoi : Sp O} {s} (h : NoName (chars s)) : FailsC ident eoi s := by
  unfold ident
  refine failsC_tryMap_of ?_
  rw [failsC_choice]
  intro p hp
  simp only [List.mem_cons, List.not_mem_nil, or_false] at hp
  rcases hp with rfl | rfl | rfl
  · rw [fails_pmap]; exact (failsC_number (noName_noNum h)).fails
  · rw [fails_pmap]; exact (failsC_bareIdent (fun c hc => (h c hc).1)).fails
  · rw [fails_pmap]
    exact (failsC_string (fun hc => (h _ hc).2.2 rfl) (noName_noRaw h)).fails

theorem ok_typeName_sound {eoi : Sp O} {s v t} (h : Ok typeName eoi s v t) :
    ∃ n : Name, n.Ok ∧ Takes s (Cst.tyText (some n)) t ∧ v = TypeName.fromString n.value := by
  unfold typeName at h
  obtain ⟨w, hh, rfl⟩ := ok_pmap.1 h; replace h := hh
  obtain ⟨_, t1, _, t2, h1, h2, h3⟩ := ok_delimitedBy.1 h
  obtain ⟨h1', rfl⟩ := ok_just_takes.1 h1
  obtain ⟨h3', rfl⟩ := ok_just_takes.1 h3
  obtain ⟨n, h4, h5, rfl, _⟩ := ident_sound h2
  exact ⟨n, h4, by simpa [Cst.tyText] using h1'.trans (h5.trans h3'), rfl⟩

theorem typeName_complete {eoi : Sp O} {s t} {n : Name} (hn : n.Ok)
    (hT : Takes s (Cst.tyText (some n)) t) : Ok typeName eoi s (TypeName.fromString n.value) t := by
  unfold typeName
  obtain ⟨sp, s1, rfl, h1⟩ := takes_cons.1 hT
  obtain ⟨s2, h2, h3⟩ := takes_append.1 h1
  refine ok_pmap.2 ⟨n.value, ok_delimitedBy.2 ⟨'(', s1, ')', s2, ok_just.2 ⟨sp, rfl, rfl⟩,
    ident_complete hn h2 (Or.inl ?_), ok_just_takes.2 ⟨h3, rfl⟩⟩, rfl⟩
  intro c hc
  rw [h3.chars] at hc
  simp at hc
  subst hc
  rw [← isIdChar_iff]; decide

theorem failsC_typeName {eoi : Sp O} {s} (h : (chars s).head? ≠ some '(') : FailsC typeName eoi s := by
  unfold typeName
  rw [failsC_pmap]
  exact failsC_thenIgnore_left (failsC_ignoreThen_left (failsC_just_head.2 h))

/-! ### Literals -/

theorem keyword_sound {eoi : Sp O} {s v t} (h : Ok keyword eoi s v t) :
    ∃ l : Lit, l.Ok ∧ Takes s l.text t ∧ v = l.value ∧ l.text ∈ Cst.keywords ∧
      (v = .null ∨ ∃ b, v = .bool b) := by
  unfold keyword at h
  rcases ok_choice_cons.1 h with h | ⟨_, h⟩
  · obtain ⟨_, hh, rfl⟩ := ok_pmap.1 h; replace h := hh
    rw [ok_mapErr, ok_justStr_takes] at h
    exact ⟨.null, trivial, h, rfl, by decide, by simp⟩
  rcases ok_choice_cons.1 h with h | ⟨_, h⟩
  · obtain ⟨_, hh, rfl⟩ := ok_pmap.1 h; replace h := hh
    rw [ok_mapErr, ok_justStr_takes] at h
    exact ⟨.bool true, trivial, h, rfl, by decide, by simp⟩
  rcases ok_choice_cons.1 h with h | ⟨_, h⟩
  · obtain ⟨_, hh, rfl⟩ := ok_pmap.1 h; replace h := hh
    rw [ok_mapErr, ok_justStr_takes] at h
    exact ⟨.bool false, trivial, h, rfl, by decide, by simp⟩
  · simp at h

theorem failsC_keyword {eoi : Sp O} {s} (h : ∀ k ∈ Cst.keywords, ¬ k <+: chars s) :
    FailsC keyword eoi s := by
  unfold keyword
  rw [failsC_choice]
  intro p hp
  simp only [List.mem_cons, List.not_mem_nil, or_false] at hp
  rcases hp with rfl | rfl | rfl <;>
  · rw [fails_pmap, fails_mapErr]
    exact (failsC_justStr_prefix.2 (h _ (by decide))).fails

theorem takes_prefix {s t : List (Tok O)} {a : Str} (h : Takes s a t) : a <+: chars s :=
  ⟨chars t, h.chars.symm⟩

theorem not_prefix_head {a b : Str} {c d : Char} (h : a.head? = some c) (h' : b.head? = some d)
    (hne : c ≠ d) : ¬ a <+: b := by
  rintro ⟨w, rfl⟩
  obtain ⟨a', rfl⟩ := head_eq_some.1 h
  simp at h'
  exact hne h'

theorem keyword_complete {eoi : Sp O} {s t} {l : Lit} (hl : l = .null ∨ ∃ b, l = .bool b)
    (hT : Takes s l.text t) : Ok keyword eoi s l.value t := by
  unfold keyword
  have hp := takes_prefix hT
  have hh : ∀ c, l.text.head? = some c → (chars s).head? = some c := by
    intro c hc
    obtain ⟨w, hw⟩ := hp
    obtain ⟨a, ha⟩ := head_eq_some.1 hc
    rw [← hw, ha]; rfl
  have fail : ∀ (k : Str) (v : Literal) c d, l.text.head? = some c → k.head? = some d → d ≠ c →
      Fails (pmap (fun _ => v) (mapErr (PErr.withExpectedToken k) (justStr k)) : P O Literal) eoi s := by
    intro k v c d hc hd hne
    rw [fails_pmap, fails_mapErr]
    refine (failsC_justStr_prefix.2 ?_).fails
    exact not_prefix_head hd (hh c hc) hne
  rcases hl with rfl | ⟨b, rfl⟩
  · exact ok_choice_cons.2 (Or.inl (ok_pmap.2 ⟨(), ok_mapErr.2 (ok_justStr_takes.2 hT), rfl⟩))
  · cases b
    · exact ok_choice_cons.2 (Or.inr ⟨fail _ _ 'f' 'n' rfl rfl (by decide), ok_choice_cons.2 (Or.inr
        ⟨fail _ _ 'f' 't' rfl rfl (by decide), ok_choice_cons.2 (Or.inl
          (ok_pmap.2 ⟨(), ok_mapErr.2 (ok_justStr_takes.2 hT), rfl⟩))⟩)⟩)
    · exact ok_choice_cons.2 (Or.inr ⟨fail _ _ 't' 'n' rfl rfl (by decide), ok_choice_cons.2 (Or.inl
          (ok_pmap.2 ⟨(), ok_mapErr.2 (ok_justStr_takes.2 hT), rfl⟩))⟩)

theorem literal_sound {eoi : Sp O} {s v t} (h : Ok literal eoi s v t) :
    ∃ l : Lit, l.Ok ∧ Takes s l.text t ∧ v = l.value := by
  unfold literal at h
  rcases ok_choice_cons.1 h with h | ⟨_, h⟩
  · obtain ⟨w, hh, rfl⟩ := ok_pmap.1 h; replace h := hh
    obtain ⟨l, h1, rfl, h3⟩ := ok_string.1 h
    exact ⟨.str l, h1, h3, rfl⟩
  rcases ok_choice_cons.1 h with h | ⟨_, h⟩
  · obtain ⟨l, h1, h2, h3, _⟩ := keyword_sound h
    exact ⟨l, h1, h2, h3⟩
  rcases ok_choice_cons.1 h with h | ⟨_, h⟩
  · obtain ⟨n, h1, h2, rfl⟩ := number_sound h
    exact ⟨.num n, h1, h2, rfl⟩
  · simp at h

theorem num_text_head {n : Num} (hn : n.Ok) :
    ∃ c rest, n.text = c :: rest ∧ (c = '+' ∨ c = '-' ∨ c ∈ Cst.decDigits) := by
  cases n with
  | dec sg d ds fr ex =>
    rcases hn.1 with rfl | rfl | rfl
    · exact ⟨d, _, rfl, Or.inr (Or.inr hn.2.1)⟩
    · exact ⟨_, _, rfl, by simp⟩
    · exact ⟨_, _, rfl, by simp⟩
  | radix sg r d ds =>
    rcases hn.1 with rfl | rfl | rfl
    · exact ⟨'0', _, rfl, by decide⟩
    · exact ⟨_, _, rfl, by simp⟩
    · exact ⟨_, _, rfl, by simp⟩

theorem strLit_text_head (l : StrLit) : l.text.head? = some '"' ∨ RawStart l.text := by
  cases l with
  | quoted l => left; rfl
  | raw n b => right; exact ⟨n, b ++ Cst.rawClose n, by simp [StrLit.text]⟩

theorem literal_complete {eoi : Sp O} {s t} {l : Lit} (hl : l.Ok) (hT : Takes s l.text t)
    (he : NumEnd' (chars t) ∨ ∃ x, l = .str x) : Ok literal eoi s l.value t := by
  unfold literal
  cases l with
  | str x => exact ok_choice_cons.2 (Or.inl (ok_pmap.2 ⟨_, ok_string.2 ⟨x, hl, rfl, hT⟩, rfl⟩))
  | num n =>
    have he : NumEnd' (chars t) := by
      rcases he with he | ⟨x, hx⟩
      · exact he
      · cases hx
    obtain ⟨c, rest, hc, hc'⟩ := num_text_head hl
    have hs : (chars s).head? = some c := by
      rw [hT.chars]; simp only [Lit.text]; rw [hc]; rfl
    have hcc : c ≠ '"' ∧ c ≠ 'r' ∧ c ≠ 'n' ∧ c ≠ 't' ∧ c ≠ 'f' := by
      rcases hc' with rfl | rfl | h
      · decide
      · decide
      · exact (by decide : ∀ c ∈ Cst.decDigits,
          c ≠ '"' ∧ c ≠ 'r' ∧ c ≠ 'n' ∧ c ≠ 't' ∧ c ≠ 'f') c h
    refine ok_choice_cons.2 (Or.inr ⟨?_, ok_choice_cons.2 (Or.inr ⟨?_, ok_choice_cons.2 (Or.inl ?_)⟩)⟩)
    · rw [fails_pmap]
      refine (failsC_string ?_ ?_).fails
      · rw [hs]; simpa using hcc.1
      · intro h
        have := rawStart_head h
        rw [hs] at this
        injection this with this
        exact hcc.2.1 this
    · refine (failsC_keyword ?_).fails
      intro k hk
      simp only [Cst.keywords, List.mem_cons, List.not_mem_nil, or_false] at hk
      rcases hk with rfl | rfl | rfl
      · exact not_prefix_head (c := 't') rfl hs (fun h => hcc.2.2.2.1 h.symm)
      · exact not_prefix_head (c := 'f') rfl hs (fun h => hcc.2.2.2.2 h.symm)
      · exact not_prefix_head (c := 'n') rfl hs (fun h => hcc.2.2.1 h.symm)
    · exact number_complete hl hT he
  | null =>
    refine ok_choice_cons.2 (Or.inr ⟨?_, ok_choice_cons.2 (Or.inl
      (keyword_complete (l := .null) (Or.inl rfl) hT))⟩)
    rw [fails_pmap]
    refine (failsC_string ?_ ?_).fails
    · rw [hT.chars]; simp [Lit.text]
    · intro h
      have := rawStart_head h
      rw [hT.chars] at this
      simp [Lit.text] at this
  | bool b =>
    refine ok_choice_cons.2 (Or.inr ⟨?_, ok_choice_cons.2 (Or.inl
      (keyword_complete (l := .bool b) (Or.inr ⟨b, rfl⟩) hT))⟩)
    rw [fails_pmap]
    refine (failsC_string ?_ ?_).fails
    · rw [hT.chars]; cases b <;> simp [Lit.text]
    · intro h
      have := rawStart_head h
      rw [hT.chars] at this
      cases b <;> simp [Lit.text] at this

/-- A text at which no literal begins. -/
theorem failsC_literal {eoi : Sp O} {s} (h1 : (chars s).head? ≠ some '"') (h2 : ¬ RawStart (chars s))
    (h3 : ∀ k ∈ Cst.keywords, ¬ k <+: chars s) (h4 : NoNum (chars s)) : FailsC literal eoi s := by
  unfold literal
  rw [failsC_choice]
  intro p hp
  simp only [List.mem_cons, List.not_mem_nil, or_false] at hp
  rcases hp with rfl | rfl | rfl
  · rw [fails_pmap]; exact (failsC_string h1 h2).fails
  · exact (failsC_keyword h3).fails
  · exact (failsC_number h4).fails

end

end Knuffel
