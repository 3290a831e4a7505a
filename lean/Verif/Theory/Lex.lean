import Verif.Theory.Comb
import Verif.Model.Grammar
import Verif.Spec.Cst
/-!
# Newlines, white space and comments: the parser against the specification
-/

namespace Knuffel

open Cst (Newline)

variable {O α β γ : Type}

/-! ### Consumed text -/

/-- Between `s` and its suffix `t` lie exactly the characters `str`. -/
def Takes (s : List (Tok O)) (str : Str) (t : List (Tok O)) : Prop :=
  ∃ pre, s = pre ++ t ∧ chars pre = str

theorem Takes.nil {s : List (Tok O)} : Takes s [] s := ⟨[], rfl, rfl⟩

theorem takes_nil {s t : List (Tok O)} : Takes s [] t ↔ s = t := by
  constructor
  · rintro ⟨pre, rfl, h⟩; simp [chars_eq_nil.1 h]
  · rintro rfl; exact .nil

theorem Takes.trans {s t u : List (Tok O)} {a b : Str} (h : Takes s a t) (h' : Takes t b u) :
    Takes s (a ++ b) u := by
  obtain ⟨p, rfl, rfl⟩ := h
  obtain ⟨q, rfl, rfl⟩ := h'
  exact ⟨p ++ q, by simp⟩

theorem takes_append {s u : List (Tok O)} {a b : Str} :
    Takes s (a ++ b) u ↔ ∃ t, Takes s a t ∧ Takes t b u := by
  constructor
  · rintro ⟨pre, rfl, h⟩
    obtain ⟨p, q, rfl, rfl, rfl⟩ := chars_eq_append.1 h
    exact ⟨q ++ u, ⟨p, by simp⟩, ⟨q, by simp⟩⟩
  · rintro ⟨t, h1, h2⟩; exact h1.trans h2

theorem takes_cons {s u : List (Tok O)} {c : Char} {b : Str} :
    Takes s (c :: b) u ↔ ∃ sp t, s = (c, sp) :: t ∧ Takes t b u := by
  constructor
  · rintro ⟨pre, rfl, h⟩
    obtain ⟨sp, q, rfl, rfl⟩ := chars_eq_cons.1 h
    exact ⟨sp, q ++ u, rfl, q, rfl, rfl⟩
  · rintro ⟨sp, t, rfl, q, rfl, rfl⟩; exact ⟨(c, sp) :: q, rfl, rfl⟩

theorem Takes.cons {t u : List (Tok O)} {c : Char} {sp : Sp O} {b : Str} (h : Takes t b u) :
    Takes ((c, sp) :: t) (c :: b) u := takes_cons.2 ⟨sp, t, rfl, h⟩

theorem Takes.single {t : List (Tok O)} {c : Char} {sp : Sp O} :
    Takes ((c, sp) :: t) [c] t := .cons .nil

theorem Takes.chars {s t : List (Tok O)} {a : Str} (h : Takes s a t) : chars s = a ++ chars t := by
  obtain ⟨p, rfl, rfl⟩ := h
  simp

theorem Takes.length {s t : List (Tok O)} {a : Str} (h : Takes s a t) :
    s.length = a.length + t.length := by
  obtain ⟨p, rfl, rfl⟩ := h
  simp

/-- Tokens split according to their characters. -/
theorem takes_of_chars {s : List (Tok O)} {a b : Str} (h : chars s = a ++ b) :
    ∃ t, Takes s a t ∧ chars t = b := by
  obtain ⟨p, q, rfl, rfl, rfl⟩ := chars_eq_append.1 h
  exact ⟨q, ⟨p, rfl, rfl⟩, rfl⟩

theorem ok_justStr_takes {cs : Str} {eoi : Sp O} {s a t} :
    Ok (justStr cs) eoi s a t ↔ Takes s cs t := ok_justStr

theorem ok_just_takes {c : Char} {eoi : Sp O} {s a t} :
    Ok (just c) eoi s a t ↔ Takes s [c] t ∧ a = c := by
  rw [ok_just]
  constructor
  · rintro ⟨sp, rfl, rfl⟩; exact ⟨.single, rfl⟩
  · rintro ⟨h, rfl⟩
    obtain ⟨sp, u, rfl, h'⟩ := takes_cons.1 h
    rw [takes_nil] at h'
    subst h'
    exact ⟨sp, rfl, rfl⟩

theorem ok_filter_takes {f : Char → Bool} {eoi : Sp O} {s a t} :
    Ok (filter f) eoi s a t ↔ Takes s [a] t ∧ f a = true := by
  rw [ok_filter]
  constructor
  · rintro ⟨sp, rfl, h⟩; exact ⟨.single, h⟩
  · rintro ⟨h, h2⟩
    obtain ⟨sp, u, rfl, h'⟩ := takes_cons.1 h
    rw [takes_nil] at h'
    subst h'
    exact ⟨sp, rfl, h2⟩

/-- Failure of `just` in terms of characters. -/
theorem fails_just_head {c : Char} {eoi : Sp O} {s} :
    Fails (just c) eoi s ↔ (chars s).head? ≠ some c := by
  rw [fails_just]
  rcases s with _ | ⟨⟨x, sp⟩, s⟩
  · simp
  · simp

theorem failsC_just_head {c : Char} {eoi : Sp O} {s} :
    FailsC (just c) eoi s ↔ (chars s).head? ≠ some c := by
  rw [failsC_just]
  rcases s with _ | ⟨⟨x, sp⟩, s⟩
  · simp
  · simp

theorem fails_filter_head {f : Char → Bool} {eoi : Sp O} {s} :
    Fails (filter f) eoi s ↔ ∀ c, (chars s).head? = some c → f c = false := by
  rw [fails_filter]
  rcases s with _ | ⟨⟨x, sp⟩, s⟩
  · simp
  · simp

theorem failsC_filter_head {f : Char → Bool} {eoi : Sp O} {s} :
    FailsC (filter f) eoi s ↔ ∀ c, (chars s).head? = some c → f c = false := by
  rw [failsC_filter]
  rcases s with _ | ⟨⟨x, sp⟩, s⟩
  · simp
  · simp

theorem failsC_justStr_prefix {cs : Str} {eoi : Sp O} {s} :
    FailsC (justStr cs) eoi s ↔ ¬ cs <+: chars s := by
  rw [failsC_justStr]
  constructor
  · rintro h ⟨b, hb⟩
    obtain ⟨t, ⟨pre, h1, h2⟩, _⟩ := takes_of_chars hb.symm
    exact h pre t h1 h2
  · rintro h pre t rfl rfl
    exact h ⟨chars t, by simp⟩

/-! ### Character classes -/

theorem char_eq_iff {c d : Char} : c = d ↔ c.toNat = d.toNat := by
  constructor
  · rintro rfl; rfl
  · intro h
    apply Char.ext
    apply UInt32.toNat_inj.1
    exact h

theorem isWsChar_iff {c : Char} : isWsChar c = true ↔ c ∈ Cst.wsChars := by
  simp only [isWsChar, isUniSpace, inRange, Cst.wsChars, Cst.uniSpaces, List.cons_append, List.nil_append,
    List.mem_cons, List.not_mem_nil, char_eq_iff, Bool.or_eq_true, beq_iff_eq, Bool.and_eq_true,
    decide_eq_true_eq]
  simp only [Char.reduceToNat, or_false]
  omega

theorem isUniSpace_iff {c : Char} : isUniSpace c = true ↔ c ∈ Cst.uniSpaces := by
  simp only [isUniSpace, inRange, Cst.uniSpaces, 
    List.mem_cons, List.not_mem_nil, char_eq_iff, Bool.or_eq_true, beq_iff_eq, Bool.and_eq_true,
    decide_eq_true_eq]
  simp only [Char.reduceToNat, or_false]
  omega

theorem isIdPunct_iff {c : Char} : isIdPunct c = true ↔ c ∈ Cst.punct := by
  simp only [isIdPunct, Cst.punct, List.mem_cons, List.not_mem_nil, Bool.or_eq_true, beq_iff_eq]
  simp only [or_assoc, or_false]

theorem isDec_iff {c : Char} : isDec c = true ↔ c ∈ Cst.decDigits := by
  have : Cst.decDigits = ['0','1','2','3','4','5','6','7','8','9'] := by decide
  simp only [this, isDec, inRange, List.mem_cons, List.not_mem_nil, char_eq_iff, Bool.and_eq_true,
    decide_eq_true_eq]
  simp only [Char.reduceToNat, or_false]
  omega

theorem isIdChar_iff {c : Char} : isIdChar c = true ↔ Cst.IdentChar c := by
  have h1 : isIdChar c = true ↔ 0x21 < c.toNat ∧ isIdPunct c = false ∧ isUniSpace c = false ∧
      isUniNewline c = false := by
    simp only [isIdChar, inRange, Bool.not_eq_true', Bool.or_eq_false_iff, and_assoc]
    simp
  rw [h1]
  unfold Cst.IdentChar
  rw [← isIdPunct_iff, ← isUniSpace_iff]
  simp only [Bool.not_eq_true]
  have h2 : 0x21 < c.toNat → (isUniNewline c = false ↔ c ∉ Cst.newlineChars) := by
    intro h
    rw [← Bool.not_eq_true]
    simp only [isUniNewline, Cst.newlineChars, List.mem_cons, List.not_mem_nil, char_eq_iff,
      Bool.or_eq_true, beq_iff_eq]
    simp only [Char.reduceToNat, or_false]
    omega
  constructor
  · rintro ⟨h, h3, h4, h5⟩; exact ⟨h, h3, h4, (h2 h).1 h5⟩
  · rintro ⟨h, h3, h4, h5⟩; exact ⟨h, h3, h4, (h2 h).2 h5⟩

theorem isIdSansDig_iff {c : Char} : isIdSansDig c = true ↔ Cst.IdentStart c := by
  unfold Cst.IdentStart
  rw [← isIdChar_iff, ← isDec_iff]
  by_cases hc : c = '!'
  · subst hc; decide
  · have h0 : (inRange 0 0x20 c = false ↔ inRange 0 0x21 c = false) := by
      have hne : c.toNat ≠ 0x21 := by
        intro h; apply hc; rw [char_eq_iff]; exact h
      simp [inRange]; omega
    simp only [isIdSansDig, isIdChar, Bool.not_eq_true', Bool.or_eq_false_iff, h0, hc, or_false,
      Bool.not_eq_true]
    grind

theorem isIdSansSignDig_iff {c : Char} :
    isIdSansSignDig c = true ↔ c ≠ '+' ∧ c ≠ '-' ∧ Cst.IdentStart c := by
  rw [← isIdSansDig_iff]
  simp only [isIdSansSignDig, isIdSansDig, Bool.not_eq_true', Bool.or_eq_false_iff]
  grind

/-! ### Newlines -/

/-- A newline character. -/
def isNl (c : Char) : Prop := c ∈ Cst.newlineChars

theorem Newline.text_head (n : Newline) : ∃ c rest, n.text = c :: rest ∧ c ∈ Cst.newlineChars := by
  cases n <;> exact ⟨_, _, rfl, by decide⟩

theorem fails_newline {eoi : Sp O} {s} (h : ∀ c, (chars s).head? = some c → c ∉ Cst.newlineChars) :
    FailsC newline eoi s := by
  unfold newline
  have hn : ∀ d ∈ Cst.newlineChars, (chars s).head? ≠ some d := fun d hd he => h d he hd
  rw [failsC_mapErr, failsC_ignored]
  have f : ∀ d ∈ Cst.newlineChars, FailsC (just d) eoi s := fun d hd => failsC_just_head.2 (hn d hd)
  refine failsC_orP (failsC_orP (failsC_orP (failsC_orP (failsC_orP ?_ (f _ (by decide)))
    (f _ (by decide))) (f _ (by decide))) (f _ (by decide))) (f _ (by decide))
  refine failsC_ignoreThen_right (a := none) (t := s) ?_ (f _ (by decide))
  exact ok_orNot.2 (Or.inr ⟨rfl, rfl, (f _ (by decide)).fails⟩)

theorem ok_newline {eoi : Sp O} {s t u} :
    Ok newline eoi s u t ↔ ∃ n : Newline, Takes s n.text t ∧ n.Ok (chars t) := by
  unfold newline
  rw [ok_mapErr, ok_ignored]
  constructor
  · rintro ⟨a, h⟩
    rcases ok_orP.1 h with h | ⟨_, h⟩
    rcases ok_orP.1 h with h | ⟨_, h⟩
    rcases ok_orP.1 h with h | ⟨_, h⟩
    rcases ok_orP.1 h with h | ⟨_, h⟩
    rcases ok_orP.1 h with h | ⟨hn, h⟩
    · rw [ok_ignoreThen] at h
      obtain ⟨o, t1, h1, h2⟩ := h
      rcases ok_orNot.1 h1 with ⟨a, _, h1⟩ | ⟨_, rfl, _⟩
      · exact ⟨.crlf, (ok_just_takes.1 h1).1.trans (ok_just_takes.1 h2).1, trivial⟩
      · exact ⟨.lf, (ok_just_takes.1 h2).1, trivial⟩
    · refine ⟨.cr, (ok_just_takes.1 h).1, ?_⟩
      intro hh
      obtain ⟨sp, rfl, _⟩ := ok_just.1 h
      obtain ⟨cs, hcs⟩ : ∃ cs, chars t = '\n' :: cs := by
        cases hc : chars t with
        | nil => simp [hc] at hh
        | cons x xs => simp [hc] at hh; exact ⟨xs, by rw [hh]⟩
      obtain ⟨sp', t', rfl, _⟩ := chars_eq_cons.1 hcs
      apply hn '\n' t'
      rw [ok_ignoreThen]
      exact ⟨some '\r', _, ok_orNot.2 (Or.inl ⟨'\r', rfl, ok_just.2 ⟨sp, rfl, rfl⟩⟩),
        ok_just.2 ⟨sp', rfl, rfl⟩⟩
    · exact ⟨.ff, (ok_just_takes.1 h).1, trivial⟩
    · exact ⟨.nel, (ok_just_takes.1 h).1, trivial⟩
    · exact ⟨.ls, (ok_just_takes.1 h).1, trivial⟩
    · exact ⟨.ps, (ok_just_takes.1 h).1, trivial⟩
  · rintro ⟨n, hn, hok⟩
    have hch := hn.chars
    -- the first character
    have hf : ∀ d : Char, (chars s).head? ≠ some d → Fails (just d) eoi s := fun d => fails_just_head.2
    have hcrlf : (chars s).head? ≠ some '\n' → (∀ cs, chars s ≠ '\r' :: '\n' :: cs) →
        Fails (ignoreThen (orNot (just '\r')) (just '\n')) eoi s := by
      intro h1 h2
      by_cases h3 : (chars s).head? = some '\r'
      · obtain ⟨cs, hcs⟩ : ∃ cs, chars s = '\r' :: cs := by
          cases hc : chars s with
          | nil => simp [hc] at h3
          | cons x xs => simp [hc] at h3; exact ⟨xs, by rw [h3]⟩
        obtain ⟨sp', t', rfl, rfl⟩ := chars_eq_cons.1 hcs
        refine fails_ignoreThen_right (a := some '\r') (t := t') ?_ ?_
        · exact ok_orNot.2 (Or.inl ⟨'\r', rfl, ok_just.2 ⟨_, rfl, rfl⟩⟩)
        · rw [fails_just_head]
          intro h4
          cases hc : chars t' with
          | nil => simp [hc] at h4
          | cons x xs => simp [hc] at h4; exact h2 xs (by simp [hc, h4])
      · refine fails_ignoreThen_right (a := none) (t := s) ?_ (hf _ h1)
        exact ok_orNot.2 (Or.inr ⟨rfl, rfl, hf _ h3⟩)
    cases n with
    | lf =>
      refine ⟨'\n', ok_orP_left (ok_orP_left (ok_orP_left (ok_orP_left (ok_orP_left ?_))))⟩
      rw [ok_ignoreThen]
      refine ⟨none, s, ok_orNot.2 (Or.inr ⟨rfl, rfl, hf _ ?_⟩), ok_just_takes.2 ⟨hn, rfl⟩⟩
      rw [hch]; simp [Newline.text]
    | crlf =>
      refine ⟨'\n', ok_orP_left (ok_orP_left (ok_orP_left (ok_orP_left (ok_orP_left ?_))))⟩
      rw [ok_ignoreThen]
      obtain ⟨t1, h1, h2⟩ := (takes_append (a := ['\r']) (b := ['\n'])).1 hn
      exact ⟨some '\r', t1, ok_orNot.2 (Or.inl ⟨'\r', rfl, ok_just_takes.2 ⟨h1, rfl⟩⟩),
        ok_just_takes.2 ⟨h2, rfl⟩⟩
    | cr =>
      refine ⟨'\r', ok_orP_left (ok_orP_left (ok_orP_left (ok_orP_left (ok_orP_right (hcrlf ?_ ?_) ?_))))⟩
      · rw [hch]; simp [Newline.text]
      · intro cs h
        rw [hch] at h
        simp only [Newline.text, List.cons_append, List.nil_append, List.cons.injEq, true_and] at h
        simp [Newline.Ok, h] at hok
      · exact ok_just_takes.2 ⟨hn, rfl⟩
    | ff =>
      refine ⟨_, ok_orP_left (ok_orP_left (ok_orP_left (ok_orP_right (fails_orP.2 ⟨hcrlf ?_ ?_, hf _ ?_⟩)
        (ok_just_takes.2 ⟨hn, rfl⟩))))⟩ <;> simp [hch, Newline.text]
    | nel =>
      refine ⟨_, ok_orP_left (ok_orP_left (ok_orP_right (fails_orP.2 ⟨fails_orP.2
        ⟨hcrlf ?_ ?_, hf _ ?_⟩, hf _ ?_⟩)
        (ok_just_takes.2 ⟨hn, rfl⟩)))⟩ <;> simp [hch, Newline.text]
    | ls =>
      refine ⟨_, ok_orP_left (ok_orP_right (fails_orP.2 ⟨fails_orP.2 ⟨fails_orP.2
        ⟨hcrlf ?_ ?_, hf _ ?_⟩, hf _ ?_⟩, hf _ ?_⟩)
        (ok_just_takes.2 ⟨hn, rfl⟩))⟩ <;> simp [hch, Newline.text]
    | ps =>
      refine ⟨_, ok_orP_right (fails_orP.2 ⟨fails_orP.2 ⟨fails_orP.2 ⟨fails_orP.2
        ⟨hcrlf ?_ ?_, hf _ ?_⟩, hf _ ?_⟩, hf _ ?_⟩, hf _ ?_⟩)
        (ok_just_takes.2 ⟨hn, rfl⟩)⟩ <;> simp [hch, Newline.text]

end Knuffel
