import Verif.Spec.Number
/-!
# The syntax of floats
-/

namespace Knuffel

theorem asciiDigit_iff (c : Char) : ('0' ≤ c ∧ c ≤ '9') ↔ c ∈ "0123456789".toList := by
  constructor
  · rintro ⟨h1, h2⟩
    have h1 : 48 ≤ c.toNat := h1
    have h2 : c.toNat ≤ 57 := h2
    have all : ∀ k ∈ List.range 58, 48 ≤ k → Char.ofNat k ∈ "0123456789".toList := by decide
    have := all c.toNat (List.mem_range.2 (by omega)) h1
    rwa [Char.ofNat_toNat] at this
  · have : ∀ c ∈ "0123456789".toList, '0' ≤ c ∧ c ≤ '9' := by decide
    exact this c

theorem spanDigits_append {a r : Str} (ha : AllDigits a) (hr : ∀ c, r.head? = some c → c ∉ "0123456789".toList) :
    spanDigits (a ++ r) = (a, r) := by
  induction a with
  | nil =>
    cases r with
    | nil => rfl
    | cons c cs =>
      have := hr c rfl
      rw [← asciiDigit_iff] at this
      simp [spanDigits, this]
  | cons c cs ih =>
    have h1 := ha c (by simp)
    rw [← asciiDigit_iff] at h1
    have := ih fun c hc => ha c (by simp [hc])
    simp [spanDigits, this, h1]

theorem spanDigits_spec (s : Str) : s = (spanDigits s).1 ++ (spanDigits s).2 ∧ AllDigits (spanDigits s).1 ∧
    ∀ c, (spanDigits s).2.head? = some c → c ∉ "0123456789".toList := by
  induction s with
  | nil => exact ⟨rfl, by simp [spanDigits, AllDigits], by simp [spanDigits]⟩
  | cons c cs ih =>
    by_cases h : '0' ≤ c ∧ c ≤ '9'
    · simp only [spanDigits, if_pos h]
      refine ⟨by rw [List.cons_append, ← ih.1], ?_, ih.2.2⟩
      intro x hx
      rcases List.mem_cons.1 hx with rfl | hx
      · exact (asciiDigit_iff _).1 h
      · exact ih.2.1 x hx
    · simp only [spanDigits, if_neg h]
      refine ⟨rfl, by simp [AllDigits], ?_⟩
      rintro x hx
      cases hx
      rwa [← asciiDigit_iff]

theorem dropSign_sign {sign u : Str} (hs : sign = ['+'] ∨ sign = ['-']) : dropSign (sign ++ u) = u := by
  rcases hs with rfl | rfl <;> rfl

theorem dropSign_none {u : Str} (h : ∀ c, u.head? = some c → c ≠ '+' ∧ c ≠ '-') : dropSign u = u := by
  unfold dropSign
  split
  · exact absurd rfl (h '+' rfl).1
  · exact absurd rfl (h '-' rfl).2
  · rfl

theorem dropSign_spec (s : Str) : ∃ sign, s = sign ++ dropSign s ∧ (sign = [] ∨ sign = ['+'] ∨ sign = ['-']) := by
  unfold dropSign
  split
  · exact ⟨['+'], rfl, by simp⟩
  · exact ⟨['-'], rfl, by simp⟩
  · exact ⟨[], rfl, by simp⟩

theorem digit_no_sign {ds : Str} (h : AllDigits ds) : ∀ c, ds.head? = some c → c ≠ '+' ∧ c ≠ '-' := by
  intro c hc
  have hm : c ∈ "0123456789".toList := h c (List.mem_of_mem_head? hc)
  have : ∀ c ∈ "0123456789".toList, c ≠ '+' ∧ c ≠ '-' := by decide
  exact this c hm

theorem exponentSyntax_iff (s : Str) : exponentSyntax s = true ↔ FloatExponent s := by
  cases s with
  | nil => simp [exponentSyntax, FloatExponent]
  | cons x cs =>
    constructor
    · intro h
      simp only [exponentSyntax, Bool.and_eq_true, Bool.or_eq_true, decide_eq_true_eq, Bool.not_eq_true',
        List.isEmpty_eq_false_iff, List.isEmpty_iff] at h
      obtain ⟨sign, h1, h2⟩ := dropSign_spec cs
      obtain ⟨h3, h4, -⟩ := spanDigits_spec (dropSign cs)
      rw [h.2, List.append_nil] at h3
      refine Or.inr ⟨x, sign, dropSign cs, by rw [← h1], h.1.1, h2, ?_, ?_⟩
      · rw [h3]; exact h4
      · rw [h3]; exact h.1.2
    · rintro (h | ⟨x', sign, ds, h, h1, h2, h3, h4⟩)
      · cases h
      cases h
      have e : dropSign (sign ++ ds) = ds := by
        rcases h2 with rfl | h2
        · exact dropSign_none (digit_no_sign h3)
        · exact dropSign_sign h2
      have e2 : spanDigits ds = (ds, []) := by
        have := spanDigits_append (r := []) h3 (by simp)
        simpa using this
      simp [exponentSyntax, e, e2, h4, h1]

theorem FloatExponent.head {e : Str} (h : FloatExponent e) : ∀ c, e.head? = some c → c = 'e' ∨ c = 'E' := by
  rcases h with rfl | ⟨x, sign, ds, rfl, h1, -⟩
  · simp
  · rintro c hc; cases hc; exact h1

theorem numberSyntax_iff (u : Str) : numberSyntax u = true ↔
    ∃ a b e, (u = a ++ e ∧ b = [] ∨ u = a ++ '.' :: (b ++ e)) ∧ AllDigits a ∧ AllDigits b ∧ a ++ b ≠ [] ∧ FloatExponent e := by
  constructor
  · intro h
    obtain ⟨h1, h2, -⟩ := spanDigits_spec u
    unfold numberSyntax at h
    split at h
    · next rest hr =>
      obtain ⟨h3, h4, -⟩ := spanDigits_spec rest
      simp only [Bool.and_eq_true, Bool.not_eq_true', Bool.and_eq_false_iff, List.isEmpty_eq_false_iff] at h
      refine ⟨(spanDigits u).1, (spanDigits rest).1, (spanDigits rest).2, Or.inr ?_, h2, h4, ?_, (exponentSyntax_iff _).1 h.2⟩
      · rw [← h3, ← hr, ← h1]
      · simp only [ne_eq, List.append_eq_nil_iff]
        rintro ⟨e1, e2⟩
        rcases h.1 with h | h
        · exact h e1
        · exact h e2
    · simp only [Bool.and_eq_true, Bool.not_eq_true', List.isEmpty_eq_false_iff] at h
      exact ⟨(spanDigits u).1, [], (spanDigits u).2, Or.inl ⟨h1, rfl⟩, h2, by simp [AllDigits], by simpa using h.1,
        (exponentSyntax_iff _).1 h.2⟩
  · have nd : ∀ c, c = 'e' ∨ c = 'E' ∨ c = '.' → c ∉ "0123456789".toList := by
      rintro c (rfl | rfl | rfl) <;> decide
    rintro ⟨a, b, e, h, ha, hb, hne, he⟩
    have he' : ∀ c, e.head? = some c → c ∉ "0123456789".toList := fun c hc =>
      nd c (by rcases he.head c hc with h | h <;> simp [h])
    rcases h with ⟨rfl, rfl⟩ | rfl
    · have h1 := spanDigits_append ha he'
      unfold numberSyntax
      rw [h1]
      dsimp only
      split
      · rcases he.head '.' rfl with h | h <;> exact absurd h (by decide)
      · simp only [List.append_nil] at hne
        simp [hne, (exponentSyntax_iff _).2 he]
    · have h1 := spanDigits_append (r := '.' :: (b ++ e)) ha (by rintro c hc; cases hc; exact nd _ (by simp))
      have h2 := spanDigits_append hb he'
      unfold numberSyntax
      rw [h1]
      show (!(a.isEmpty && (spanDigits (b ++ e)).1.isEmpty) && exponentSyntax (spanDigits (b ++ e)).2) = true
      rw [h2]
      simp only [ne_eq, List.append_eq_nil_iff, not_and] at hne
      simp only [Bool.and_eq_true, Bool.not_eq_true', Bool.and_eq_false_iff, List.isEmpty_eq_false_iff]
      refine ⟨?_, (exponentSyntax_iff _).2 he⟩
      by_cases h : a = []
      · exact Or.inr (hne h)
      · exact Or.inl h

theorem floatSyntax_iff (s : Str) : floatSyntax s = true ↔ FloatText s := by
  have special : ∀ u : Str, specialFloat u = true ↔ u.map Char.toLower ∈ ["inf".toList, "infinity".toList, "nan".toList] := by
    intro u
    unfold specialFloat
    generalize u.map Char.toLower = l
    generalize "inf".toList = x
    generalize "infinity".toList = y
    generalize "nan".toList = z
    simp only [Bool.or_eq_true, decide_eq_true_eq, List.mem_cons, List.not_mem_nil, or_false, or_assoc]
  constructor
  · intro h
    simp only [floatSyntax, Bool.and_eq_true, Bool.or_eq_true] at h
    obtain ⟨sign, h1, h2⟩ := dropSign_spec s
    refine ⟨sign, _, h1, h2, ?_⟩
    rw [← special, ← numberSyntax_iff]
    exact h.2
  · rintro ⟨sign, u, rfl, h1, h2⟩
    have hu : ∀ c, u.head? = some c → c ≠ '+' ∧ c ≠ '-' := by
      rcases h2 with ⟨a, b, e, h, ha, hb, hne, he⟩ | h
      · have hhd : ∀ c, u.head? = some c → c ∈ "0123456789".toList ∨ c = '.' ∨ c = 'e' ∨ c = 'E' := by
          intro c hc
          cases a with
          | cons x xs =>
            have : u.head? = some x := by rcases h with ⟨rfl, -⟩ | rfl <;> rfl
            rw [this] at hc
            cases hc
            exact Or.inl (ha c (by simp))
          | nil =>
            rcases h with ⟨rfl, rfl⟩ | rfl
            · exact absurd rfl hne
            · cases hc; simp
        intro c hc
        rcases hhd c hc with h | rfl | rfl | rfl
        · have : ∀ c ∈ "0123456789".toList, c ≠ '+' ∧ c ≠ '-' := by decide
          exact this c h
        · decide
        · decide
        · decide
      · intro c hc
        cases u with
        | nil => cases hc
        | cons x xs =>
          cases hc
          have : c.toLower = 'i' ∨ c.toLower = 'n' := by
            simp only [List.map_cons, List.mem_cons, List.not_mem_nil, or_false] at h
            rcases h with h | h | h
            · exact Or.inl (List.cons.inj (h.trans (show _ = ['i', 'n', 'f'] from rfl))).1
            · exact Or.inl (List.cons.inj (h.trans (show _ = 'i' :: "nfinity".toList from rfl))).1
            · exact Or.inr (List.cons.inj (h.trans (show _ = ['n', 'a', 'n'] from rfl))).1
          constructor <;> (rintro rfl; revert this; decide)
    have e : dropSign (sign ++ u) = u := by
      rcases h1 with rfl | h1
      · exact dropSign_none hu
      · exact dropSign_sign h1
    have hne : u ≠ [] := by
      rcases h2 with ⟨a, b, ex, h, ha, hb, hne, he⟩ | h
      · rintro rfl
        rcases h with ⟨h, rfl⟩ | h
        · simp only [List.nil_eq, List.append_eq_nil_iff] at h
          rw [h.1] at hne
          exact hne rfl
        · simp at h
      · rintro rfl
        revert h
        decide
    simp only [floatSyntax, e, Bool.and_eq_true, Bool.or_eq_true, Bool.not_eq_true', List.isEmpty_eq_false_iff]
    refine ⟨by simp [hne], ?_⟩
    rw [special, numberSyntax_iff]
    exact h2

end Knuffel
