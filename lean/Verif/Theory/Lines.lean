import Verif.Spec.Lines
import Verif.Theory.Nested
/-!
# The line tracker
-/

namespace Knuffel
open Cst

theorem isLineBreak_iff (c : Char) : isLineBreak c = true ↔ c ∈ newlineChars := by
  simp only [isLineBreak, newlineChars, Bool.or_eq_true, beq_iff_eq, List.mem_cons, List.not_mem_nil, or_false]
  grind

theorem trackAll_append (width : Char → Nat) (t : LineTracker) (a b : Str) :
    trackAll width t (a ++ b) = trackAll width (trackAll width t a) b := by
  induction a generalizing t with
  | nil => rfl
  | cons c a ih => exact ih _

theorem newlines_snoc (s : Str) (c : Char) :
    newlines (s ++ [c]) = if c = '\n' ∧ s.getLast? = some '\r' then newlines s
      else if c ∈ newlineChars then newlines s + 1 else newlines s := by
  induction s with
  | nil => simp [newlines]
  | cons x s ih =>
    cases s with
    | nil =>
      simp only [List.nil_append, newlines, List.cons_append, List.head?_cons, List.getLast?_singleton, List.head?_nil]
      by_cases hx : x = '\r'
      · subst hx
        by_cases hc : c = '\n'
        · subst hc; decide
        · have : '\r' ∈ newlineChars := by decide
          simp [hc, this]
          split <;> rfl
      · have : ¬ (c = '\n' ∧ some x = some '\r') := by simp [hx]
        simp [hx]
        split <;> split <;> omega
    | cons y s =>
      simp only [List.cons_append] at ih ⊢
      have e : ∀ t, newlines (x :: y :: t) = if x = '\r' ∧ y = '\n' then newlines (y :: t)
          else if x ∈ newlineChars then newlines (y :: t) + 1 else newlines (y :: t) := by
        intro t
        rw [newlines]
        by_cases h : x = '\r' ∧ y = '\n'
        · rw [if_pos h, if_pos (by simpa using h)]
        · rw [if_neg h, if_neg (by simpa using h)]
      rw [e, e, ih, List.getLast?_cons_cons]
      generalize newlines (y :: s) = n
      by_cases a1 : x = '\r' ∧ y = '\n'
      · rw [if_pos a1, if_pos a1]
      · rw [if_neg a1, if_neg a1]
        by_cases a2 : c = '\n' ∧ (y :: s).getLast? = some '\r'
        · simp only [if_pos a2]
        · simp only [if_neg a2]
          split <;> split <;> rfl

theorem currentLine_snoc (s : Str) (c : Char) :
    currentLine (s ++ [c]) = if c ∈ newlineChars then [] else currentLine s ++ [c] := by
  unfold currentLine
  rw [List.reverse_append, List.reverse_singleton, List.singleton_append, List.takeWhile_cons]
  by_cases h : c ∈ newlineChars <;> simp [h]

/-- The position of the tracker. -/
theorem trackAll_spec (width : Char → Nat) : ∀ (n : Nat) (s : Str), s.length = n →
    trackPos (trackAll width .init s) = linePos width s ∧
      ((trackAll width .init s).caretReturn = true ↔ s.getLast? = some '\r') := by
  intro n
  induction n with
  | zero =>
    intro s hs
    have : s = [] := List.length_eq_zero_iff.1 hs
    subst this
    exact ⟨rfl, by simp [trackAll, LineTracker.init]⟩
  | succ n ih =>
    intro s hs
    rcases List.eq_nil_or_concat s with rfl | ⟨a, c, rfl⟩
    · simp at hs
    · rw [List.concat_eq_append] at hs ⊢
      obtain ⟨h1, h2⟩ := ih a (by simpa using hs)
      rw [trackAll_append]
      generalize trackAll width .init a = t at h1 h2 ⊢
      simp only [trackPos, linePos, LinePos.mk.injEq] at h1
      obtain ⟨g1, g2, g3⟩ := h1
      have hb : byteLen (a ++ [c]) = byteLen a + c.utf8Size := by rw [byteLen_append]; simp [byteLen]
      constructor
      · simp only [trackAll, trackPos, LineTracker.next, linePos, hb, newlines_snoc, currentLine_snoc, ← h2, g1, g2, g3]
        by_cases hcr : c = '\n' ∧ t.caretReturn = true
        · have hn : c ∈ newlineChars := by rw [hcr.1]; decide
          have hl := h2.1 hcr.2
          have : currentLine a = [] := by
            rcases List.eq_nil_or_concat a with rfl | ⟨a', c', rfl⟩
            · simp at hl
            · rw [List.concat_eq_append, List.getLast?_append] at hl
              simp at hl
              subst hl
              rw [List.concat_eq_append, currentLine_snoc, if_pos (by decide)]
          simp [hcr.1, hcr.2, this, show '\n' ∈ newlineChars by decide]
        · have hcr' : (c == '\n' && t.caretReturn) = false := by
            rw [Bool.and_eq_false_iff]
            by_cases hc : c = '\n'
            · right; simpa [hc] using hcr
            · left; simpa using hc
          simp only [hcr, hcr', Bool.false_eq_true, if_false]
          by_cases hn : c ∈ newlineChars
          · simp [hn, (isLineBreak_iff c).2 hn]
          · have hn' : isLineBreak c = false := by
              cases h : isLineBreak c with
              | false => rfl
              | true => exact absurd ((isLineBreak_iff c).1 h) hn
            simp only [hn, hn', Bool.false_eq_true, if_false]
            by_cases ht : c = '\t'
            · subst ht
              simp [columns]
            · simp [ht, columns]
      · simp only [trackAll, LineTracker.next, List.getLast?_append]
        simp

theorem trackSpan_eq (width : Char → Nat) (text : Str) : trackSpan width text = lineSpan width text := by
  funext i j
  simp only [trackSpan, lineSpan, (trackAll_spec width _ _ rfl).1]

/-! ### The end of input -/

theorem lastLine_spec : ∀ (cs pre : Str) (line : Nat) (last : Str),
    (lastLine (pre.getLast? = some '\r') line last cs).1 + newlines pre = line + newlines (pre ++ cs) := by
  intro cs
  induction cs with
  | nil => intro pre line last; simp [lastLine]
  | cons c cs ih =>
    intro pre line last
    have hs := newlines_snoc pre c
    have ha : pre ++ c :: cs = (pre ++ [c]) ++ cs := by simp
    have hcr : decide ((pre ++ [c]).getLast? = some '\r') = (c == '\r') := by
      by_cases h : c = '\r' <;> simp [h]
    rw [ha]
    unfold lastLine
    by_cases h1 : c = '\n' ∧ pre.getLast? = some '\r'
    · have := ih (pre ++ [c]) line last
      rw [hcr] at this
      simp only [h1, and_self, if_true] at hs
      simp only [h1, beq_self_eq_true, decide_true, Bool.and_self, if_true] at this ⊢
      omega
    · have h1' : (c == '\n' && decide (pre.getLast? = some '\r')) = false := by
        rw [Bool.and_eq_false_iff]
        by_cases hc : c = '\n'
        · right; simpa [hc] using h1
        · left; simpa using hc
      simp only [h1, if_false] at hs
      rw [h1']
      by_cases hn : c ∈ newlineChars
      · have := ih (pre ++ [c]) (line + 1) cs
        rw [hcr] at this
        simp only [hn, if_true] at hs
        simp only [(isLineBreak_iff c).2 hn, Bool.false_eq_true, if_true, if_false]
        omega
      · have := ih (pre ++ [c]) line last
        rw [hcr] at this
        have hn' : isLineBreak c = false := by
          cases h : isLineBreak c with
          | false => rfl
          | true => exact absurd ((isLineBreak_iff c).1 h) hn
        simp only [hn, if_false] at hs
        simp only [hn', Bool.false_eq_true, if_false]
        omega

theorem takeWhile_stop {p : Char → Bool} {a b : Str} {c : Char} (h : p c = false) :
    (a ++ c :: b).takeWhile p = a.takeWhile p := by
  induction a with
  | nil => simp [h]
  | cons y a ih => simp only [List.cons_append, List.takeWhile_cons, ih]

theorem currentLine_newline {a b : Str} {c : Char} (h : c ∈ newlineChars) : currentLine (a ++ c :: b) = currentLine b := by
  unfold currentLine
  rw [List.reverse_append, List.reverse_cons, List.append_assoc, List.singleton_append, takeWhile_stop (by simpa using h)]

theorem takeWhile_all {p : Char → Bool} {a : Str} (h : ∀ x ∈ a, p x = true) : a.takeWhile p = a := by
  induction a with
  | nil => rfl
  | cons y a ih =>
    simp only [List.mem_cons, forall_eq_or_imp] at h
    simp [h.1, ih h.2]

theorem currentLine_self {q : Str} (h : ∀ c ∈ q, c ∉ newlineChars) : currentLine q = q := by
  unfold currentLine
  rw [takeWhile_all (fun x hx => by simpa using h x (List.mem_reverse.1 hx)), List.reverse_reverse]

/-- The line that the code measures for the end of input is the current line,
preceded by the line feed of a CR LF. -/
theorem lastLine_last : ∀ (cs : Str) (cr : Bool) (line : Nat) (last pre : Str),
    (last = pre ++ cs) → (∀ c ∈ pre, c ∉ newlineChars) ∨ (cr = false ∧ ∃ q, pre = '\n' :: q ∧ ∀ c ∈ q, c ∉ newlineChars) →
    (cr = true → pre = []) →
    (lastLine cr line last cs).2 = currentLine (pre ++ cs) ∨
      (lastLine cr line last cs).2 = '\n' :: currentLine (pre ++ cs) := by
  intro cs
  induction cs with
  | nil =>
    intro cr line last pre hl hp hcr
    simp only [lastLine, hl, List.append_nil]
    rcases hp with hp | ⟨_, q, rfl, hq⟩
    · left; exact (currentLine_self hp).symm
    · right
      have := currentLine_newline (a := []) (b := q) (c := '\n') (by decide)
      rw [List.nil_append] at this
      rw [this, currentLine_self hq]
  | cons c cs ih =>
    intro cr line last pre hl hp hcr
    unfold lastLine
    by_cases h1 : (c == '\n' && cr) = true
    · rw [if_pos h1]
      simp only [Bool.and_eq_true, beq_iff_eq] at h1
      obtain ⟨rfl, rfl⟩ := h1
      have := hcr rfl
      subst this
      have := ih false line last ['\n'] (by simpa using hl) (Or.inr ⟨rfl, [], rfl, by simp⟩) (by simp)
      simpa using this
    · rw [if_neg h1]
      by_cases hn : c ∈ newlineChars
      · rw [if_pos ((isLineBreak_iff c).2 hn)]
        have h2 : currentLine (pre ++ c :: cs) = currentLine cs := currentLine_newline hn
        rw [h2]
        exact ih (c == '\r') (line + 1) cs [] rfl (Or.inl (by simp)) (fun _ => rfl)
      · rw [if_neg (by rw [isLineBreak_iff]; exact hn)]
        have := ih (c == '\r') line last (pre ++ [c]) (by simpa using hl) ?_ ?_
        · simpa using this
        · rcases hp with hp | ⟨_, q, rfl, hq⟩
          · left
            intro x hx
            rcases List.mem_append.1 hx with hx | hx
            · exact hp x hx
            · rw [List.mem_singleton] at hx; rw [hx]; exact hn
          · right
            refine ⟨?_, q ++ [c], rfl, ?_⟩
            · simp only [beq_eq_false_iff_ne]; rintro rfl; exact hn (by decide)
            · intro x hx
              rcases List.mem_append.1 hx with hx | hx
              · exact hq x hx
              · rw [List.mem_singleton] at hx; rw [hx]; exact hn
        · intro h
          rw [beq_iff_eq] at h
          subst h
          exact absurd (by decide) hn

end Knuffel
