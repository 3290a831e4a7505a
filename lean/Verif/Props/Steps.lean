import Verif.Theory.StepsLook
import Verif.Theory.StepsLower
import Verif.Model.Wrappers
import Verif.Theory.Meaning
/-!
# How much work parsing takes

C69: the parser looks at the input at most quadratically often in the length of
the text, provided that every block comment opened in it is closed; without that
the number of looks can be exponential.
-/

namespace Knuffel
open Cst

/-- Wherever a block comment opens, reading on from there it is closed. -/
def CommentsClosed (text : Str) : Prop :=
  ∀ u v, text = u ++ '/' :: '*' :: v → afterComment 1 v ≠ none

theorem offsetToks_len (n : Nat) (text : Str) : (offsetToks n text).length = text.length := by
  rw [← chars_length, chars_offsetToks]

/-- C69: what is counted are the looks of the parser itself: without the
numbers, the counted parser is the parser. -/
theorem c69_counted_is_parser {O : Type} [Offset O] :
    (Steps.document : PS O (Document (Sp O))).run = document := Steps.run_document

/-- C69: an accepted text has been looked at at least once per character. -/
theorem c69_at_least {text : Str} {doc} (h : parseAst text = some (.ok doc)) : text.length ≤ parseSteps text := by
  have h1 := Steps.look_document (O := Nat) (offsetEoi text) (offsetToks 0 text)
  rw [offsetToks_len, c69_counted_is_parser] at h1
  have hr : (document (offsetEoi text) (offsetToks 0 text)).rest = [] := by
    have hok : ∃ x, (document (offsetEoi text) (offsetToks 0 text)).out = .ok x := by
      unfold parseAst runParser at h
      cases ho : (document (offsetEoi text) (offsetToks 0 text)).out with
      | ok x => exact ⟨x, rfl⟩
      | error e => simp [ho] at h
    obtain ⟨x, hx⟩ := hok
    have : ∀ (eoi : Sp Nat) (s : List (Tok Nat)) x, (document eoi s).out = .ok x → (document eoi s).rest = [] := by
      intro eoi s x hx
      unfold document pmap thenIgnore bind at hx ⊢
      simp only at hx ⊢
      cases hn : (nodes eoi s).out with
      | error e => simp [hn] at hx
      | ok y =>
        simp only [hn] at hx ⊢
        cases hs : (nodes eoi s).rest with
        | nil => simp [pmap, endP, pok]
        | cons t ts => simp [hs, pmap, endP, pfail] at hx
    exact this _ _ _ hx
  rw [hr] at h1
  exact h1

example : (parseAst "a 1 {\n b; }".toList).isSome ∧ ∃ d, parseAst "a 1 {\n b; }".toList = some (.ok d) ∧
    11 ≤ parseSteps "a 1 {\n b; }".toList := by
  have h : ∃ d, parseAst "a 1 {\n b; }".toList = some (.ok d) := ⟨_, by rfl⟩
  obtain ⟨d, hd⟩ := h
  exact ⟨by rw [hd]; rfl, d, hd, c69_at_least hd⟩

/-- C69 (partial: texts in which a `/*`, also one inside a string, is not followed
by its end are left out; for those see `c69_exponential`): the parser looks at the input at most
`3421 * (n + 1) ^ 2` times, `n` being the length of the text, whether the text is
accepted or not. -/
theorem c69_quadratic_partial {text : Str} (h : CommentsClosed text) :
    parseSteps text ≤ 3421 * (text.length + 1) ^ 2 := by
  have h1 := Steps.cost_document (offsetEoi text) (offsetToks 0 text)
    (show Steps.Closed (offsetToks 0 text) by unfold Steps.Closed; rw [chars_offsetToks]; exact h)
  unfold Steps.W at h1
  rw [offsetToks_len] at h1
  rw [Nat.pow_two]
  exact h1

/-- In particular for texts without block comments. -/
theorem c69_no_comments_partial {text : Str} (h : ¬ ['/', '*'] <:+: text) :
    parseSteps text ≤ 3421 * (text.length + 1) ^ 2 :=
  c69_quadratic_partial fun u v e => absurd ⟨u, v, by rw [e]; simp⟩ h

example : ¬ ['/', '*'] <:+: "a 1 {\n b x=\"/\"; }\nc { {".toList ∧
    parseAst "a 1 {\n b x=\"/\"; }\nc { {".toList ≠ none := by
  refine ⟨?_, by rw [show parseAst "a 1 {\n b x=\"/\"; }\nc { {".toList = some _ from rfl]; simp⟩
  rintro ⟨u, v, h⟩
  have key : ∀ (s u v : Str), u ++ ['/', '*'] ++ v = s →
      (List.range (s.length + 1)).all (fun i => !['/', '*'].isPrefixOf (s.drop i)) = false := by
    intro s u v e
    rw [List.all_eq_false]
    refine ⟨u.length, ?_, ?_⟩
    · rw [List.mem_range, ← e]; simp; omega
    · rw [← e, List.append_assoc, List.drop_left]; simp
  have := key _ u v h
  revert this; decide

/-- C69: the code does not keep to any such bound on all texts.  Comments opened
and never closed: `/* ` written `n + 1` times takes at least `2 ^ n` looks. -/
theorem c69_exponential (n : Nat) :
    2 ^ n ≤ parseSteps (List.replicate (n + 1) ['/', '*', ' ']).flatten := by
  refine Steps.cost_document_ge (n := n) ?_
  rw [chars_offsetToks]
  induction n with
  | zero => rfl
  | succ n ih =>
    rw [List.replicate_succ, List.flatten_cons, ih]
    rfl

/-- C69: the code does not keep to a polynomial bound, whatever its degree. -/
theorem c69_no_polynomial_bound (k K : Nat) : ∃ text : Str, K * (text.length + 1) ^ k < parseSteps text := by
  -- `n = 2 ^ (2 i)` times, with `i` large enough
  have hi : ∃ i, i = K + 3 * k + 2 := ⟨_, rfl⟩
  obtain ⟨i, hi⟩ := hi
  have h1 : i + 1 ≤ 2 ^ i := Nat.lt_two_pow_self
  have h2 : (i + 1) * (i + 1) ≤ 2 ^ (2 * i) := by
    rw [Nat.two_mul, Nat.pow_add]; exact Nat.mul_le_mul h1 h1
  have h3 : K + k * (2 * i + 3) ≤ (i + 1) * (i + 1) := by
    have a1 : (K + 3 * k) * (i + 1) ≤ (i + 1) * (i + 1) := Nat.mul_le_mul (by omega) (Nat.le_refl _)
    have a2 : K ≤ K * (i + 1) := Nat.le_mul_of_pos_right _ (by omega)
    have a3 : k * (2 * i + 3) ≤ 3 * k * (i + 1) := by
      rw [Nat.mul_comm 3 k, Nat.mul_assoc]
      exact Nat.mul_le_mul (Nat.le_refl _) (by omega)
    rw [Nat.add_mul] at a1
    omega
  generalize hn : 2 ^ (2 * i) = n at *
  refine ⟨(List.replicate (n + 1) ['/', '*', ' ']).flatten, ?_⟩
  have hlen : ((List.replicate (n + 1) ['/', '*', ' ']).flatten).length + 1 ≤ 2 ^ (2 * i + 3) := by
    have e : ((List.replicate (n + 1) ['/', '*', ' ']).flatten).length = 3 * (n + 1) := by
      simp [List.length_flatten]; omega
    have a4 : 2 ^ (2 * i + 3) = 8 * n := by rw [Nat.pow_add, hn]; omega
    have a5 : (i + 1) * (i + 1) ≥ 1 := Nat.mul_pos (by omega) (by omega)
    omega
  have h4 : ((List.replicate (n + 1) ['/', '*', ' ']).flatten.length + 1) ^ k ≤ 2 ^ (k * (2 * i + 3)) := by
    rw [Nat.mul_comm, Nat.pow_mul]; exact Nat.pow_le_pow_left hlen k
  have h5 : K < 2 ^ K := Nat.lt_two_pow_self
  have h6 : 2 ^ (K + k * (2 * i + 3)) ≤ 2 ^ n := Nat.pow_le_pow_right (by omega) (by omega)
  have h7 := c69_exponential n
  calc K * ((List.replicate (n + 1) ['/', '*', ' ']).flatten.length + 1) ^ k
      ≤ K * 2 ^ (k * (2 * i + 3)) := Nat.mul_le_mul (Nat.le_refl _) h4
    _ < 2 ^ K * 2 ^ (k * (2 * i + 3)) := Nat.mul_lt_mul_of_pos_right h5 (Nat.pow_pos (by omega))
    _ = 2 ^ (K + k * (2 * i + 3)) := (Nat.pow_add ..).symm
    _ ≤ 2 ^ n := h6
    _ ≤ _ := h7

/-- Such a text: ten openings, none closed; it has thirty characters and is looked
at more than five hundred times. -/
example : (List.replicate 10 ['/', '*', ' ']).flatten.length = 30 ∧
    ¬ CommentsClosed (List.replicate 10 ['/', '*', ' ']).flatten ∧
    512 ≤ parseSteps (List.replicate 10 ['/', '*', ' ']).flatten :=
  ⟨rfl, fun h => h [] _ rfl (by decide), c69_exponential 9⟩

/-- A text with nested comments, all closed. -/
example : CommentsClosed "a /* x /* y */ z */ 1".toList := by
  intro u v e
  have key : ∀ (s u v : Str), s = u ++ '/' :: '*' :: v →
      v = s.drop (u.length + 2) ∧ ['/', '*'].isPrefixOf (s.drop u.length) = true ∧ u.length < s.length := by
    intro s u v e
    subst e
    refine ⟨by simp, by simp, by simp⟩
  obtain ⟨h1, h2, h3⟩ := key _ _ _ e
  generalize u.length = m at *
  subst h1
  have hm : m < 21 := h3
  have : ∀ m < 21, ['/', '*'].isPrefixOf ("a /* x /* y */ z */ 1".toList.drop m) = true →
      afterComment 1 ("a /* x /* y */ z */ 1".toList.drop (m + 2)) ≠ none := by decide
  exact this m hm h2

end Knuffel
