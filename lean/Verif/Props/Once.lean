import Verif.Props.Ordered
/-!
# C88: no place is reported twice, and there are no more diagnostics than places
-/

namespace Knuffel

/-- **C88** Every diagnostic but the last points at one character at least. -/
theorem c88_something {text : Str} {es : List (PErr Nat)} (h : parseAst text = some (.error es)) :
    ∀ e ∈ es.dropLast, e.place.start < e.place.stop := (Ordered.parse_strict h).2

/-- **C88** Of two diagnostics the one listed first begins earlier: no two are about the same place. -/
theorem c88_once {text : Str} {es : List (PErr Nat)} (h : parseAst text = some (.error es)) :
    es.Pairwise (fun a b => a.place.start < b.place.start) := by
  have key : ∀ l : List (PErr Nat), InOrder l → (∀ e ∈ l.dropLast, e.place.start < e.place.stop) →
      l.Pairwise (fun a b => a.place.start < b.place.start) := by
    intro l
    induction l with
    | nil => intro _ _; exact List.Pairwise.nil
    | cons a l ih =>
      intro h1 h2
      unfold InOrder at h1
      rw [List.pairwise_cons] at h1
      cases l with
      | nil => exact List.pairwise_singleton _ _
      | cons b l =>
        refine List.Pairwise.cons ?_ (ih h1.2 fun e he => h2 e ?_)
        · intro c hc
          exact Nat.lt_of_lt_of_le (h2 a (by simp)) (h1.1 c hc)
        · simp only [List.dropLast_cons_cons, List.mem_cons]
          exact Or.inr he
  exact key es (c79_in_order h) (c88_something h)

/-- **C88**, with line spans. -/
theorem c88_once_line {width : Char → Nat} {strWidth : Str → Nat} {text : Str} {es : List (PErr LinePos)}
    (h : parseAstLine width strWidth text = some (.error es)) :
    (es.map (PErr.mapSpan LinePos.toOffsetSpan)).Pairwise (fun a b => a.place.start < b.place.start) := by
  rcases c21_line_agrees width strWidth text with ⟨d, h1, -⟩ | ⟨es', h1, h2⟩
  · rw [h1] at h; simp at h
  · rw [h1] at h
    simp only [Option.some.injEq, Except.error.injEq] at h
    subst h
    exact c88_once h2

theorem place_le {text : Str} {es : List (PErr Nat)} (h : parseAst text = some (.error es)) :
    ∀ e ∈ es, e.place.start ≤ byteLen text := by
  intro e he
  have h1 := c46_error_spans text es h e he
  cases e with
  | unexpected l sp f ex => have := h1 sp (by simp [PErr.spans]); simp only [PErr.place]; omega
  | unclosed l oa o ea c f => have := h1 oa (by simp [PErr.spans]); simp only [PErr.place]; omega
  | message l sp m => have := h1 sp (by simp [PErr.spans]); simp only [PErr.place]; omega
  | messageWithHelp l sp m hp => have := h1 sp (by simp [PErr.spans]); simp only [PErr.place]; omega

/-- **C88** So there are at most as many diagnostics as bytes, and one more. -/
theorem c88_count {text : Str} {es : List (PErr Nat)} (h : parseAst text = some (.error es)) :
    es.length ≤ byteLen text + 1 := by
  have key : ∀ (l : List (PErr Nat)) (k n : Nat), l.Pairwise (fun a b => a.place.start < b.place.start) →
      (∀ e ∈ l, k ≤ e.place.start ∧ e.place.start ≤ n) → k ≤ n + 1 → l.length + k ≤ n + 1 := by
    intro l
    induction l with
    | nil => intro k n _ _ hk; simpa using hk
    | cons a l ih =>
      intro k n h1 h2 hk
      rw [List.pairwise_cons] at h1
      have ha := h2 a (by simp)
      have := ih (k + 1) n h1.2 (fun e he => ⟨by have := h1.1 e he; omega, (h2 e (by simp [he])).2⟩) (by omega)
      simp only [List.length_cons]
      omega
  have := key es 0 (byteLen text) (c88_once h) (fun e he => ⟨Nat.zero_le _, place_le h e he⟩) (by omega)
  simpa using this

/-- **C88**, with line spans. -/
theorem c88_count_line {width : Char → Nat} {strWidth : Str → Nat} {text : Str} {es : List (PErr LinePos)}
    (h : parseAstLine width strWidth text = some (.error es)) : es.length ≤ byteLen text + 1 := by
  rcases c21_line_agrees width strWidth text with ⟨d, h1, -⟩ | ⟨es', h1, h2⟩
  · rw [h1] at h; simp at h
  · rw [h1] at h
    simp only [Option.some.injEq, Except.error.injEq] at h
    subst h
    simpa using c88_count h2

/-- Three words without quotes are reported, and the last diagnostic is at the end of the text, where there is no character: hence "but
the last". -/
example : ∃ es, parseAst "n a b c=".toList = some (.error es) ∧
    es.map (fun (e : PErr Nat) => (e.place.start, e.place.stop)) = [(2, 3), (4, 5), (6, 7), (8, 8)] :=
  OrderedDemo.placesOf_spec (by decide +kernel) (by simp)

end Knuffel
