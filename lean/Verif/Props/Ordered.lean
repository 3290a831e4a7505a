import Verif.Theory.OrderedDoc
import Verif.Props.Total
/-!
# Diagnostics in the order of the text

C79: what a failed parse reports comes in the order of the text, and the parts that two
diagnostics point at do not overlap.
-/

namespace Knuffel

/-- **C79**: the diagnostics of a text that is rejected are in its order: each begins where
those before it have ended, or later. -/
theorem c79_in_order {text : Str} {es : List (PErr Nat)} (h : parseAst text = some (.error es)) : InOrder es :=
  Ordered.parse_inOrder h

/-- **C79**, with line spans. -/
theorem c79_in_order_line {width : Char → Nat} {strWidth : Str → Nat} {text : Str} {es : List (PErr LinePos)}
    (h : parseAstLine width strWidth text = some (.error es)) : InOrder (es.map (PErr.mapSpan LinePos.toOffsetSpan)) := by
  rcases c21_line_agrees width strWidth text with ⟨d, h1, -⟩ | ⟨es', h1, h2⟩
  · rw [h1] at h; simp at h
  · rw [h1] at h
    simp only [Option.some.injEq, Except.error.injEq] at h
    subst h
    exact c79_in_order h2

/-- **C79**, for two of them: the one listed first ends before the other begins. -/
theorem c79_before {text : Str} {as bs cs : List (PErr Nat)} {a b : PErr Nat}
    (h : parseAst text = some (.error (as ++ a :: bs ++ b :: cs))) : a.place.stop ≤ b.place.start := by
  have h1 := c79_in_order h
  unfold InOrder at h1
  rw [List.pairwise_append] at h1
  exact h1.2.2 a (by simp) b (by simp)

namespace OrderedDemo

/-- The places of the diagnostics of a text. -/
def placesOf (text : Str) : List (Nat × Nat) :=
  match parseAst text with
  | some (.error es) => es.map (fun (e : PErr Nat) => (e.place.start, e.place.stop))
  | _ => []

theorem placesOf_spec {text : Str} {l : List (Nat × Nat)} (h : decide (placesOf text = l) = true) (hne : l ≠ []) :
    ∃ es, parseAst text = some (.error es) ∧ es.map (fun (e : PErr Nat) => (e.place.start, e.place.stop)) = l := by
  have h := of_decide_eq_true h
  unfold placesOf at h
  split at h
  · rename_i es hp
    exact ⟨es, hp, h⟩
  · exact absurd h.symm hne

/-- Words without quotes and bad escapes at two levels, and a comment that is not closed. -/
example : ∃ es, parseAst "n a\nm \"\\u{z}\" {\n  k x /* ".toList = some (.error es) ∧
    es.map (fun (e : PErr Nat) => (e.place.start, e.place.stop)) = [(2, 3), (10, 11), (22, 25)] :=
  placesOf_spec (by decide +kernel) (by simp)

end OrderedDemo
end Knuffel
