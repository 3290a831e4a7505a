import Verif.Theory.Size
import Verif.Props.Meaning
/-!
# C87: a document is not larger than its text
-/

namespace Knuffel
open Cst

/-- **C87** A document cannot be larger than the text it was read from: what it cannot be written without (each name, string and
digit, the brackets, quotes, separators and terminators; the last node needs no terminator) is there in the text. -/
theorem c87_not_larger {text : Str} {d : Document (Sp Nat)} (h : parseAst text = some (.ok d)) : d.least ≤ bytes text + 1 := by
  obtain ⟨b, h1, h2, h3⟩ := c06_derivable text d h
  have := (size_body (byteSpan text) false b 0 [] h1).1
  rw [h3, ← h2]
  rw [← h2] at this
  exact this

/-- **C87**, with line spans. -/
theorem c87_not_larger_line {width : Char → Nat} {strWidth : Str → Nat} {text : Str} {d : Document (Sp LinePos)}
    (h : parseAstLine width strWidth text = some (.ok d)) : d.least ≤ bytes text + 1 := by
  obtain ⟨b, h1, h2, h3⟩ := c06_derivable_line width strWidth text d h
  have := (size_body (trackSpan width text) false b 0 [] h1).1
  unfold Document.least
  rw [h3, ← h2]
  rw [← h2] at this
  exact this

/-- **C87** The number of nodes and of values is bounded by the length of the text: two bytes for each node and one at least for each
argument or property. -/
theorem c87_counts {text : Str} {d : Document (Sp Nat)} (h : parseAst text = some (.ok d)) :
    2 * nodesCount d.nodes + nodesEntries d.nodes ≤ bytes text + 1 :=
  Nat.le_trans (count_nodes d.nodes) (c87_not_larger h)

/-- The size of the document of a text, and that of the text. -/
def sizesOf (text : Str) : Option (Nat × Nat) :=
  match parseAst text with
  | some (.ok d) => some (d.least, bytes text)
  | _ => none

/-- The bound is reached: with a node left without terminator, an annotation, an empty name, a hexadecimal number and braces. -/
example : sizesOf "(t)\"\" 0x1F \"é\"=null{a;b true}".toList = none ∧
    sizesOf "(t)\"\" 0x1F é=null{a;b true;}".toList = some (30, 29) ∧ sizesOf "n".toList = some (2, 1) := by
  refine ⟨?_, ?_, ?_⟩ <;> decide +kernel

/-- It is not always: escapes, comments and repeated properties cost more than what they say. -/
example : sizesOf "n \"\\u{41}\" a=1 a=2 /-3\n".toList = some (10, 23) := by decide +kernel

/-- **C87** In particular no string of the document is longer than the text, quotes included. -/
theorem c87_string {text : Str} {d : Document (Sp Nat)} (h : parseAst text = some (.ok d)) {n : Spanned (Node (Sp Nat)) (Sp Nat)}
    (hn : n ∈ d.nodes) {v : Value (Sp Nat)} (hv : v ∈ n.value.arguments) {s : Str} (hs : v.literal.value = .string s) :
    bytes s + 2 ≤ bytes text := by
  have h1 : ∀ l : List (Spanned (Node (Sp Nat)) (Sp Nat)), n ∈ l → n.value.least ≤ nodesLeast l := by
    intro l hl
    induction l with
    | nil => cases hl
    | cons m l ih =>
      obtain ⟨sp, m⟩ := m
      rcases List.mem_cons.1 hl with rfl | hl
      · simp [nodesLeast]
      · have := ih hl
        simp only [nodesLeast]
        omega
  have h2 := h1 _ hn
  have h3 := c87_not_larger h
  have h4 : ∀ l : List (Value (Sp Nat)), v ∈ l → v.least + 1 ≤ argsLeast l := by
    intro l hl
    induction l with
    | nil => cases hl
    | cons m l ih =>
      rcases List.mem_cons.1 hl with rfl | hl
      · simp [argsLeast]
      · have := ih hl
        simp only [argsLeast, List.map_cons, List.sum_cons] at this ⊢
        omega
  obtain ⟨sp, n⟩ := n
  cases n with
  | mk ty nm args props ch =>
    have h5 := h4 args hv
    have h6 : v.least = typeLeast v.typeName + (bytes s + 2) := by unfold Value.least; rw [hs]; rfl
    have h7 := nameLeast_pos nm.value
    simp only [Node.least] at h2
    unfold Document.least at h3
    omega

/-- A text with a string of two bytes. -/
example : ∃ d : Document (Sp Nat), parseAst "n \"é\"".toList = some (.ok d) ∧
    ∃ n ∈ d.nodes, ∃ v ∈ n.value.arguments, v.literal.value = .string "é".toList := by
  have h : (match parseAst "n \"é\"".toList with
      | some (.ok d) => d.nodes.any fun n => n.value.arguments.any fun v => v.literal.value == .string "é".toList
      | _ => false) = true := by decide +kernel
  split at h
  · rename_i d hd
    simp only [List.any_eq_true, beq_iff_eq] at h
    exact ⟨d, hd, h⟩
  · cases h

end Knuffel
