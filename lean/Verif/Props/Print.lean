import Verif.Theory.Print
/-!
# Printing and parsing

C03: a document written out in KDL syntax is read back.
-/

namespace Knuffel
open Cst

/-- **C03**, for all documents in which no type name is the built-in `usize` or `isize`:
writing the document out and parsing gives the same document. -/
theorem c03_roundtrip_partial (d : Document Unit) (h : d.Printable ReadableType) :
    ∃ d', parseAst (printDoc d) = some (.ok d') ∧ d'.erase = d := doc_cst readable_roundtrip d h

/-- **C03**, for every document that comes from a text: it can be written out, and is
read back. -/
theorem c03_reprint (text : Str) (d : Document (Sp Nat)) (h : parseAst text = some (.ok d)) :
    ∃ d', parseAst (printDoc d.erase) = some (.ok d') ∧ d'.erase = d.erase :=
  doc_cst readable_roundtrip _ (parsed_printable h)

/-- A document: a node with a type, a string, a negative hexadecimal number, a decimal, two
properties and two levels of children. -/
def printDemo : Document Unit :=
  ⟨[⟨(), .mk (some ⟨(), .custom "a b".toList⟩) ⟨(), "".toList⟩
      [⟨none, ⟨(), .string "\"\\\n".toList⟩⟩, ⟨some ⟨(), .builtin .i64⟩, ⟨(), .int .hex "-fF".toList⟩⟩,
       ⟨none, ⟨(), .decimal "+1.5e-7".toList⟩⟩]
      [(⟨(), "a".toList⟩, ⟨none, ⟨(), .null⟩⟩), (⟨(), "null".toList⟩, ⟨none, ⟨(), .bool false⟩⟩)]
      (some ⟨(), [⟨(), .mk none ⟨(), "x".toList⟩ [] [] (some ⟨(), [⟨(), .mk none ⟨(), "y".toList⟩ [] [] none⟩]⟩)⟩,
        ⟨(), .mk none ⟨(), "z".toList⟩ [] [] (some ⟨(), []⟩)⟩]⟩)⟩]⟩

theorem printDemo_ok : printDemo.Printable ReadableType := by
  refine ⟨⟨?_, ?_, ?_, by decide, ⟨⟨by simp, by simp, by simp, by simp, ⟨by simp, by simp, by simp, by simp, trivial⟩, trivial⟩,
    ⟨by simp, by simp, by simp, by simp, trivial⟩, trivial⟩⟩, trivial⟩
  · intro t ht
    cases ht
    simp only [ReadableType]
    decide
  · intro v hv
    simp only [List.mem_cons, List.not_mem_nil, or_false] at hv
    rcases hv with rfl | rfl | rfl
    · exact ⟨by simp, trivial⟩
    · refine ⟨?_, Or.inr ⟨"fF".toList, Or.inl rfl, by decide, by decide⟩⟩
      intro t ht
      cases ht
      simp only [ReadableType]
      decide
    · refine ⟨by simp, Or.inr ⟨"1.5e-7".toList, Or.inr rfl, ['1'], ".5".toList, "e-7".toList, rfl, ⟨by decide, by decide⟩, by decide,
        Or.inr ⟨['5'], rfl, by decide, by decide⟩, Or.inr ⟨'e', "-7".toList, Or.inl rfl, rfl, Or.inr ⟨['7'], Or.inl rfl, ?_⟩⟩⟩⟩
      unfold Digits0
      decide
  · intro kv hkv
    simp only [List.mem_cons, List.not_mem_nil, or_false] at hkv
    rcases hkv with rfl | rfl <;> exact ⟨by simp, trivial⟩

example : ∃ d', parseAst (printDoc printDemo) = some (.ok d') ∧ d'.erase = printDemo := c03_roundtrip_partial _ printDemo_ok

/-- The node `n (usize)1`. -/
def usizeDoc : Document Unit :=
  ⟨[⟨(), .mk none ⟨(), ['n']⟩ [⟨some ⟨(), .builtin .usize⟩, ⟨(), .int .dec ['1']⟩⟩] [] none⟩]⟩

/-- **C03 fails** for the built-in types `usize` and `isize`: the document of
`n (usize)1` is read back with a custom type `usize`. -/
theorem c03_fails : usizeDoc.Printable ProperType ∧ printDoc usizeDoc = "\"n\" (\"usize\")1\n".toList ∧
    ∃ d, parseAst (printDoc usizeDoc) = some (.ok d) ∧ d.erase ≠ usizeDoc := by
  refine ⟨⟨⟨by simp, ?_, by simp, by simp, trivial⟩, trivial⟩, by decide, ?_⟩
  · intro v hv
    simp only [List.mem_cons, List.not_mem_nil, or_false] at hv
    subst hv
    refine ⟨?_, Or.inl ⟨by decide, by decide⟩⟩
    intro t ht
    cases ht
    trivial
  · obtain ⟨d, h1, h2⟩ := c03_roundtrip_partial
      ⟨[⟨(), .mk none ⟨(), ['n']⟩ [⟨some ⟨(), .custom "usize".toList⟩, ⟨(), .int .dec ['1']⟩⟩] [] none⟩]⟩ (by
        refine ⟨⟨by simp, ?_, by simp, by simp, trivial⟩, trivial⟩
        intro v hv
        simp only [List.mem_cons, List.not_mem_nil, or_false] at hv
        subst hv
        refine ⟨?_, Or.inl ⟨by decide, by decide⟩⟩
        intro t ht
        cases ht
        simp only [ReadableType]
        decide)
    refine ⟨d, h1, ?_⟩
    rw [h2]
    simp [usizeDoc]

end Knuffel
