import Verif.Theory.Extend
import Verif.Props.Reject
/-!
# Texts one after the other

C64: parsing a text that is put together from two texts.
-/

namespace Knuffel
open Cst

/-- All spans moved to the right by `n` bytes. -/
def Document.moved (n : Nat) (d : Document (Sp Nat)) : Document (Sp Nat) :=
  d.mapSpan (fun s => ⟨s.start + n, s.stop + n⟩)

theorem byteSpan_append (a w : Str) {i j : Nat} (hi : i ≤ j) (hj : j ≤ a.length) :
    byteSpan (a ++ w) i j = byteSpan a i j := by
  unfold byteSpan
  rw [List.take_append_of_le_length (by omega), List.take_append_of_le_length hj]

theorem value_prefix {str : Bool} {a : BodyC} {w fol : Str} (hok : a.Ok str fol) :
    a.value (byteSpan (a.text ++ w)) 0 = a.value (byteSpan a.text) 0 := by
  rw [← mapNodes_id (a.value (byteSpan (a.text ++ w)) 0)]
  refine body_map a (n := a.text.length) ?_ (Nat.le_refl _) hok
  intro i j i' j' _ h1 h2 h3 h4
  have : i' = i := by omega
  have : j' = j := by omega
  subst i' j'
  exact byteSpan_append _ _ (by omega) (by omega)

theorem value_spf {str : Bool} {a : BodyC} {w fol : Str} (hok : a.Ok str fol) :
    a.value (spf (offsetEoi (a.text ++ w)) (offsetToks 0 (a.text ++ w))) 0 = a.value (byteSpan a.text) 0 := by
  rw [← mapNodes_id (a.value (spf _ _) 0), ← value_prefix (w := w) hok]
  refine body_map a (n := a.text.length) ?_ (Nat.le_refl _) hok
  intro i j i' j' h0 h1 h2 h3 h4
  exact spanRel_byte (a.text ++ w) i j i' j' h0 h1 (by simp only [List.length_append]; omega) h3 h4

/-- **C64.** A text begins with the legal nodes `a` (complete, given that `w` follows) and goes
on with any text `w`: it parses if and only if `w` does, and the result is the nodes of `a`
and then the nodes of `w`, with the spans of the latter moved by the length of `a`. -/
theorem c64_prefix (a : BodyC) (w : Str) (ha : a.Ok true w) (d : Document (Sp Nat)) :
    parseAst (a.text ++ w) = some (.ok d) ↔
      ∃ dw, parseAst w = some (.ok dw) ∧
        d.nodes = a.value (byteSpan a.text) 0 ++ (dw.moved (byteLen a.text)).nodes := by
  obtain ⟨n, hn⟩ : ∃ n, n = byteLen a.text := ⟨_, rfl⟩
  rw [← hn]
  have hr := Rel.run_document (R := shiftRel n (offsetEoi w)) (s := offsetToks 0 w)
    (s' := offsetToks n w) (by
      have := (offsetToks_shift n w 0).symm
      rw [Nat.zero_add] at this
      exact this)
  have he : (shiftRel n (offsetEoi w)).eoi' = offsetEoi (a.text ++ w) := by
    show shiftSp n (offsetEoi w) = _
    simp only [shiftSp, offsetEoi, byteLen_append, ← hn, Nat.add_comm]
  rw [he] at hr
  have hT : Takes (offsetToks 0 (a.text ++ w)) a.text (offsetToks n w) := by
    refine ⟨offsetToks 0 a.text, ?_, chars_offsetToks _ _⟩
    rw [offsetToks_append, ← hn, Nat.zero_add]
  have hd : parseAst (a.text ++ w) = some (.ok d) ↔
      ∃ d', runParser document (offsetEoi (a.text ++ w)) (offsetToks n w) = some (.ok d') ∧
        d.nodes = a.value (byteSpan a.text) 0 ++ d'.nodes := by
    rw [parseAst_ok_iff, document_body a (by rw [chars_offsetToks]; exact ha) hT]
    simp only [run_ok_iff, value_spf ha]
  rw [hd]
  unfold parseAst
  rcases hr with ⟨d1, d2, h1, h2, h3⟩ | ⟨es, es', h1, h2, h3⟩ | ⟨h1, h2⟩
  · have h3' : d1.mapSpan (shiftSp n) = d2 := h3.trans (mapSpan_id d2)
    rw [show runParser document (offsetEoi w) (offsetToks 0 w) = some (.ok d1) from h1, h2, ← h3']
    simp only [Option.some.injEq, Except.ok.injEq]
    constructor
    · rintro ⟨_, rfl, h⟩; exact ⟨_, rfl, h⟩
    · rintro ⟨_, rfl, h⟩; exact ⟨_, rfl, h⟩
  · rw [show runParser document (offsetEoi w) (offsetToks 0 w) = some (.error es) from h1, h2]
    simp
  · rw [show runParser document (offsetEoi w) (offsetToks 0 w) = none from h1, h2]
    simp

/-- What remains of a node when the end of its span is forgotten. -/
def openEnd (n : SpannedNode (Sp Nat)) : Nat × Node (Sp Nat) := (n.span.start, n.value)

/-- The document of two texts put together: the nodes of the first, as they were (only
the end of a node may have moved), and then the nodes of the second, moved by `n` bytes. -/
def Joined (n : Nat) (da dw d : Document (Sp Nat)) : Prop :=
  ∃ ns, d.nodes = ns ++ (dw.moved n).nodes ∧ ns.map openEnd = da.nodes.map openEnd

theorem concat_newlines {a : Str} {da : Document (Sp Nat)} (ha : parseAst a = some (.ok da)) (ht : NoTie a)
    (K : Nat) (hK : 1 ≤ K) (hK' : K = 1 → '\\' ∉ a) (w : Str) :
    (∀ dw, parseAst w = some (.ok dw) →
      ∃ d, parseAst (a ++ List.replicate K '\n' ++ w) = some (.ok d) ∧ Joined (byteLen a + K) da dw d) ∧
    (Rejected w → Rejected (a ++ List.replicate K '\n' ++ w)) := by
  obtain ⟨b, hb, rfl, rfl⟩ := (c06_exact a ht da).1 ha
  obtain ⟨b', h1, h2, h3⟩ := ext_body b hb K hK hK'
  have hlf : byteLen (List.replicate K '\n') = K := by
    clear hK hK' h1
    induction K with
    | zero => rfl
    | succ K ih => rw [List.replicate_succ]; simp only [byteLen]; rw [ih, show ('\n').utf8Size = 1 by decide]; omega
  have hlen : byteLen b'.text = byteLen b.text + K := by rw [h1, byteLen_append, hlf]
  have hv : (b'.value (byteSpan b'.text) 0).map openEnd = (b.value (byteSpan b.text) 0).map openEnd := by
    have := h3 (byteSpan b'.text) Sp.start (fun _ _ _ => rfl) 0
    rw [← value_prefix (a := b) (w := List.replicate K '\n') hb, ← h1]
    exact this
  have hp := fun d => c64_prefix b' w (h2 w) d
  rw [hlen] at hp
  rw [← h1]
  constructor
  · intro dw hw
    exact ⟨⟨_⟩, (hp _).2 ⟨dw, hw, rfl⟩, _, rfl, hv⟩
  · intro hw
    refine rejected_of fun d hd => ?_
    obtain ⟨dw, hdw, -⟩ := (hp d).1 hd
    obtain ⟨es, he⟩ := hw
    rw [he] at hdw
    simp at hdw

/-- **C64.** If the text `a` parses, then after two newlines any text `w` can follow: it is
parsed as if it were alone, and its nodes come after those of `a`.  (Proviso: `a` does not
contain the characters `/*/`; see C19.) -/
theorem c64_two_newlines (a w : Str) (da : Document (Sp Nat)) (ha : parseAst a = some (.ok da)) (ht : NoTie a) :
    (∀ dw, parseAst w = some (.ok dw) →
      ∃ d, parseAst (a ++ ['\n', '\n'] ++ w) = some (.ok d) ∧ Joined (byteLen a + 2) da dw d) ∧
    (Rejected w → Rejected (a ++ ['\n', '\n'] ++ w)) :=
  concat_newlines ha ht 2 (by decide) (fun h => absurd h (by decide)) w

/-- **C64.** One newline is enough if `a` contains no backslash (no line continuation). -/
theorem c64_one_newline (a w : Str) (da : Document (Sp Nat)) (ha : parseAst a = some (.ok da)) (ht : NoTie a)
    (hb : '\\' ∉ a) :
    (∀ dw, parseAst w = some (.ok dw) →
      ∃ d, parseAst (a ++ ['\n'] ++ w) = some (.ok d) ∧ Joined (byteLen a + 1) da dw d) ∧
    (Rejected w → Rejected (a ++ ['\n'] ++ w)) :=
  concat_newlines ha ht 1 (by decide) (fun _ => hb) w

/-- The text `n { m // x⏎} // y`, and then `(u8)a 1`. -/
example : ∃ da dw d, parseAst "n { m // x\n} // y".toList = some (.ok da) ∧ parseAst "(u8)a 1".toList = some (.ok dw) ∧
    parseAst ("n { m // x\n} // y".toList ++ ['\n'] ++ "(u8)a 1".toList) = some (.ok d) ∧ Joined 18 da dw d ∧
    da.nodes.length = 1 ∧ dw.nodes.length = 1 := by
  obtain ⟨da, ha, hla⟩ := of_parse (text := "n { m // x\n} // y".toList) (fun d => decide (d.nodes.length = 1)) (by decide +kernel)
  obtain ⟨dw, hw, hlw⟩ := of_parse (text := "(u8)a 1".toList) (fun d => decide (d.nodes.length = 1)) (by decide +kernel)
  obtain ⟨d, hd, hj⟩ := (c64_one_newline _ "(u8)a 1".toList da ha (by unfold NoTie; decide +kernel) (by decide +kernel)).1 dw hw
  exact ⟨da, dw, d, ha, hw, hd, by rwa [show byteLen "n { m // x\n} // y".toList + 1 = 18 by decide +kernel] at hj, of_decide_eq_true hla, of_decide_eq_true hlw⟩

/-- With a line continuation one newline is not enough: `n \ // x` and `m` both parse, but in
`n \ // x⏎m` the `m` belongs to the node `n`, and as an argument it is not legal. -/
theorem c64_continuation : (∃ d, parseAst "n \\ // x".toList = some (.ok d)) ∧ (∃ d, parseAst "m".toList = some (.ok d)) ∧
    Rejected ("n \\ // x".toList ++ ['\n'] ++ "m".toList) := by
  refine ⟨?_, ?_, ?_⟩
  · obtain ⟨d, h, -⟩ := of_parse (text := "n \\ // x".toList) (fun _ => true) (by decide +kernel)
    exact ⟨d, h⟩
  · obtain ⟨d, h, -⟩ := of_parse (text := "m".toList) (fun _ => true) (by decide +kernel)
    exact ⟨d, h⟩
  · refine rejected_of fun d h => ?_
    have : (parseAst ("n \\ // x".toList ++ ['\n'] ++ "m".toList)).any (fun r => match r with | .ok _ => true | .error _ => false) = false := by
      decide +kernel
    rw [h] at this
    simp at this

end Knuffel
