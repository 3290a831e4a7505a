import Verif.Theory.After
import Verif.Props.Concat
import Verif.Props.Diag
/-!
# Errors after complete nodes

C70: the errors of a text that begins with complete nodes are the errors of what comes after.
-/

namespace Knuffel
open Cst

/-- The diagnostic with all spans moved to the right by `n` bytes. -/
def PErr.moved (n : Nat) (e : PErr Nat) : PErr Nat := e.mapSpan (fun s => ⟨s.start + n, s.stop + n⟩)

/-- `shiftRel`, with the ends of the opening tokens. -/
def shiftRelE (c : Nat) (eoi : Sp Nat) : Rel Nat Nat (Sp Nat) where
  eoi := eoi
  eoi' := shiftSp c eoi
  st s s' := s' = mapToks (shiftSp c) s
  sp a b := shiftSp c a = b
  so a b := a.stop + c = b.stop
  g := shiftSp c
  g' := id
  st_nil h := h
  st_cons h := mapToks_cons_inv h
  sp_eoi := rfl
  sp_since := by
    rintro s _ t _ rfl _ _ rfl
    exact (spanSince_map (· + c)).symm
  sp_g h := h
  sp_len := by rintro a _ rfl; simp [Sp.length, shiftSp, Offset.byte]; omega
  at_end := by rintro a _ rfl; rfl
  before := by rintro a _ n rfl; rfl
  at_start := by rintro a _ rfl _; simp [Sp.atStart, shiftSp, Offset.fwd]; omega

theorem notClosed_opening {name o c w w' after after'} (h : NotClosed name o c w after) (h' : NotClosed name o c w' after') :
    w = w' := by
  cases h <;> cases h' <;> rfl

theorem er_shift {c : Nat} {eoi : Sp Nat} {e e' : PErr Nat} {text text' : Str} (h : (shiftRelE c eoi).er e e')
    (ht : e.TrueOf text) (ht' : e'.TrueOf text') : e.moved c = e' := by
  cases e <;> cases e' <;> simp only [Rel.er] at h <;> simp only [PErr.moved, PErr.mapSpan]
  · obtain ⟨rfl, h, rfl, rfl, _⟩ := h; cases h; rfl
  · obtain ⟨rfl, h, rfl, h', rfl, rfl⟩ := h
    cases h'
    obtain ⟨_, pre, w, after, _, rfl, _, hn⟩ := ht
    obtain ⟨_, pre', w', after', _, rfl, _, hn'⟩ := ht'
    have := notClosed_opening hn hn'
    subst this
    have h' : byteLen pre + byteLen w + c = byteLen pre' + byteLen w := h
    have : byteLen pre + c = byteLen pre' := by omega
    simp [← this, shiftSp]; omega
  · obtain ⟨rfl, h, rfl⟩ := h; cases h; rfl
  · obtain ⟨rfl, h, rfl, rfl⟩ := h; cases h; rfl

theorem lrel_er_shift {c : Nat} {eoi : Sp Nat} {text text' : Str} : ∀ {l m}, LRel (shiftRelE c eoi).er l m →
    (∀ e ∈ l, e.TrueOf text) → (∀ e ∈ m, e.TrueOf text') → m = l.map (PErr.moved c) := by
  intro l
  induction l with
  | nil => intro m h _ _; cases m with
    | nil => rfl
    | cons => exact h.elim
  | cons a l ih => intro m h h1 h2; cases m with
    | nil => exact h.elim
    | cons b m =>
      rw [List.map_cons, er_shift h.1 (h1 a (by simp)) (h2 b (by simp)),
        ih h.2 (fun e he => h1 e (by simp [he])) (fun e he => h2 e (by simp [he]))]

/-- **C70.** A text begins with the complete legal nodes `a`, then there is a line feed and then
any text `w`: the text is rejected if and only if `w` alone is, and with the very same
diagnostics, the spans of which are moved by the bytes before `w`. -/
theorem c70_after (a : BodyC) (w : Str) (ha : a.Ok true ('\n' :: w)) (es : List (PErr Nat)) :
    parseAst (a.text ++ '\n' :: w) = some (.error es) ↔
      ∃ es0, parseAst w = some (.error es0) ∧ es = es0.map (PErr.moved (byteLen a.text + 1)) := by
  obtain ⟨n, hn⟩ : ∃ n, n = byteLen a.text + 1 := ⟨_, rfl⟩
  rw [← hn]
  have hlen : byteLen (a.text ++ ['\n']) = n := by
    rw [byteLen_append, hn]; simp [byteLen]; decide
  have happ : a.text ++ '\n' :: w = (a.text ++ ['\n']) ++ w := by simp
  have hr := Rel.run_document (R := shiftRelE n (offsetEoi w)) (s := offsetToks 0 w)
    (s' := offsetToks n w) (by
      have := (offsetToks_shift n w 0).symm
      rw [Nat.zero_add] at this
      exact this)
  have he : (shiftRelE n (offsetEoi w)).eoi' = offsetEoi (a.text ++ '\n' :: w) := by
    show shiftSp n (offsetEoi w) = _
    rw [happ]
    simp only [shiftSp, offsetEoi, byteLen_append (a.text ++ ['\n']), hlen, Nat.add_comm]
  rw [he] at hr
  have hT : Takes (offsetToks 0 (a.text ++ '\n' :: w)) (a.text ++ ['\n']) (offsetToks n w) := by
    refine ⟨offsetToks 0 (a.text ++ ['\n']), ?_, chars_offsetToks _ _⟩
    rw [happ, offsetToks_append, hlen, Nat.zero_add]
  have hd := document_after (eoi := offsetEoi (a.text ++ '\n' :: w)) a (by rw [chars_offsetToks]; exact ha) hT
  have key : ∀ es, parseAst (a.text ++ '\n' :: w) = some (.error es) ↔
      runParser document (offsetEoi (a.text ++ '\n' :: w)) (offsetToks n w) = some (.error es) := by
    intro es
    unfold parseAst
    generalize runParser document (offsetEoi (a.text ++ '\n' :: w)) (offsetToks n w) = r2 at hd ⊢
    generalize runParser document (offsetEoi (a.text ++ '\n' :: w)) (offsetToks 0 (a.text ++ '\n' :: w)) = r1 at hd ⊢
    match r1, r2 with
    | none, none => simp
    | none, some (.ok _) => simp
    | some (.ok _), none => simp
    | some (.ok _), some (.ok _) => simp
    | some (.error _), some (.error _) => simp only [errorsOf, Option.some.injEq] at hd; subst hd; exact Iff.rfl
    | none, some (.error _) => simp [errorsOf] at hd
    | some (.ok _), some (.error _) => simp [errorsOf] at hd
    | some (.error _), none => simp [errorsOf] at hd
    | some (.error _), some (.ok _) => simp [errorsOf] at hd
  rw [key]
  rcases hr with ⟨d1, d2, h1, h2, h3⟩ | ⟨es1, es2, h1, h2, h3⟩ | ⟨h1, h2⟩
  · have h1' : parseAst w = some (.ok d1) := h1
    rw [h1', h2]
    simp
  · have h1' : parseAst w = some (.error es1) := h1
    have := lrel_er_shift h3 (c54_true w es1 h1') (c54_true _ es2 ((key es2).2 h2))
    rw [h1', h2, this]
    simp only [Option.some.injEq, Except.error.injEq]
    constructor
    · rintro rfl; exact ⟨_, rfl, rfl⟩
    · rintro ⟨_, rfl, rfl⟩; rfl
  · have h1' : parseAst w = none := h1
    rw [h1', h2]
    simp

theorem after_newlines {a : Str} {da : Document (Sp Nat)} (ha : parseAst a = some (.ok da)) (ht : NoTie a)
    (K : Nat) (hK : 1 ≤ K) (hK' : K = 1 → '\\' ∉ a) (w : Str) (es : List (PErr Nat)) :
    parseAst (a ++ List.replicate (K + 1) '\n' ++ w) = some (.error es) ↔
      ∃ es0, parseAst w = some (.error es0) ∧ es = es0.map (PErr.moved (byteLen a + K + 1)) := by
  obtain ⟨b, hb, rfl, rfl⟩ := (c06_exact a ht da).1 ha
  obtain ⟨b', h1, h2, h3⟩ := ext_body b hb K hK hK'
  have hlf : byteLen (List.replicate K '\n') = K := by
    clear hK hK' h1
    induction K with
    | zero => rfl
    | succ K ih => rw [List.replicate_succ]; simp only [byteLen]; rw [ih, show ('\n').utf8Size = 1 by decide]; omega
  have hlen : byteLen b'.text = byteLen b.text + K := by rw [h1, byteLen_append, hlf]
  have := c70_after b' w (h2 _) es
  rw [hlen, h1] at this
  rw [← this, List.replicate_succ']
  simp

/-- **C70**, for any text that parses: after it and three line feeds, the diagnostics are those of
what follows. -/
theorem c70_three_newlines (a : Str) (da : Document (Sp Nat)) (ha : parseAst a = some (.ok da)) (ht : NoTie a) (w : Str)
    (es : List (PErr Nat)) :
    parseAst (a ++ ['\n', '\n', '\n'] ++ w) = some (.error es) ↔
      ∃ es0, parseAst w = some (.error es0) ∧ es = es0.map (PErr.moved (byteLen a + 3)) :=
  after_newlines ha ht 2 (by omega) (by omega) w es

/-- **C70**, for any text that parses and contains no backslash: after it and two line feeds (an
empty line), the diagnostics are those of what follows. -/
theorem c70_two_newlines (a : Str) (da : Document (Sp Nat)) (ha : parseAst a = some (.ok da)) (ht : NoTie a)
    (hb : '\\' ∉ a) (w : Str) (es : List (PErr Nat)) :
    parseAst (a ++ ['\n', '\n'] ++ w) = some (.error es) ↔
      ∃ es0, parseAst w = some (.error es0) ∧ es = es0.map (PErr.moved (byteLen a + 2)) :=
  after_newlines ha ht 1 (by omega) (fun _ => hb) w es

private def errs (text : Str) : List (PErr Nat) :=
  match parseAst text with
  | some (.error es) => es
  | _ => []

private theorem errs_spec {text : Str} {es : List (PErr Nat)} (h : decide (errs text = es) = true) (hne : es ≠ []) :
    parseAst text = some (.error es) := by
  have h := of_decide_eq_true h
  unfold errs at h
  split at h
  · rename_i hp; rw [hp, h]
  · exact absurd h.symm hne

/-- After `n { m "ä" // x⏎}`, an empty line and then ` k "b`: the string is reported as opened
three bytes after these (16 bytes and 2 line feeds). -/
example : parseAst ("n { m \"ä\" // x\n}".toList ++ ['\n', '\n'] ++ " k \"b".toList) =
    some (.error [.unclosed "string".toList ⟨22, 23⟩ (.char '"') ⟨24, 24⟩ (.char '"') .eoi]) := by
  obtain ⟨da, ha, _⟩ := of_parse (text := "n { m \"ä\" // x\n}".toList) (fun d => decide (d.nodes.length = 1)) (by decide +kernel)
  rw [c70_two_newlines _ da ha (by unfold NoTie; decide +kernel) (by decide +kernel)]
  refine ⟨[.unclosed "string".toList ⟨3, 4⟩ (.char '"') ⟨5, 5⟩ (.char '"') .eoi], errs_spec (by decide +kernel) (by simp), ?_⟩
  decide +kernel

/-- `a{b;};`. -/
def afterDemo : BodyC :=
  .cons [] none (.mk none (.bare ['a']) [] (.some [] none (.cons [] none (.mk none (.bare ['b']) [] .none [] .semicolon) (.nil []))) [] .semicolon) (.nil [])

/-- After `a{b;};` one line feed is enough. -/
example : parseAst (afterDemo.text ++ '\n' :: "m x".toList) = some (.error ((errs "m x".toList).map (PErr.moved 7))) := by
  have ha : BareIdent ['a'] := ident1 (by decide) (by decide)
  have hb : BareIdent ['b'] := ident1 (by decide) (by decide)
  refine (c70_after afterDemo "m x".toList ?_ _).2 ⟨_, errs_spec (es := errs "m x".toList) (by decide +kernel) (by decide +kernel), by
    rw [show byteLen afterDemo.text + 1 = 7 by decide +kernel]⟩
  simp [afterDemo, BodyC.Ok, NodeC.Ok, ChildrenC.Ok, LinesOk, DashOk, TyOk, Name.Ok, NameStartOk, NameEndOk, ItemsOk, SpacesOk, Term.Ok, itemsText, ChildrenC.text, spacesText, Term.text, ha, hb, dashText, BodyC.text, NodeC.text, tyText, Name.text, linesText]

end Knuffel
