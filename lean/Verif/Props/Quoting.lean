import Verif.Spec.Quoting
import Verif.Props.Display
import Verif.Props.Diag
/-!
# C63: messages quote the text
-/

namespace Knuffel
open Cst

theorem lowerHex_spec (n : Nat) : lowerHex n ≠ [] ∧ (∀ h ∈ lowerHex n, h ∈ "0123456789abcdef".toList) ∧ hexNumber (lowerHex n) = n := by
  have one : ∀ d, d < 16 → d.digitChar ∈ "0123456789abcdef".toList ∧ hexVal d.digitChar = d := by decide
  unfold lowerHex
  induction n using Nat.strongRecOn with
  | ind n ih =>
    by_cases hn : n < 16
    · rw [Nat.toDigits_of_lt_base hn]
      refine ⟨by simp, ?_, ?_⟩
      · intro h hh
        rw [List.mem_singleton.1 hh]
        exact (one n hn).1
      · simp [hexNumber, (one n hn).2]
    · have hs : Nat.toDigits 16 n = Nat.toDigits 16 (n / 16) ++ [(n % 16).digitChar] := by
        rw [← Nat.toDigits_of_lt_base (b := 16) (Nat.mod_lt n (by omega)),
          Nat.toDigits_append_toDigits (by omega) (Nat.div_pos (by omega) (by omega)) (Nat.mod_lt n (by omega)), Nat.div_add_mod]
      obtain ⟨h1, h2, h3⟩ := ih (n / 16) (Nat.div_lt_self (by omega) (by omega))
      have o := one (n % 16) (Nat.mod_lt _ (by omega))
      rw [hs]
      refine ⟨by simp, ?_, ?_⟩
      · intro h hh
        rcases List.mem_append.1 hh with hh | hh
        · exact h2 h hh
        · rw [List.mem_singleton.1 hh]
          exact o.1
      · unfold hexNumber at h3 ⊢
        rw [List.foldl_append, h3]
        simp only [List.foldl_cons, List.foldl_nil, o.2]
        omega

/-- **C63** for characters: what stands between the backquotes. -/
theorem c63_char (c : Char) : ∃ t, ShownAs c t ∧ (TokenFormat.char c).show = quoted t := by
  unfold TokenFormat.show
  by_cases h1 : c = '"'
  · subst h1; exact ⟨_, .visible (by decide) (by decide), rfl⟩
  by_cases h2 : c = '\''
  · subst h2; exact ⟨_, .visible (by decide) (by decide), rfl⟩
  by_cases h3 : c = '\\'
  · subst h3; exact ⟨_, .visible (by decide) (by decide), rfl⟩
  simp only [h1, h2, h3, if_false]
  unfold escapeChar
  by_cases h4 : c = '\t'
  · subst h4; exact ⟨_, .tab, rfl⟩
  by_cases h5 : c = '\r'
  · subst h5; exact ⟨_, .return, rfl⟩
  by_cases h6 : c = '\n'
  · subst h6; exact ⟨_, .newline, rfl⟩
  simp only [h1, h2, h3, h4, h5, h6, if_false]
  have e1 : ' ' ≤ c ↔ 0x20 ≤ c.toNat := Iff.rfl
  have e2 : c ≤ '~' ↔ c.toNat ≤ 0x7e := Iff.rfl
  by_cases h : 0x20 ≤ c.toNat ∧ c.toNat ≤ 0x7e
  · rw [if_pos h]
    exact ⟨_, .visible (e1.2 h.1) (e2.2 h.2), rfl⟩
  · rw [if_neg h]
    obtain ⟨l1, l2, l3⟩ := lowerHex_spec c.toNat
    refine ⟨_, .code ?_ h4 h5 h6 l1 l2 l3, by simp [quoted]⟩
    have e3 : c < ' ' ↔ c.toNat < 0x20 := Iff.rfl
    have e4 : '~' < c ↔ 0x7e < c.toNat := Iff.rfl
    rw [e3, e4]
    omega

theorem show_keyword {w : Str} (h : w ∈ keywords) : (TokenFormat.token w).show = quoted w := by
  simp only [keywords, List.mem_cons, List.not_mem_nil, or_false] at h
  rcases h with rfl | rfl | rfl <;> decide

/-- **C63.** The message on something unexpected says first what is at the span. -/
theorem c63_found (text : Str) (es : List (PErr Nat)) (h : parseAst text = some (.error es)) :
    ∀ l sp f a, .unexpected l sp f a ∈ es → ∃ shown, Found text sp shown ∧
      "found ".toList ++ shown <+: (PErr.unexpected l sp f a).text := by
  intro l sp f a ha
  have ht := c54_true text es h _ ha
  have hm := c47_message l sp f a
  refine ⟨f.show, ?_, by rw [hm]; exact List.prefix_append _ _⟩
  cases f with
  | char c =>
    obtain ⟨t, h1, h2⟩ := c63_char c
    exact .inl ⟨c, t, ht, h1, h2⟩
  | eoi => exact .inr (.inl ⟨ht, rfl⟩)
  | token w => exact .inr (.inr (.inl ⟨w, ht.1, ht.2, show_keyword ht.1⟩))
  | kind k =>
    rcases ht with ⟨rfl, n, h1, h2⟩ | ⟨rfl, w, h1, h2⟩
    · exact .inr (.inr (.inr (.inl ⟨n, h1, h2, rfl⟩)))
    · exact .inr (.inr (.inr (.inr ⟨w, h1, h2, rfl⟩)))
  | openRaw n => exact ht.elim
  | closeRaw n => exact ht.elim

private theorem NotClosed.shown {name opening closing w after} (h : NotClosed name opening closing w after) :
    ∃ w', ClosedBy w w' ∧ opening.show = quoted w ∧ closing.show = quoted w' := by
  cases h with
  | string _ => exact ⟨_, .string, by decide, by decide⟩
  | @raw n _ _ =>
    refine ⟨_, .raw n, ?_, ?_⟩
    · show ['`', 'r'] ++ List.replicate n '#' ++ ['"', '`'] = ['`'] ++ ('r' :: List.replicate n '#' ++ ['"']) ++ ['`']
      simp
    · show ['`', '"'] ++ List.replicate n '#' ++ ['`'] = ['`'] ++ ('"' :: List.replicate n '#') ++ ['`']
      simp
  | comment _ => exact ⟨_, .comment, by decide, by decide⟩
  | braces _ => exact ⟨_, .braces, by decide, by decide⟩

/-- **C63.** The message on something not closed quotes the opening token, which is at the first label, and its second
label quotes the token that closes it. -/
theorem c63_unclosed (text : Str) (es : List (PErr Nat)) (h : parseAst text = some (.error es)) :
    ∀ name openedAt opening expectedAt closing f, .unclosed name openedAt opening expectedAt closing f ∈ es →
      ∃ w w', Covers text openedAt w ∧ ClosedBy w w' ∧
        (PErr.unclosed name openedAt opening expectedAt closing f).text = "unclosed ".toList ++ name ++ " ".toList ++ quoted w ∧
        (PErr.unclosed name openedAt opening expectedAt closing f).labels =
          [("opened here".toList, openedAt), ("expected ".toList ++ quoted w', expectedAt)] := by
  intro name openedAt opening expectedAt closing f ha
  obtain ⟨-, pre, w, after, h1, h2, -, h3⟩ := c54_true text es h _ ha
  obtain ⟨w', h4, h5, h6⟩ := NotClosed.shown h3
  exact ⟨w, w', ⟨pre, after, h1, h2⟩, h4, congrArg ("unclosed ".toList ++ name ++ " ".toList ++ ·) h5,
    congrArg (fun t => [("opened here".toList, openedAt), ("expected ".toList ++ t, expectedAt)]) h6⟩

/-- **C63.** A message on a number or an identifier that should have been quoted stands at one, says which of the two it
is, and comes with the advice to enclose it in quotes; no other message comes with advice. -/
theorem c63_help (text : Str) (es : List (PErr Nat)) (h : parseAst text = some (.error es)) :
    (∀ l sp m hp, .messageWithHelp l sp m hp ∈ es →
      (PErr.messageWithHelp l sp m hp).help = some "consider enclosing in double quotes \"..\"".toList ∧
      (((PErr.messageWithHelp l sp m hp).text = "numbers cannot be used as property names".toList ∧
          (PErr.messageWithHelp l sp m hp).labels = [("unexpected number".toList, sp)] ∧
          ∃ n : Num, n.Ok ∧ CoversName text sp n.text) ∨
        ((PErr.messageWithHelp l sp m hp).text = "identifiers cannot be used as arguments".toList ∧
          (PErr.messageWithHelp l sp m hp).labels = [("unexpected identifier".toList, sp)] ∧
          ∃ v, BareIdent v ∧ Covers text sp v))) ∧
    (∀ e ∈ es, (∀ l sp m hp, e ≠ .messageWithHelp l sp m hp) → e.help = none) := by
  refine ⟨fun l sp m hp ha => ?_, fun e _ hne => ?_⟩
  · obtain ⟨rfl, ⟨rfl, rfl, h1⟩ | ⟨rfl, rfl, h1⟩⟩ := c54_true text es h _ ha
    · exact ⟨rfl, .inl ⟨rfl, rfl, h1⟩⟩
    · exact ⟨rfl, .inr ⟨rfl, rfl, h1⟩⟩
  · cases e with
    | messageWithHelp l sp m hp => exact absurd rfl (hne l sp m hp)
    | _ => rfl

/-- An identifier as an argument. -/
example : ∃ es l sp m hp, parseAst "n ab".toList = some (.error es) ∧ .messageWithHelp l sp m hp ∈ es ∧ sp = ⟨2, 4⟩ := by
  refine ⟨_, _, _, _, _, rfl, List.mem_singleton.2 rfl, rfl⟩

/-- **C63.** The message on an escape of no character says so, and its label stands at the code. -/
theorem c63_code (text : Str) (es : List (PErr Nat)) (h : parseAst text = some (.error es)) :
    ∀ l sp m, .message l sp m ∈ es →
      (PErr.message l sp m).text = "converted integer out of range for `char`".toList ∧
      (PErr.message l sp m).labels = [("invalid character code".toList, sp)] ∧
      ∃ hex, Covers text sp ('{' :: hex ++ ['}']) := by
  intro l sp m ha
  obtain ⟨rfl, rfl, hex, -, -, -, -, h1⟩ := c54_true text es h _ ha
  exact ⟨rfl, rfl, hex, h1⟩

/-- The code of a surrogate. -/
example : ∃ es l sp m, parseAst "n \"\\u{d800}\"".toList = some (.error es) ∧ .message l sp m ∈ es ∧ sp = ⟨5, 11⟩ := by
  refine ⟨_, _, _, _, rfl, List.mem_singleton.2 rfl, rfl⟩

/-- A raw string that is not closed. -/
example : ∃ es name openedAt opening expectedAt closing f, parseAst "n (t)r##\"a\"#".toList = some (.error es) ∧
    .unclosed name openedAt opening expectedAt closing f ∈ es ∧ openedAt = ⟨5, 9⟩ := by
  have h : (match parseAst "n (t)r##\"a\"#".toList with
      | some (.error es) => decide (es = [.unclosed "raw string".toList ⟨5, 9⟩ (.openRaw 2) ⟨12, 12⟩ (.closeRaw 2) .eoi])
      | _ => false) = true := by decide +kernel
  split at h
  · rename_i es he
    have h := of_decide_eq_true h
    exact ⟨es, _, _, _, _, _, _, he, by rw [h]; exact List.mem_singleton.2 rfl, rfl⟩
  · cases h

/-- A quote where none can be, and a character that is not visible. -/
example : ∃ es l sp f a, parseAst "n ]\"".toList = some (.error es) ∧ .unexpected l sp f a ∈ es ∧ sp = ⟨2, 3⟩ ∧ f = .char ']' := by
  refine ⟨_, none, _, _, _, rfl, List.mem_singleton.2 rfl, rfl, rfl⟩
example : (TokenFormat.char ' ').show = "`\\u{a0}`".toList ∧ ShownAs ' ' "\\u{a0}".toList :=
  ⟨by decide, .code (hex := "a0".toList) (by decide) (by decide) (by decide) (by decide) (by decide) (by decide) (by decide)⟩

end Knuffel
