import Verif.Model.Display
import Verif.Props.Total
/-!
# C47: messages name what was found and every alternative
-/

namespace Knuffel
namespace Spec

/-- Texts in a row as one writes them in English: `a`, `a or b`, `a, b or c`, … -/
def listing : List Str → Str
  | [] => []
  | [a] => a
  | [a, b] => a ++ " or ".toList ++ b
  | a :: b :: c :: l => a ++ ", ".toList ++ listing (b :: c :: l)

theorem listing_cons {a : Str} {l : List Str} :
    listing (a :: l) = a ++ (l.dropLast.flatMap fun b => ", ".toList ++ b) ++
      match l.getLast? with
      | none => []
      | some b => " or ".toList ++ b := by
  induction l generalizing a with
  | nil => simp [listing]
  | cons b l ih =>
    cases l with
    | nil => simp [listing]
    | cons c l =>
      rw [listing, ih]
      simp [List.getLast?_cons_cons]

theorem infix_listing {t : Str} {l : List Str} (h : t ∈ l) : t <:+: listing l := by
  induction l with
  | nil => simp at h
  | cons a l ih =>
    cases l with
    | nil => simp only [List.mem_singleton] at h; rw [h, listing]; exact List.infix_refl _
    | cons b l =>
      rcases List.mem_cons.1 h with rfl | h
      · cases l with
        | nil => exact ⟨[], " or ".toList ++ b, by simp [listing]⟩
        | cons c l => exact ⟨[], ", ".toList ++ listing (b :: c :: l), by simp [listing]⟩
      · have h1 := ih h
        cases l with
        | nil =>
          simp only [listing] at h1 ⊢
          exact h1.trans ⟨a ++ " or ".toList, [], by simp⟩
        | cons c l =>
          rw [listing]
          exact h1.trans ⟨a ++ ", ".toList, [], by simp⟩

end Spec

open Spec

/-! ### The texts of different alternatives are different -/

theorem toDigits_inj {b : Nat} (hb : 1 < b) (hd : ∀ m n, m < b → n < b → m.digitChar = n.digitChar → m = n) :
    ∀ m n : Nat, Nat.toDigits b m = Nat.toDigits b n → m = n := by
  have split : ∀ n, b ≤ n → Nat.toDigits b n = Nat.toDigits b (n / b) ++ [(n % b).digitChar] := by
    intro n hn
    rw [← Nat.toDigits_of_lt_base (b := b) (Nat.mod_lt n (by omega)),
      Nat.toDigits_append_toDigits hb (Nat.div_pos hn (by omega)) (Nat.mod_lt n (by omega)), Nat.div_add_mod]
  have ne : ∀ n, Nat.toDigits b n ≠ [] := by
    intro n
    by_cases hn : n < b
    · rw [Nat.toDigits_of_lt_base hn]; simp
    · rw [split n (by omega)]; simp
  intro m
  induction m using Nat.strongRecOn with
  | ind m ih =>
    intro n h
    by_cases hm : m < b <;> by_cases hn : n < b
    · rw [Nat.toDigits_of_lt_base hm, Nat.toDigits_of_lt_base hn] at h
      exact hd m n hm hn (by simpa using h)
    · rw [Nat.toDigits_of_lt_base hm, split n (by omega)] at h
      have := congrArg List.length h
      have := ne (n / b)
      have := List.length_pos_iff.2 this
      simp only [List.length_append, List.length_singleton] at *
      omega
    · rw [Nat.toDigits_of_lt_base hn, split m (by omega)] at h
      have := congrArg List.length h
      have := ne (m / b)
      have := List.length_pos_iff.2 this
      simp only [List.length_append, List.length_singleton] at *
      omega
    · rw [split m (by omega), split n (by omega)] at h
      obtain ⟨h1, h2⟩ := List.append_inj' h rfl
      have e1 := ih (m / b) (Nat.div_lt_self (by omega) hb) _ h1
      have e2 := hd _ _ (Nat.mod_lt m (by omega)) (Nat.mod_lt n (by omega)) (by simpa using h2)
      rw [← Nat.div_add_mod m b, ← Nat.div_add_mod n b, e1, e2]

theorem lowerHex_inj {m n : Nat} (h : lowerHex m = lowerHex n) : m = n :=
  toDigits_inj (by decide) (fun m n hm hn => (by decide : ∀ m, m < 16 → ∀ n, n < 16 → m.digitChar = n.digitChar → m = n) m hm n hn) m n h

/-- What is written between the backticks for a character. -/
def charBody (c : Char) : Str :=
  if c = '\t' then ['\\', 't']
  else if c = '\r' then ['\\', 'r']
  else if c = '\n' then ['\\', 'n']
  else if 0x20 ≤ c.toNat ∧ c.toNat ≤ 0x7e then [c]
  else '\\' :: 'u' :: '{' :: (lowerHex c.toNat ++ ['}'])

theorem show_char (c : Char) : (TokenFormat.char c).show = '`' :: (charBody c ++ ['`']) := by
  unfold TokenFormat.show charBody escapeChar
  by_cases h1 : c = '"'
  · subst h1; rfl
  by_cases h2 : c = '\''
  · subst h2; rfl
  by_cases h3 : c = '\\'
  · subst h3; rfl
  simp only [h1, h2, h3, if_false]
  repeat' split
  all_goals rfl

theorem show_token (s : Str) : (TokenFormat.token s).show = '`' :: (escapeDefault s ++ ['`']) := rfl
theorem show_kind (s : Str) : (TokenFormat.kind s).show = s := rfl
theorem show_eoi : TokenFormat.eoi.show = "end of input".toList := rfl

theorem charBody_inj {c d : Char} (h : charBody c = charBody d) : c = d := by
  unfold charBody at h
  have hl : ∀ n, 0 < (lowerHex n ++ ['}']).length := by simp
  split at h <;> (try split at h) <;> (try split at h) <;> (try split at h) <;> (try split at h) <;> (try split at h) <;>
    (try split at h) <;> (try split at h) <;>
    first
      | (simp_all; done)
      | skip
  all_goals
    have h := List.cons.inj h
    have h := List.cons.inj h.2
    have h := List.cons.inj h.2
    have h := List.append_cancel_right h.2
    have h := lowerHex_inj h
    exact Char.toNat_inj.1 h

theorem show_inj {a b : TokenFormat} (ha : a.Usual) (hb : b.Usual) (h : a.show = b.show) : a = b := by
  have hq : ∀ s : Str, TokenFormat.Usual (.token s) → ∃ d e w, escapeDefault s = d :: e :: w ∧ (TokenFormat.token s).show = '`' :: (s ++ ['`']) ∧
      s = d :: e :: w ∧ d ≠ '\\' := by
    rintro s (rfl | rfl | rfl)
    · exact ⟨'n', 'u', ['l', 'l'], rfl, rfl, rfl, by decide⟩
    · exact ⟨'t', 'r', ['u', 'e'], rfl, rfl, rfl, by decide⟩
    · exact ⟨'f', 'a', ['l', 's', 'e'], rfl, rfl, rfl, by decide⟩
  have hct : ∀ c s, TokenFormat.Usual (.token s) → (TokenFormat.char c).show ≠ (TokenFormat.token s).show := by
    intro c s hs h
    obtain ⟨d, e, w, -, h2, h3, h4⟩ := hq s hs
    rw [show_char, h2] at h
    have h := (List.append_cancel_right (List.cons.inj h).2)
    rw [h3] at h
    unfold charBody at h
    repeat' split at h
    all_goals simp at h
    all_goals exact h4 h.1.symm
  have hk : ∀ s t : Str, '`' ∉ s → s ≠ '`' :: t := by
    rintro s t h1 rfl; simp at h1
  cases a <;> cases b
  case char.char c d => rw [show_char, show_char] at h; rw [charBody_inj (List.append_cancel_right (List.cons.inj h).2)]
  case token.token s t =>
    obtain ⟨_, _, _, -, h1, -⟩ := hq s ha
    obtain ⟨_, _, _, -, h2, -⟩ := hq t hb
    rw [h1, h2] at h
    rw [List.append_cancel_right (List.cons.inj h).2]
  case char.token c s => exact absurd h (hct c s hb)
  case token.char s c => exact absurd h.symm (hct c s ha)
  case kind.kind s t => rw [show_kind, show_kind] at h; rw [h]
  case char.kind c s => rw [show_char, show_kind] at h; exact absurd h.symm (hk s _ hb.1)
  case kind.char s c => rw [show_char, show_kind] at h; exact absurd h (hk s _ ha.1)
  case token.kind t s => rw [show_token, show_kind] at h; exact absurd h.symm (hk s _ hb.1)
  case kind.token s t => rw [show_token, show_kind] at h; exact absurd h (hk s _ ha.1)
  case kind.eoi s => rw [show_kind, show_eoi] at h; exact absurd h ha.2
  case eoi.kind s => rw [show_kind, show_eoi] at h; exact absurd h.symm hb.2
  case char.eoi c => rw [show_char, show_eoi] at h; simp at h
  case eoi.char c => rw [show_char, show_eoi] at h; simp at h
  case token.eoi s => rw [show_token, show_eoi] at h; simp at h
  case eoi.token s => rw [show_token, show_eoi] at h; simp at h
  case eoi.eoi => rfl
  all_goals first | exact ha.elim | exact hb.elim

/-! ### C47 -/

theorem formatUnexpected_nil (found : TokenFormat) : formatUnexpected found [] = "found ".toList ++ found.show ++ [] := rfl

theorem formatUnexpected_cons (found t : TokenFormat) (l : List TokenFormat) : formatUnexpected found (t :: l) =
    "found ".toList ++ found.show ++ (", expected ".toList ++ t.show ++ (l.dropLast.flatMap fun item => ", ".toList ++ item.show) ++
      match l.getLast? with
      | none => []
      | some item => " or ".toList ++ item.show) := rfl

/-- The message of an unexpected token says what was found and lists the texts
of all alternatives, each once and in order. -/
theorem c47_message {O : Type} (label : Option Str) (span : Sp O) (found : TokenFormat) (expected : List TokenFormat) :
    (PErr.unexpected label span found expected).text =
      "found ".toList ++ found.show ++
        (if expected = [] then [] else ", expected ".toList ++ listing (expected.map TokenFormat.show)) := by
  have key : formatUnexpected found expected = "found ".toList ++ found.show ++
      (if expected = [] then [] else ", expected ".toList ++ listing (expected.map TokenFormat.show)) := by
    cases expected with
    | nil => rw [if_pos rfl, formatUnexpected_nil]
    | cons t l =>
      rw [if_neg (List.cons_ne_nil _ _), formatUnexpected_cons, List.map_cons, listing_cons, List.getLast?_map, ← List.map_dropLast,
        List.flatMap_map]
      cases l.getLast? with
      | none => simp only [List.append_assoc, Option.map_none]
      | some x => simp only [List.append_assoc, Option.map_some]
  exact key

/-- Three alternatives. -/
example : (PErr.unexpected none (⟨0, 1⟩ : Sp Nat) (.char '(') [.char '"', .token "null".toList, .kind "letter".toList]).text =
    "found `(`, expected `\"`, `null` or letter".toList := by rw [c47_message]; decide +kernel

/-- So the text of each alternative is in the message. -/
theorem c47_named {O : Type} (label : Option Str) (span : Sp O) (found : TokenFormat) (expected : List TokenFormat) :
    ∀ t ∈ expected, t.show <:+: (PErr.unexpected label span found expected).text := by
  intro t ht
  rw [c47_message]
  have hne : expected ≠ [] := by rintro rfl; simp at ht
  rw [if_neg hne]
  exact (infix_listing (List.mem_map_of_mem ht)).trans
    ⟨"found ".toList ++ found.show ++ ", expected ".toList, [], by simp only [List.append_assoc, List.append_nil]⟩

/-- Merging two errors keeps all alternatives of both, and adds none. -/
theorem c47_merge {O : Type} {l l' : Option Str} {s s' : Sp O} {f f' : TokenFormat} {e e' : List TokenFormat} :
    ∃ m, (PErr.unexpected l s f e).merge (.unexpected l' s' f' e') = some (.unexpected l s f m) ∧
      (∀ t, t ∈ m ↔ t ∈ e ∨ t ∈ e') ∧ (e.Pairwise (fun a b => a.lt b = true) → m.Nodup) :=
  ⟨_, rfl, fun _ => mem_setExtend, fun h => (sorted_setExtend h).nodup⟩

/-- Two errors with a common alternative. -/
example : ∃ m, (PErr.unexpected none (⟨0, 1⟩ : Sp Nat) .eoi [.char 'a', .eoi]).merge
      (.unexpected none ⟨0, 1⟩ .eoi [.char 'b', .eoi]) = some (.unexpected none ⟨0, 1⟩ .eoi m) ∧
      m = [.char 'a', .char 'b', .eoi] := ⟨_, rfl, rfl⟩

theorem er_alts {n : Nat} {e e' : PErr Nat} (h : (boundRel n).er e e') :
    ∀ l s f a, e = .unexpected l s f a → AltSet a := by
  rintro l s f a rfl
  cases e' <;> simp only [Rel.er] at h
  exact h.2.2.2.2

theorem parse_alts (text : Str) (es : List (PErr Nat)) (h : parseAst text = some (.error es)) :
    ∀ e ∈ es, ∀ l s f a, e = .unexpected l s f a → AltSet a := by
  have hr := Rel.run_document (R := boundRel (byteLen text)) (s := offsetToks 0 text)
    (s' := offsetToks 0 text) ⟨rfl, 0, cons_offsetToks text 0 (by omega)⟩
  have h0 : runParser document (boundRel (byteLen text)).eoi (offsetToks 0 text) = some (.error es) := h
  rcases hr with ⟨_, _, h1, _, _⟩ | ⟨es1, _, h1, _, h3⟩ | ⟨h1, _⟩
  · rw [h0] at h1; simp at h1
  · rw [h0] at h1
    injection h1 with h1
    injection h1 with h1
    subst h1
    intro e he
    obtain ⟨e', h4⟩ := lrel_mem h3 he
    exact er_alts h4
  · rw [h0] at h1; simp at h1

theorem altSet_texts {a : List TokenFormat} (h : AltSet a) : (a.map TokenFormat.show).Nodup := by
  have hn := h.1.nodup
  have hu := h.2
  clear h
  induction a with
  | nil => simp
  | cons t a ih =>
    rw [List.nodup_cons] at hn
    rw [List.map_cons, List.nodup_cons]
    refine ⟨fun hm => ?_, ih hn.2 (fun x hx => hu x (List.mem_cons_of_mem _ hx))⟩
    obtain ⟨x, hx, he⟩ := List.mem_map.1 hm
    have := show_inj (hu x (List.mem_cons_of_mem _ hx)) (hu t List.mem_cons_self) he
    subst this
    exact hn.1 hx

/-- The diagnostics of any text name no alternative twice: even the texts of the
alternatives are different. -/
theorem c47_once (text : Str) (es : List (PErr Nat)) (h : parseAst text = some (.error es)) :
    ∀ l s f a, .unexpected l s f a ∈ es → (a.map TokenFormat.show).Nodup :=
  fun l s f a ha => altSet_texts (parse_alts text es h _ ha l s f a rfl)

/-- The same with line spans. -/
theorem c47_once_line (width : Char → Nat) (strWidth : Str → Nat) (text : Str) (es : List (PErr LinePos))
    (h : parseAstLine width strWidth text = some (.error es)) :
    ∀ l s f a, .unexpected l s f a ∈ es → (a.map TokenFormat.show).Nodup := by
  intro l s f a ha
  rcases c21_line_agrees width strWidth text with ⟨d, h1, _⟩ | ⟨es', h1, h2⟩
  · rw [h] at h1; simp at h1
  · rw [h] at h1
    injection h1 with h1
    injection h1 with h1
    subst h1
    exact c47_once text _ h2 l (LinePos.toOffsetSpan s) f a (List.mem_map_of_mem ha)

/-- A text with a diagnostic with many alternatives. -/
example : ∃ es l s f a, parseAst "n )".toList = some (.error es) ∧ .unexpected l s f a ∈ es ∧ 5 ≤ a.length := by
  refine ⟨_, none, _, _, _, rfl, List.mem_singleton.2 rfl, by decide⟩

/-- The labels of a diagnostic are at its spans, which are inside of the text. -/
theorem c47_labels (text : Str) (es : List (PErr Nat)) (h : parseAst text = some (.error es)) :
    ∀ e ∈ es, ∀ x ∈ e.labels, x.2.start ≤ x.2.stop ∧ x.2.stop ≤ byteLen text := by
  intro e he x hx
  have hs : e.labels.map (·.2) = e.spans := by cases e <;> rfl
  exact c46_error_spans text es h e he x.2 (hs ▸ List.mem_map_of_mem hx)

/-- `ExpectedType` lists every type, and `no type` at the end if that is
allowed. -/
theorem c47_expected_type (e : ExpectedType) (h : e.types ≠ [] ∨ e.noType = true) :
    e.show = listing (e.types.map TypeName.asStr ++ if e.noType then ["no type".toList] else []) := by
  obtain ⟨types, noType⟩ := e
  cases types with
  | nil => simp at h; subst h; rfl
  | cons t l =>
    simp only [List.map_cons, List.cons_append, listing_cons, ExpectedType.show]
    cases noType
    · simp only [Bool.false_eq_true, if_false, List.append_nil, List.getLast?_map, ← List.map_dropLast, List.flatMap_map]
      cases l.getLast? <;> rfl
    · simp [List.flatMap_map]

/-- `no type` alone, a required type, an optional type, and three types. -/
example (t : TypeName) :
    ExpectedType.none.show = "no type".toList ∧
    (ExpectedType.required t).show = t.asStr ∧
    (ExpectedType.optional t).show = t.asStr ++ " or ".toList ++ "no type".toList ∧
    (ExpectedType.mk [.builtin .u8, .builtin .u16, t] true).show =
      "u8, u16, ".toList ++ t.asStr ++ " or no type".toList := by
  refine ⟨?_, ?_, ?_, ?_⟩ <;> rw [c47_expected_type _ (by simp [ExpectedType.none, ExpectedType.required, ExpectedType.optional])] <;> simp [listing, ExpectedType.none,
    ExpectedType.required, ExpectedType.optional, TypeName.asStr, BuiltinType.asStr]

/-- The other direction: the text of an `ExpectedType` made by one of its three
constructors says `no type` exactly if a value without type is allowed. -/
theorem c47_no_type (t : TypeName) :
    ("no type".toList <:+ ExpectedType.none.show) ∧ ("no type".toList <:+ (ExpectedType.optional t).show) ∧
    (ExpectedType.required t).show = t.asStr := by
  refine ⟨⟨[], rfl⟩, ⟨t.asStr ++ " or ".toList, ?_⟩, ?_⟩
  · rw [c47_expected_type _ (by simp [ExpectedType.optional])]; simp [listing, ExpectedType.optional]
  · rw [c47_expected_type _ (by simp [ExpectedType.required])]; simp [listing, ExpectedType.required]

end Knuffel
