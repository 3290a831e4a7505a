import Verif.Spec.Words
import Verif.Model.Views
import Verif.Props.Quoting
import Verif.Props.Complaints
/-!
# C74: messages about values and names say in words what is there
-/

namespace Knuffel
open Cst Spec
variable {E S α : Type}

theorem calledBy_iff {l : Literal} {w : Str} : CalledBy l w ↔ w = l.kind.asStr := by
  constructor
  · intro h; cases h <;> rfl
  · rintro rfl; cases l <;> constructor

/-- **C74**, kinds: the message about a literal of the wrong kind says what was expected and what the literal is, and the
label, which is at the literal, says it too. -/
theorem c74_kind {d : Scalar E S α} {kinds : List Kind} {shown : Kind} {types : List TypeName}
    (hd : d.Truthful kinds shown types) (v : Value S) :
    OnlyReports (fun e => ∀ span expected found, e = .scalarKind span expected found →
      ∃ w w', CalledBy v.literal.value w ∧ (∀ l : Literal, l.kind = shown → CalledBy l w') ∧
        e.message = "expected ".toList ++ w' ++ " scalar, found ".toList ++ w ∧
        e.labels = [("unexpected ".toList ++ w, v.literal.span)]) (d.decode v) := by
  intro c hc
  obtain ⟨es, h1, h2⟩ := hd.decode v c hc
  refine ⟨es, h1, ?_⟩
  rintro e he span expected found rfl
  obtain ⟨rfl, rfl, -, rfl⟩ := h2 _ he
  exact ⟨_, expected.asStr, calledBy_iff.2 rfl, fun l hl => calledBy_iff.2 (by rw [hl]), rfl, rfl⟩

/-- **C74**: kinds have different names, and are printed by these names. -/
theorem c74_kind_names {l l' : Literal} {w : Str} (h : CalledBy l w) :
    (CalledBy l' w → l'.kind = l.kind) ∧ (Kind.ofLiteral l).show = w ∧ (ExpectedKind.mk (Kind.ofLiteral l)).show = w := by
  refine ⟨fun h' => ?_, ?_, ?_⟩
  · have e := (calledBy_iff.1 h').symm.trans (calledBy_iff.1 h)
    generalize l'.kind = a at e ⊢
    generalize l.kind = b at e ⊢
    cases a <;> cases b <;> first | rfl | exact absurd e (by decide)
  · rw [calledBy_iff.1 h]; cases l <;> rfl
  · rw [calledBy_iff.1 h]; cases l <;> rfl

/-- **C74**, type annotations: the message lists the types that are allowed, says that there may be none, and ends with the
annotation as it was written; the label is at the annotation. -/
theorem c74_type {d : Scalar E S α} {kinds : List Kind} {shown : Kind} {types : List TypeName}
    (hd : d.Truthful kinds shown types) (v : Value S) :
    OnlyReports (fun e => ∀ span found expected rust, e = .typeName span found expected rust →
      ∃ tn, v.typeName = some tn ∧
        e.message = listing (types.map TypeName.asStr ++ ["no type".toList]) ++ " for ".toList ++ rust ++
          ", found ".toList ++ tn.value.asStr ∧
        e.labels = [("unexpected type name".toList, tn.span)]) (d.decode v) := by
  intro c hc
  obtain ⟨es, h1, h2⟩ := hd.decode v c hc
  refine ⟨es, h1, ?_⟩
  rintro e he span found expected rust rfl
  obtain ⟨tn, h3, rfl, rfl, -, rfl⟩ := h2 _ he
  refine ⟨tn, h3, ?_, by simp only [DErr.labels]⟩
  have h4 := c47_expected_type ⟨types, true⟩ (.inr rfl)
  rw [if_pos rfl] at h4
  show (ExpectedType.mk types true).show ++ _ ++ _ ++ _ ++ _ = _
  rw [h4]; simp only [Option.map_some, Option.getD_some]

/-- **C74**: a type name is printed as the text it was made from; a built-in type becomes the type name of its name. -/
theorem c74_type_text (s : Str) (b : BuiltinType) :
    (TypeName.fromString s).show = s ∧ (b, (BuiltinType.into b).show) ∈ builtinNames ++
      [(.usize, "usize".toList), (.isize, "isize".toList)] := by
  refine ⟨c27_text s, ?_⟩
  cases b <;> decide

/-! ### Names -/

theorem escapeChar_shown (c : Char) : ShownIn c (escapeChar c) := by
  unfold escapeChar
  by_cases h4 : c = '\t'
  · subst h4; exact .other (by decide) .tab
  by_cases h5 : c = '\r'
  · subst h5; exact .other (by decide) .return
  by_cases h6 : c = '\n'
  · subst h6; exact .other (by decide) .newline
  by_cases h1 : c = '"'
  · subst h1; exact .escaped (by decide)
  by_cases h2 : c = '\''
  · subst h2; exact .escaped (by decide)
  by_cases h3 : c = '\\'
  · subst h3; exact .escaped (by decide)
  simp only [h1, h2, h3, h4, h5, h6, if_false]
  have hm : c ∉ ['"', '\'', '\\'] := by simp [h1, h2, h3]
  have e1 : ' ' ≤ c ↔ 0x20 ≤ c.toNat := Iff.rfl
  have e2 : c ≤ '~' ↔ c.toNat ≤ 0x7e := Iff.rfl
  by_cases h : 0x20 ≤ c.toNat ∧ c.toNat ≤ 0x7e
  · rw [if_pos h]
    exact .other hm (.visible (e1.2 h.1) (e2.2 h.2))
  · rw [if_neg h]
    obtain ⟨l1, l2, l3⟩ := lowerHex_spec c.toNat
    refine .other hm (.code ?_ h4 h5 h6 l1 l2 l3)
    have e3 : c < ' ' ↔ c.toNat < 0x20 := Iff.rfl
    have e4 : '~' < c ↔ 0x7e < c.toNat := Iff.rfl
    rw [e3, e4]
    omega

theorem escapeDefault_shown (s : Str) : NameShown s (escapeDefault s) := by
  induction s with
  | nil => exact .nil
  | cons c s ih => exact .cons (escapeChar_shown c) ih

/-- Hexadecimal digits end at the brace. -/
theorem hex_brace {h h' u u' : Str} (hh : ∀ c ∈ h, c ∈ "0123456789abcdef".toList)
    (hh' : ∀ c ∈ h', c ∈ "0123456789abcdef".toList) (e : h ++ '}' :: u = h' ++ '}' :: u') : h = h' ∧ u = u' := by
  have nb : '}' ∉ "0123456789abcdef".toList := by decide
  rcases List.append_eq_append_iff.1 e with ⟨z, h1, h2⟩ | ⟨z, h1, h2⟩
  · cases z with
    | nil => simp at h1 h2; exact ⟨h1.symm, h2⟩
    | cons c z => simp at h2; exact absurd (hh' '}' (by rw [h1, ← h2.1]; simp)) nb
  · cases z with
    | nil => simp at h1 h2; exact ⟨h1, h2.symm⟩
    | cons c z => simp at h2; exact absurd (hh '}' (by rw [h1, ← h2.1]; simp)) nb

/-- A shown character is read back from the beginning of a text. -/
theorem shownIn_inj {c d : Char} {t t' u u' : Str} (h : ShownIn c t) (h' : ShownIn d t') (e : t ++ u = t' ++ u') :
    c = d ∧ u = u' := by
  have q1 : ∀ x ∈ ['"', '\'', '\\'], x ≠ 't' ∧ x ≠ 'r' ∧ x ≠ 'n' ∧ x ≠ 'u' := by decide
  cases h with
  | escaped hc =>
    cases h' with
    | escaped hd => simp at e; exact e
    | other hd hs =>
      cases hs with
      | visible _ _ => simp at e; exact absurd (by rw [← e.1]; decide) hd
      | tab => simp at e; exact absurd e.1 (q1 _ hc).1
      | «return» => simp at e; exact absurd e.1 (q1 _ hc).2.1
      | newline => simp at e; exact absurd e.1 (q1 _ hc).2.2.1
      | code => simp at e; exact absurd e.1 (q1 _ hc).2.2.2
  | other hc hs =>
    cases h' with
    | escaped hd =>
      cases hs with
      | visible _ _ => simp at e; exact absurd (by rw [e.1]; decide) hc
      | tab => simp at e; exact absurd e.1.symm (q1 _ hd).1
      | «return» => simp at e; exact absurd e.1.symm (q1 _ hd).2.1
      | newline => simp at e; exact absurd e.1.symm (q1 _ hd).2.2.1
      | code => simp at e; exact absurd e.1.symm (q1 _ hd).2.2.2
    | other hd hs' =>
      cases hs with
      | visible _ _ =>
        cases hs' with
        | visible _ _ => simp at e; exact e
        | _ => simp at e; exact absurd (by rw [e.1]; decide) hc
      | tab =>
        cases hs' with
        | visible _ _ => simp at e; exact absurd (by rw [← e.1]; decide) hd
        | tab => simp at e; exact ⟨rfl, e⟩
        | _ => simp at e
      | «return» =>
        cases hs' with
        | visible _ _ => simp at e; exact absurd (by rw [← e.1]; decide) hd
        | «return» => simp at e; exact ⟨rfl, e⟩
        | _ => simp at e
      | newline =>
        cases hs' with
        | visible _ _ => simp at e; exact absurd (by rw [← e.1]; decide) hd
        | newline => simp at e; exact ⟨rfl, e⟩
        | _ => simp at e
      | code _ _ _ _ _ hx hn =>
        cases hs' with
        | visible _ _ => simp at e; exact absurd (by rw [← e.1]; decide) hd
        | code _ _ _ _ _ hx' hn' =>
          simp at e
          obtain ⟨rfl, e2⟩ := hex_brace hx hx' e
          exact ⟨Char.toNat_inj.1 (hn.symm.trans hn'), e2⟩
        | _ => simp at e

/-- **C74**, names: the name can be read off from how it is shown. -/
theorem c74_name_unique {a b t : Str} (ha : NameShown a t) (hb : NameShown b t) : a = b := by
  induction ha generalizing b with
  | nil =>
    generalize ht : ([] : Str) = t at hb
    cases hb with
    | nil => rfl
    | cons h _ =>
      cases h with
      | escaped => simp at ht
      | other _ h => cases h <;> simp at ht
  | @cons c s t u h1 h2 ih =>
    generalize ht : t ++ u = x at hb
    cases hb with
    | nil =>
      cases h1 with
      | escaped => simp at ht
      | other _ h => cases h <;> simp at ht
    | cons h3 h4 =>
      obtain ⟨rfl, rfl⟩ := shownIn_inj h1 h3 ht
      rw [ih h4]

theorem unexp_message {β : Type} (x : Spanned β S) (k m : Str) : (DErr.unexp x k m).message = m := rfl
theorem unexp_labels {β : Type} (x : Spanned β S) (k m : Str) :
    (DErr.unexp x k m).labels = [("unexpected ".toList ++ k, x.span)] := rfl

/-- **C74**, names: what the messages about properties and nodes that are in no field's way, and about nodes that come a
second time, show in backquotes is the name that was written. -/
theorem c74_names [Externals] {V : Type} (name : Spanned Str S) (node : SpannedNode S) (child : Child E S V) :
    (∃ t, NameShown name.value t ∧ (unexpectedProperty name).message = "unexpected property ".toList ++ quoted t ∧
      (unexpectedProperty name).labels = [("unexpected property".toList, name.span)]) ∧
    (∃ t, NameShown node.value.nodeName.value t ∧ (unexpectedNode node).message = "unexpected node ".toList ++ quoted t ∧
      (unexpectedNode node).labels = [("unexpected node".toList, node.span)]) ∧
    (∃ t, NameShown child.name t ∧
      (duplicateNode child node).message = "duplicate node ".toList ++ quoted t ++ ", single node expected".toList ∧
      (duplicateNode child node).labels = [("unexpected node".toList, node.value.nodeName.span)]) := by
  have l1 : ("unexpected ".toList ++ "property".toList : Str) = "unexpected property".toList := by decide
  have l2 : ("unexpected ".toList ++ "node".toList : Str) = "unexpected node".toList := by decide
  have m1 : ("unexpected property `".toList : Str) = "unexpected property ".toList ++ "`".toList := by decide
  have m2 : ("unexpected node `".toList : Str) = "unexpected node ".toList ++ "`".toList := by decide
  have m3 : ("duplicate node `".toList : Str) = "duplicate node ".toList ++ "`".toList := by decide
  have m4 : ("`, single node expected".toList : Str) = "`".toList ++ ", single node expected".toList := by decide
  refine ⟨⟨_, escapeDefault_shown _, ?_, ?_⟩, ⟨_, escapeDefault_shown _, ?_, ?_⟩, ⟨_, escapeDefault_shown _, ?_, ?_⟩⟩
  · rw [unexpectedProperty, unexp_message, m1, quoted]; simp only [List.append_assoc]
  · rw [unexpectedProperty, unexp_labels, l1]
  · rw [unexpectedNode, unexp_message, m2, quoted]; simp only [List.append_assoc]
  · rw [unexpectedNode, unexp_labels, l2]
  · rw [duplicateNode, unexp_message, m3, m4, quoted]; simp only [List.append_assoc]
  · rw [duplicateNode, unexp_labels, l2]

/-! ### Spans -/

/-- **C74**, spans: a span can be read off from how it is printed, the two offsets in decimal notation with two dots
between them. -/
theorem c74_span (s s' : Sp Nat) (h : s.show = s'.show) : s = s' := by
  have nd : ∀ n, '.' ∉ showNat n := by
    intro n hn
    have := Nat.isDigit_of_mem_toDigits (b := 10) (by decide) (by decide) hn
    revert this; decide
  have inj : ∀ m n, showNat m = showNat n → m = n :=
    toDigits_inj (by decide) (fun m n hm hn => (by decide : ∀ m, m < 10 → ∀ n, n < 10 → m.digitChar = n.digitChar → m = n) m hm n hn)
  obtain ⟨a, b⟩ := s
  obtain ⟨a', b'⟩ := s'
  have e : showNat a ++ '.' :: '.' :: showNat b = showNat a' ++ '.' :: '.' :: showNat b' := by simpa [Sp.show] using h
  rcases List.append_eq_append_iff.1 e with ⟨z, h1, h2⟩ | ⟨z, h1, h2⟩
  · cases z with
    | nil => simp at h1 h2; rw [inj _ _ h1, inj _ _ h2]
    | cons c z => simp at h2; exact absurd (by rw [h1, ← h2.1]; simp) (nd a')
  · cases z with
    | nil => simp at h1 h2; rw [inj _ _ h1, inj _ _ h2.symm]
    | cons c z => simp at h2; exact absurd (by rw [h1, ← h2.1]; simp) (nd a)

theorem digitChar_ofNat : ∀ d, d < 10 → d.digitChar = Char.ofNat (48 + d) := by decide

theorem showNat_decimal (n : Nat) : DecimalOf n (showNat n) := by
  induction n using Nat.strongRecOn with
  | ind n ih =>
    unfold showNat at ih ⊢
    by_cases h : n < 10
    · rw [Nat.toDigits_of_lt_base h, digitChar_ofNat n h]; exact .digit h
    · rw [Nat.toDigits_of_base_le (by decide) (by omega), digitChar_ofNat (n % 10) (by omega)]
      have := DecimalOf.more (d := n % 10) (by omega : 0 < n / 10) (by omega) (ih (n / 10) (by omega))
      rwa [Nat.div_add_mod] at this

/-- **C74**, spans: a span is printed as its start and its end in decimal notation, in this order, with two dots between
them; a span made from a range has the start and the end of the range. -/
theorem c74_span_text (start stop : Nat) :
    (∃ a b, DecimalOf start a ∧ DecimalOf stop b ∧ (⟨start, stop⟩ : Sp Nat).show = a ++ ['.', '.'] ++ b) ∧
    (∃ a b, DecimalOf start a ∧ DecimalOf stop b ∧ (Sp.ofRange start stop).show = a ++ ['.', '.'] ++ b) ∧
    (Sp.ofRange start stop).start = start ∧ (Sp.ofRange start stop).stop = stop :=
  ⟨⟨_, _, showNat_decimal _, showNat_decimal _, rfl⟩, ⟨_, _, showNat_decimal _, showNat_decimal _, rfl⟩, rfl, rfl⟩

/-- The notation of a number of three digits, and a span printed. -/
example : DecimalOf 107 ['1', '0', '7'] :=
  .more (n := 10) (d := 7) (t := ['1', '0']) (by decide) (by decide) (.more (n := 1) (d := 0) (t := ['1']) (by decide) (by decide) (.digit (d := 1) (by decide)))
example : (Sp.ofRange 3 12).show = ['3', '.', '.', '1', '2'] := by decide

/-- **C74**, labels: `with_label` changes the words of the label (of what is unclosed: its name in the message), and no
place, no help and nothing else of the message. -/
theorem c74_with_label {O : Type} (l : Str) (e : PErr O) :
    (e.withLabel l).spans = e.spans ∧ (e.withLabel l).help = e.help ∧
    ((∃ name at' opening, (∃ b c f, e = .unclosed name at' opening b c f) ∧
        (e.withLabel l).text = "unclosed ".toList ++ l ++ " ".toList ++ opening.show ∧ (e.withLabel l).labels = e.labels) ∨
      ((e.withLabel l).text = e.text ∧ ∃ sp, e.spans = [sp] ∧ (e.withLabel l).labels = [(l, sp)])) := by
  cases e with
  | unclosed n a o b c f => exact ⟨rfl, rfl, .inl ⟨n, a, o, ⟨b, c, f, rfl⟩, rfl, rfl⟩⟩
  | _ => exact ⟨rfl, rfl, .inr ⟨rfl, _, rfl, rfl⟩⟩

theorem unclosedDelimiter_text {O : Type} (a b : Sp O) (o e : Char) (f : Option Char) :
    (PErr.unclosedDelimiter a o b e f).text = "unclosed ".toList ++ "delimited".toList ++ " ".toList ++ (TokenFormat.char o).show := rfl
theorem unclosedDelimiter_labels {O : Type} (a b : Sp O) (o e : Char) (f : Option Char) :
    (PErr.unclosedDelimiter a o b e f).labels =
      [("opened here".toList, a), ("expected ".toList ++ (TokenFormat.char e).show, b)] := rfl

/-- **C74**: an unclosed delimiter is reported with the delimiter in backquotes and the two places. -/
theorem c74_delimiter {O : Type} (a b : Sp O) (o e : Char) (f : Option Char) :
    ∃ x y, ShownAs o x ∧ ShownAs e y ∧
      (PErr.unclosedDelimiter a o b e f).text = "unclosed delimited ".toList ++ quoted x ∧
      (PErr.unclosedDelimiter a o b e f).labels = [("opened here".toList, a), ("expected ".toList ++ quoted y, b)] := by
  obtain ⟨x, hx, ex⟩ := c63_char o
  obtain ⟨y, hy, ey⟩ := c63_char e
  refine ⟨x, y, hx, hy, ?_, ?_⟩
  · have m : ("unclosed delimited ".toList : Str) = "unclosed ".toList ++ "delimited".toList ++ " ".toList := by decide
    rw [unclosedDelimiter_text, ex, m]
  · rw [unclosedDelimiter_labels, ey]

/-! ### Non-vacuity -/

section
/-- A text for a `bool` field: one error is reported, and this is what it says. -/
example : Reports ((boolScalar (E := Unit) (S := Nat)).decode ⟨none, ⟨7, .string "yes".toList⟩⟩) ⟨[], ()⟩
    [.scalarKind 7 .bool .string] := ⟨(by intro h; cases h), rfl⟩
example : (boolScalar (E := Unit) (S := Nat)).Truthful [.bool] .bool [] := c58_bool
example : (DErr.scalarKind 7 .bool .string).message = "expected boolean scalar, found string".toList := by decide
example : (DErr.scalarKind 7 .bool .string).labels = [("unexpected string".toList, 7)] := by decide
example : CalledBy (.string "yes".toList) "string".toList := .string _
/-- An annotation that is not allowed. -/
example : (DErr.typeName 3 (some (.custom "flag".toList)) ⟨[.builtin .u8], true⟩ "u8".toList).message =
    "u8 or no type for u8, found flag".toList := by decide
/-- A name with a quote, a line feed and a letter that is not ASCII. -/
example : NameShown "a\"\né".toList "a\\\"\\n\\u{e9}".toList := by
  have h := escapeDefault_shown "a\"\né".toList
  have e : escapeDefault "a\"\né".toList = "a\\\"\\n\\u{e9}".toList := by decide
  rwa [e] at h
example : (Sp.mk 3 12).show = "3..12".toList := by decide
example : (PErr.unclosedDelimiter (Sp.mk 0 1) '{' (Sp.mk 3 3) '}' none).text = "unclosed delimited `{`".toList := by decide
example : ((PErr.message none (Sp.mk 3 12) "m".toList).withLabel "here".toList).labels = [("here".toList, ⟨3, 12⟩)] := rfl
end

end Knuffel
