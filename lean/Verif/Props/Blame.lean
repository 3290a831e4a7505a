import Verif.Spec.Blame
import Verif.Theory.Place
import Verif.Props.Reject
/-!
# The reported character is where things went wrong

C75: when a text is rejected because of a character that was not expected, then nothing that could
follow that character makes the text legal.
-/

namespace Knuffel
open Cst

theorem first_infix {c : Str} : ∀ (n : Nat) {s : Str}, s.length ≤ n → c <:+: s →
    ∃ v y, s = v ++ (c ++ y) ∧ ¬ (c ≠ [] ∧ c <:+: v) := by
  intro n
  induction n with
  | zero =>
    intro s hs h
    have : s = [] := List.length_eq_zero_iff.1 (by omega)
    subst this
    have : c = [] := by simpa using h
    subst this
    exact ⟨[], [], rfl, by simp⟩
  | succ n ih =>
    rintro s hs ⟨v, y, rfl⟩
    by_cases h : c ≠ [] ∧ c <:+: v
    · have hl : 0 < c.length := List.length_pos_iff.2 h.1
      obtain ⟨v', y', rfl, h2⟩ := ih (s := v) (by simp at hs; omega) h.2
      exact ⟨v', y' ++ c ++ y, by simp, h2⟩
    · exact ⟨v, y, by simp, h⟩

theorem rawString_closed {O : Type} [Offset O] {eoi : Sp O} {s : List (Tok O)} {n post}
    (h : chars s = 'r' :: List.replicate n '#' ++ '"' :: post) (hc : rawClose n <:+: post) :
    ¬ Fails rawString eoi s := by
  obtain ⟨v, y, rfl, hv⟩ := first_infix _ (Nat.le_refl _) hc
  have hv' : ¬ rawClose n <:+: v := fun h => hv ⟨by simp [rawClose], h⟩
  have h' : chars s = (StrLit.raw n v).text ++ y := by rw [h]; simp [StrLit.text]
  obtain ⟨t, hT, -⟩ := takes_of_chars h'
  have hok : Ok rawString eoi s v t := ok_rawString.2 ⟨n, hv', hT⟩
  exact hok.not_fails

/-- The rest of the common part begins where a word may begin. -/
theorem wordStart_of {O : Type} {C : Twin O} {x : Tok O} {w} (h : C.Start (x :: w)) {pre} (hp : C.U = pre ++ x :: w) :
    WordStart (chars pre) := by
  intro c hc
  rcases h with h | h | ⟨pre', y, h, hy⟩
  · simp at h
  · rw [hp] at h
    have : pre = [] := by simpa using h
    subst this; simp [chars] at hc
  · rw [hp] at h
    have : pre = pre' ++ [y] := by
      have h' : pre ++ (x :: w) = (pre' ++ [y]) ++ (x :: w) := by rw [h]; simp
      exact List.append_cancel_right h'
    subst this
    simp [chars] at hc
    subst hc
    simp only [wordy, Bool.and_eq_false_iff, Bool.not_eq_false', bne_eq_false_iff_eq] at hy
    rw [isWsChar_iff] at hy
    rw [← isIdChar_iff]
    rcases hy with ((hy | hy) | hy) | hy
    · exact Or.inl (by simp [hy])
    · exact Or.inr (Or.inl hy)
    · exact Or.inr (Or.inr (Or.inl hy))
    · exact Or.inr (Or.inr (Or.inr hy))

theorem codesOk_of {O : Type} {all : List (Tok O)}
    (h : ∀ pre post, chars all = pre ++ '\\' :: 'u' :: post → ∃ hex rest, (StrChar.unicode hex).Ok ∧ post = '{' :: hex ++ '}' :: rest) :
    CodesOk all := by
  intro x y w hw hx hy
  obtain ⟨pre, hpre⟩ := hw
  obtain ⟨hex, rest, h1, h2⟩ := h (chars pre) (chars w) (by rw [← hpre]; simp [chars, hx, hy])
  have h3 : chars w = ('{' :: hex ++ ['}']) ++ rest := by rw [h2]; simp
  obtain ⟨a, b, rfl, h4, -⟩ := chars_eq_append.1 h3
  exact ⟨hex, b, h1, a, rfl, h4⟩

theorem tame_of_straight {O : Type} [Offset O] {C : Twin O} (h : Straight (chars (C.U ++ C.v))) : Decent C where
  code := codesOk_of h.code
  tie := h.tie
  raw x w hw hs := by
    rintro ⟨n, q, hq⟩
    obtain ⟨pre, hpre⟩ := hw
    have hq' : chars (x :: w ++ C.v) = 'r' :: List.replicate n '#' ++ '"' :: q := by rw [← hq]; simp
    refine rawString_closed hq' (h.raw (chars pre) n q ?_ (wordStart_of hs hpre.symm))
    rw [← hq', ← hpre]
    simp [chars]
  num x w hw hs hx l t hok heq := by
    obtain ⟨pre, hpre⟩ := hw
    obtain ⟨n, hn, hT, -⟩ := number_sound hok
    obtain ⟨q, hq⟩ : ∃ q, chars t = '=' :: q := by
      cases hc : chars t with
      | nil => simp [hc] at heq
      | cons d q => rw [hc] at heq; simp at heq; exact ⟨q, by rw [heq]⟩
    have h1 := hT.chars
    rw [hq] at h1
    have := h.num (chars pre) n q hn (by rw [← h1, ← hpre]; simp [chars]) (wordStart_of hs hpre.symm)
    have hne : n.text ≠ [] := by cases n <;> simp [Num.text]
    have hhd : n.text.head? = some x.1 := by
      cases hc : n.text with
      | nil => exact absurd hc hne
      | cons d ds => rw [hc] at h1; simp [chars] at h1; simp [h1.1]
    rw [hhd] at this
    rcases hx with hx | hx <;> simp [hx] at this

/-- **C75.** If a text is rejected and the last diagnostic is about an unexpected character `c` then
the text is `u ++ c :: v` with the diagnostic pointing at that `c`, and every text that begins with
`u` and `c` is rejected. -/
theorem c75_blame (text : Str) (hs : Straight text) (es : List (PErr Nat)) (h : parseAst text = some (.error es))
    (lb sp c ex) (hl : es.getLast? = some (.unexpected lb sp (.char c) ex)) :
    ∃ u v, text = u ++ c :: v ∧ sp = ⟨byteLen u, byteLen (u ++ [c])⟩ ∧
      ∀ v', ∃ es', parseAst (u ++ c :: v') = some (.error es') := by
  obtain ⟨e, t, he, ht, hr⟩ := parse_place (codesOk_of (by rw [chars_offsetToks]; exact hs.code)) h hl
  obtain ⟨u, post, rfl, h2⟩ := offset_suffix ht
  cases post with
  | nil => simp [offsetToks] at h2
  | cons c' v =>
    simp only [offsetToks, List.cons.injEq, Prod.mk.injEq] at h2
    obtain ⟨⟨rfl, rfl⟩, rfl⟩ := h2
    refine ⟨u, v, rfl, by simp [byteLen_append, byteLen], fun v' => ?_⟩
    let C : Twin Nat := ⟨offsetEoi (u ++ c :: v), offsetEoi (u ++ c :: v'), offsetToks 0 (u ++ [c]),
      offsetToks (byteLen (u ++ [c])) v, offsetToks (byteLen (u ++ [c])) v'⟩
    have hv : ∀ x, offsetToks 0 (u ++ [c]) ++ offsetToks (byteLen (u ++ [c])) x = offsetToks 0 (u ++ c :: x) := by
      intro x
      have := offsetToks_append (u ++ [c]) x 0
      rw [Nat.zero_add] at this
      rw [← this]; simp
    have hT : Decent C := tame_of_straight (by
      show Straight (chars (offsetToks 0 (u ++ [c]) ++ offsetToks (byteLen (u ++ [c])) v))
      rw [hv, chars_offsetToks]; exact hs)
    have hf : Fails document C.eoi' (C.U ++ C.v') := by
      refine document_blame hT (e := e) ?_ ?_
      · show (document (offsetEoi (u ++ c :: v)) (offsetToks 0 (u ++ [c]) ++ offsetToks (byteLen (u ++ [c])) v)).out = _
        rw [hv]; exact he
      · show (offsetToks _ v).length < e.rem
        rw [hr, offsetToks_len, offsetToks_len]; omega
    have hf' : Fails document (offsetEoi (u ++ c :: v')) (offsetToks 0 (u ++ c :: v')) := by
      have : C.U ++ C.v' = offsetToks 0 (u ++ c :: v') := hv v'
      rw [← this]; exact hf
    obtain ⟨r, hr'⟩ := c01_parse_total (u ++ c :: v')
    cases r with
    | error es' => exact ⟨es', hr'⟩
    | ok d =>
      obtain ⟨e', he'⟩ := hf'
      unfold parseAst runParser at hr'
      simp only [he'] at hr'
      split at hr' <;> simp at hr'

/-- The ends of a text that begin with a given character. -/
def endsWith (c : Char) : Str → List Str
  | [] => []
  | d :: s => if d = c then (d :: s) :: endsWith c s else endsWith c s

theorem mem_endsWith {c : Char} : ∀ {s pre q : Str}, s = pre ++ q → q.head? = some c → q ∈ endsWith c s := by
  intro s
  induction s with
  | nil => intro pre q h hq; simp at h; simp [h] at hq
  | cons d s ih =>
    intro pre q h hq
    cases pre with
    | nil =>
      simp only [List.nil_append] at h
      subst h
      simp at hq
      simp [endsWith, hq]
    | cons e pre =>
      simp only [List.cons_append, List.cons.injEq] at h
      have := ih h.2 hq
      unfold endsWith
      split
      · exact List.mem_cons_of_mem _ this
      · exact this

/-- The text `n r"x" "\u{41}" a=-1 +1 ]b`, with a raw string, the code of a character, numbers with a sign and a misplaced
bracket. -/
def bracketText : Str := ['n', ' ', 'r', '"', 'x', '"', ' ', '"', '\\', 'u', '{', '4', '1', '}', '"', ' ', 'a', '=', '-', '1', ' ', '+', '1', ' ', ']', 'b']

theorem bracketText_eq : "n r\"x\" \"\\u{41}\" a=-1 +1 ]b".toList = bracketText := by decide +kernel

theorem bracketText_r : endsWith 'r' bracketText = [bracketText.drop 2] := by decide +kernel
theorem bracketText_plus : endsWith '+' bracketText = [['+', '1', ' ', ']', 'b']] := by decide +kernel
theorem bracketText_minus : endsWith '-' bracketText = [['-', '1', ' ', '+', '1', ' ', ']', 'b']] := by decide +kernel

theorem bracketText_code : endsWith '\\' bracketText = [bracketText.drop 8] := by decide +kernel

theorem straight_example : Straight bracketText where
  tie := by decide +kernel
  code pre post h := by
    have h1 := mem_endsWith h (c := '\\') rfl
    rw [bracketText_code, List.mem_singleton] at h1
    simp only [bracketText, List.drop_succ_cons, List.drop_zero, List.cons.injEq, true_and] at h1
    exact ⟨['4', '1'], _, ⟨by decide, by decide, by decide, by decide⟩, h1⟩
  raw pre n post h hp := by
    have h1 := mem_endsWith h (c := 'r') rfl
    rw [bracketText_r, List.mem_singleton] at h1
    cases n with
    | zero =>
      have h3 : post = ['x', '"', ' ', '"', '\\', 'u', '{', '4', '1', '}', '"', ' ', 'a', '=', '-', '1', ' ', '+', '1', ' ', ']', 'b'] := by
        simpa [bracketText] using h1
      rw [h3]; exact ⟨['x'], _, rfl⟩
    | succ n => simp [List.replicate_succ, bracketText] at h1
  num pre n post hn h _ := by
    constructor
    · intro h4
      have h1 := mem_endsWith h (c := '+') (by rw [List.head?_append, h4]; rfl)
      rw [bracketText_plus, List.mem_singleton] at h1
      have : '=' ∈ ['+', '1', ' ', ']', 'b'] := by rw [← h1]; simp
      simp at this
    · intro h4
      have h1 := mem_endsWith h (c := '-') (by rw [List.head?_append, h4]; rfl)
      rw [bracketText_minus, List.mem_singleton] at h1
      have : '=' ∈ ['-', '1', ' ', '+', '1', ' ', ']', 'b'] := by rw [← h1]; simp
      simp at this

/-- The place and the character that the only diagnostic complains about. -/
private def blamed (text : Str) : Option (Sp Nat × Char) :=
  match parseAst text with
  | some (.error [.unexpected _ sp (.char c) _]) => some (sp, c)
  | _ => none

private theorem blamed_spec {text : Str} {sp c} (h : blamed text = some (sp, c)) :
    ∃ lb ex, parseAst text = some (.error [.unexpected lb sp (.char c) ex]) := by
  unfold blamed at h
  split at h
  · rename_i hp
    simp only [Option.some.injEq, Prod.mk.injEq] at h
    obtain ⟨rfl, rfl⟩ := h
    exact ⟨_, _, hp⟩
  · cases h

private def accepted (text : Str) : Bool :=
  match parseAst text with
  | some (.ok _) => true
  | _ => false

private theorem accepted_spec {text : Str} (h : accepted text = true) : ∃ d, parseAst text = some (.ok d) := by
  unfold accepted at h
  split at h
  · exact ⟨_, by assumption⟩
  · cases h

theorem bracketText_split : bracketText = "n r\"x\" \"\\u{41}\" a=-1 +1 ".toList ++ [']', 'b'] := by decide +kernel
theorem bracketText_ends : endsWith ']' bracketText = [[']', 'b']] := by decide +kernel

/-- Nothing that follows the bracket helps. -/
example : ∀ v', ∃ es', parseAst ("n r\"x\" \"\\u{41}\" a=-1 +1 ".toList ++ ']' :: v') = some (.error es') := by
  obtain ⟨lb, ex, h⟩ := blamed_spec (text := bracketText) (sp := ⟨24, 25⟩) (c := ']') (by decide +kernel)
  obtain ⟨u, v, h1, h2, h3⟩ := c75_blame _ straight_example _ h _ _ _ _ rfl
  have h4 := mem_endsWith h1 (c := ']') rfl
  rw [bracketText_ends, List.mem_singleton] at h4
  rw [h4, bracketText_split] at h1
  rw [List.append_cancel_right h1]; exact h3

/-- **C75**, while typing: if a text is the beginning of one that is accepted, then the last thing that is said of it is
not about an unexpected character. -/
theorem c75_beginning (text rest : Str) (hs : Straight text) (d : Document (Sp Nat)) (hd : parseAst (text ++ rest) = some (.ok d))
    (es : List (PErr Nat)) (h : parseAst text = some (.error es)) (lb sp c ex) :
    es.getLast? ≠ some (.unexpected lb sp (.char c) ex) := by
  intro hl
  obtain ⟨u, v, rfl, -, h3⟩ := c75_blame text hs es h lb sp c ex hl
  obtain ⟨es', h4⟩ := h3 (v ++ rest)
  rw [List.append_assoc, List.cons_append, h4] at hd
  simp at hd

/-- The text `n {` is rejected, and is the beginning of one that is accepted. -/
example : Straight "n {".toList ∧ (∃ d, parseAst ("n {".toList ++ "}".toList) = some (.ok d)) ∧
    ∃ es, parseAst "n {".toList = some (.error es) := by
  refine ⟨⟨by decide +kernel, ?_, ?_, ?_⟩, accepted_spec (by decide +kernel), ?_⟩
  · intro pre post h
    have : 'u' ∈ "n {".toList := by rw [h]; simp
    exact absurd this (by decide)
  · intro pre n post h
    have : 'r' ∈ "n {".toList := by rw [h]; simp
    exact absurd this (by decide)
  · intro pre n post _ h
    have : '=' ∈ "n {".toList := by rw [h]; simp
    exact absurd this (by decide)
  · have : (match parseAst "n {".toList with | some (.error _) => true | _ => false) = true := by decide +kernel
    generalize parseAst "n {".toList = r at this
    match r, this with
    | some (.error es), _ => exact ⟨es, rfl⟩

/-- **C75 (block comments).** Without the condition about `/*/` it is not so: the second `/*` is taken for
text, as the comment is not closed; but it may be closed later. -/
theorem c75_tie_fails :
    (∃ lb ex, parseAst "/*/*/]".toList = some (.error [.unexpected lb ⟨5, 6⟩ (.char ']') ex])) ∧
    ∃ d, parseAst ("/*/*/]".toList ++ "*/*/".toList) = some (.ok d) :=
  ⟨blamed_spec (by decide +kernel), accepted_spec (by decide +kernel)⟩

/-- **C75 (raw strings).** Nor without the one about raw strings: inside braces, the quote is blamed for a raw
string that is not closed. -/
theorem c75_raw_fails :
    (∃ lb ex, parseAst "n{m r\"".toList = some (.error [.unexpected lb ⟨5, 6⟩ (.char '"') ex])) ∧
    ∃ d, parseAst ("n{m r\"".toList ++ "\";}".toList) = some (.ok d) :=
  ⟨blamed_spec (by decide +kernel), accepted_spec (by decide +kernel)⟩

/-- **C75 (numbers).** Nor without the one about numbers with a sign: inside braces, the first digit is blamed
when the number is used as a property name. -/
theorem c75_number_fails :
    (∃ lb ex, parseAst "n{m +1=1".toList = some (.error [.unexpected lb ⟨5, 6⟩ (.char '1') ex])) ∧
    ∃ d, parseAst ("n{m +1".toList ++ ";}".toList) = some (.ok d) :=
  ⟨blamed_spec (by decide +kernel), accepted_spec (by decide +kernel)⟩

end Knuffel
