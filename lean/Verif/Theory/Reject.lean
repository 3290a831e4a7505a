import Verif.Theory.Open
import Verif.Theory.SimInst
/-!
# Lemmas about rejected texts

Which literals, names and entries a text can begin with; block comments that are
never closed; lines before a text.
-/

namespace Knuffel
open Cst

/-! ### Two ways to cut a text -/

/-- If a text is cut in two ways, and neither cut can be inside the other's first
part, the cuts are the same. -/
theorem cut_eq {a b c d : Str} {B D : Char → Prop} (h : a ++ b = c ++ d) (ha : a ≠ [])
    (hb : ∀ x, b.head? = some x → B x) (hd : ∀ x, d.head? = some x → D x) (hA : ∀ x ∈ a, ¬ D x)
    (hC : ∀ x ∈ c.tail, ¬ B x) : a = c ∧ b = d := by
  rcases List.append_eq_append_iff.1 h with ⟨x, h1, h2⟩ | ⟨x, h1, h2⟩
  · cases x with
    | nil => exact ⟨by simpa using h1.symm, by simpa using h2⟩
    | cons y x =>
      exfalso
      refine hC y ?_ (hb y (by rw [h2]; rfl))
      cases a with
      | nil => exact absurd rfl ha
      | cons z a => rw [h1]; simp
  · cases x with
    | nil => exact ⟨by simpa using h1, by simpa using h2.symm⟩
    | cons y x =>
      exact absurd (hd y (by rw [h2]; rfl)) (hA y (by rw [h1]; simp))

/-! ### Numbers and keywords -/

/-- The characters of numbers and keywords. -/
def wordChars : List Char := "0123456789abcdefABCDEFox_.+-truefalsn".toList

theorem wordChars_ident : ∀ c ∈ wordChars, IdentChar c := by
  have h : ∀ c ∈ wordChars, isIdChar c = true := by decide
  intro c hc
  rw [← isIdChar_iff]
  exact h c hc

theorem sign_chars {s : Option Char} (h : SignOk s) : ∀ c ∈ s.toList, c ∈ wordChars := by
  rcases h with rfl | rfl | rfl <;> simp <;> decide

theorem digits_chars {r : Radix} {ds : Str} (h : DigitsOk r ds) : ∀ c ∈ ds, c ∈ wordChars := by
  intro c hc
  rcases h c hc with h | rfl
  · have : ∀ r, ∀ c ∈ Cst.radixDigits r, c ∈ wordChars := by
      intro r; cases r <;> decide
    exact this r c h
  · decide

theorem digit_char {r : Radix} {c : Char} (h : c ∈ Cst.radixDigits r) : c ∈ wordChars :=
  digits_chars (r := r) (ds := [c]) (by intro x hx; simp at hx; subst hx; exact Or.inl h) c (by simp)

theorem num_chars {n : Num} (h : n.Ok) : ∀ c ∈ n.text, c ∈ wordChars := by
  intro c hc
  cases n with
  | dec s d ds fr ex =>
    obtain ⟨h1, h2, h3, h4, h5⟩ := h
    simp only [Num.text, List.mem_append, List.mem_cons] at hc
    rcases hc with ((hc | rfl | hc) | hc) | hc
    · exact sign_chars h1 c hc
    · exact digit_char (r := .dec) h2
    · exact digits_chars h3 c hc
    · cases fr with
      | none => simp [fracText] at hc
      | some x =>
        obtain ⟨d', ds'⟩ := x
        obtain ⟨g1, g2⟩ := h4 d' ds' rfl
        simp only [fracText, List.mem_cons] at hc
        rcases hc with rfl | rfl | hc
        · decide
        · exact digit_char (r := .dec) g1
        · exact digits_chars g2 c hc
    · cases ex with
      | none => simp [expText] at hc
      | some x =>
        obtain ⟨e, s', ds'⟩ := x
        obtain ⟨g1, g2, g3⟩ := h5 e s' ds' rfl
        simp only [expText, List.cons_append, List.mem_cons, List.mem_append] at hc
        rcases hc with rfl | hc | hc
        · rcases g1 with rfl | rfl <;> decide
        · exact sign_chars g2 c hc
        · exact digits_chars g3 c hc
  | radix s r d ds =>
    obtain ⟨h1, h2, h3, h4⟩ := h
    simp only [Num.text, List.mem_append, List.mem_cons] at hc
    rcases hc with hc | rfl | rfl | rfl | hc
    · exact sign_chars h1 c hc
    · decide
    · cases r <;> decide
    · exact digit_char h3
    · exact digits_chars h4 c hc

theorem notStr_chars {l : Lit} (h : l.Ok) (hn : l.isWord) : ∀ c ∈ l.text, c ∈ wordChars := by
  cases l with
  | str s => exact hn.elim
  | null => decide
  | bool b => cases b <;> decide
  | num n => exact num_chars h

/-- The beginning of a number. -/
def DigitStart (w : Str) : Prop :=
  (∃ c r, w = c :: r ∧ c ∈ decDigits) ∨ ∃ s c r, w = s :: c :: r ∧ (s = '+' ∨ s = '-') ∧ c ∈ decDigits

theorem num_start {n : Num} (h : n.Ok) : ∃ x, DigitStart (n.text ++ x) ∧ DigitStart n.text := by
  refine ⟨[], ?_⟩
  suffices DigitStart n.text by simpa using this
  cases n with
  | dec s d ds fr ex =>
    obtain ⟨h1, h2, -⟩ := h
    rcases h1 with rfl | rfl | rfl
    · exact Or.inl ⟨d, _, rfl, h2⟩
    · exact Or.inr ⟨'+', d, _, rfl, Or.inl rfl, h2⟩
    · exact Or.inr ⟨'-', d, _, rfl, Or.inr rfl, h2⟩
  | radix s r d ds =>
    obtain ⟨h1, -⟩ := h
    rcases h1 with rfl | rfl | rfl
    · exact Or.inl ⟨'0', _, rfl, by decide⟩
    · exact Or.inr ⟨'+', '0', _, rfl, Or.inl rfl, by decide⟩
    · exact Or.inr ⟨'-', '0', _, rfl, Or.inr rfl, by decide⟩

theorem digitStart_append {w x : Str} (h : DigitStart w) : DigitStart (w ++ x) := by
  rcases h with ⟨c, r, rfl, h⟩ | ⟨s, c, r, rfl, h1, h2⟩
  · exact Or.inl ⟨c, r ++ x, rfl, h⟩
  · exact Or.inr ⟨s, c, r ++ x, rfl, h1, h2⟩

/-- No bare identifier begins like a number. -/
theorem ident_no_digit {v x : Str} (hv : IdentShape v) (h : DigitStart (v ++ x)) :
    ∃ s r, v = [s] ∧ (s = '+' ∨ s = '-') ∧ ∃ c, x = c :: r ∧ c ∈ decDigits := by
  rcases h with ⟨c, r, h, hc⟩ | ⟨s, c, r, h, hs, hc⟩
  · exfalso
    match v, hv, h with
    | [d], hv, h =>
      simp only [List.cons_append, List.nil_append, List.cons.injEq] at h
      obtain ⟨rfl, -⟩ := h
      rcases hv with rfl | rfl | hv
      · revert hc; decide
      · revert hc; decide
      · exact hv.2 hc
    | d :: e :: rest, hv, h =>
      simp only [List.cons_append, List.cons.injEq] at h
      obtain ⟨rfl, -⟩ := h
      rcases hv.1 with ⟨rfl | rfl, -⟩ | ⟨-, -, hv, -⟩
      · revert hc; decide
      · revert hc; decide
      · exact hv.2 hc
  · match v, hv, h with
    | [d], hv, h =>
      simp only [List.cons_append, List.nil_append, List.cons.injEq] at h
      obtain ⟨rfl, rfl⟩ := h
      exact ⟨d, r, rfl, hs, c, rfl, hc⟩
    | d :: e :: rest, hv, h =>
      exfalso
      simp only [List.cons_append, List.cons.injEq] at h
      obtain ⟨rfl, rfl, -⟩ := h
      rcases hv.1 with ⟨-, hv⟩ | ⟨h1, h2, -⟩
      · exact hv.2 hc
      · rcases hs with rfl | rfl
        · exact h1 rfl
        · exact h2 rfl

theorem notStr_not_ident {l : Lit} {v : Str} (h : l.Ok) (hn : l.isWord) (hv : BareIdent v) : l.text ≠ v := by
  rintro rfl
  cases l with
  | str s => exact hn
  | null => exact hv.2 (by decide)
  | bool b => cases b <;> exact hv.2 (by decide)
  | num n =>
    obtain ⟨x, -, h2⟩ := num_start h
    obtain ⟨s, r, -, -, c, h3, -⟩ := ident_no_digit (x := []) hv.1 (by simpa [Lit.text] using h2)
    simp at h3

theorem notStr_ne_nil {l : Lit} (h : l.Ok) (hn : l.isWord) : l.text ≠ [] := by
  cases l with
  | str s => exact hn.elim
  | null => decide
  | bool b => cases b <;> decide
  | num n =>
    obtain ⟨x, -, h2⟩ := num_start h
    rintro h
    simp only [Lit.text] at h
    rw [h] at h2
    rcases h2 with ⟨c, r, h, -⟩ | ⟨s, c, r, h, -⟩ <;> simp at h

/-- The first character of a number or keyword. -/
theorem notStr_head {l : Lit} (h : l.Ok) (hn : l.isWord) :
    ∃ c r, l.text = c :: r ∧ c ∈ "0123456789+-tfn".toList := by
  cases l with
  | str s => exact hn.elim
  | null => exact ⟨_, _, rfl, by decide⟩
  | bool b => cases b <;> exact ⟨_, _, rfl, by decide⟩
  | num n =>
    obtain ⟨x, -, h2⟩ := num_start h
    rcases h2 with ⟨c, r, h, hc⟩ | ⟨s, c, r, h, hs, -⟩
    · refine ⟨c, r, h, ?_⟩
      have : ∀ c ∈ decDigits, c ∈ "0123456789+-tfn".toList := by decide
      exact this c hc
    · refine ⟨s, _, h, ?_⟩
      rcases hs with rfl | rfl <;> decide

theorem identShape_tail_char {v : Str} (hv : IdentShape v) : ∀ c ∈ v, IdentChar c ∨ c = '!' :=
  fun _ hc => identShape_mem hv hc

theorem sep_not_ident {c : Char} (h : c ∈ sepChars) (hf : c ≠ '\uFEFF') : ¬ IdentChar c ∧ c ≠ '!' := by
  have hall : ∀ c ∈ sepChars, c = '\uFEFF' ∨ (isIdChar c = false ∧ c ≠ '!') := by decide
  rcases hall c h with rfl | ⟨h1, h2⟩
  · exact absurd rfl hf
  · rw [← isIdChar_iff]
    exact ⟨by simp [h1], h2⟩

/-! ### Strings -/

theorem strChar_text_cons (e : StrChar) : ∃ c r, e.text = c :: r := by
  cases e <;> exact ⟨_, _, rfl⟩

/-- The characters of a string are a prefix code. -/
theorem strChar_prefix {e e' : StrChar} {x y : Str} (h : e.Ok) (h' : e'.Ok) (heq : e.text ++ x = e'.text ++ y) :
    e = e' ∧ x = y := by
  have hu : 'u' ∉ escapes.map Prod.fst := by decide
  cases e with
  | plain c =>
    cases e' with
    | plain c' => simpa [StrChar.text] using heq
    | esc c' => simp [StrChar.text] at heq; exact absurd heq.1 h.2
    | unicode h' => simp [StrChar.text] at heq; exact absurd heq.1 h.2
  | esc c =>
    cases e' with
    | plain c' => simp [StrChar.text] at heq; exact absurd heq.1.symm h'.2
    | esc c' => simpa [StrChar.text] using heq
    | unicode k =>
      simp [StrChar.text] at heq
      exact absurd h (by rw [heq.1]; exact hu)
  | unicode k =>
    cases e' with
    | plain c' => simp [StrChar.text] at heq; exact absurd heq.1.symm h'.2
    | esc c' =>
      simp [StrChar.text] at heq
      exact absurd h' (by rw [← heq.1]; exact hu)
    | unicode k' =>
      have heq' : k ++ '}' :: x = k' ++ '}' :: y := by simpa [StrChar.text] using heq
      have hx : ∀ c ∈ hexDigits.map Prod.fst, c ≠ '}' := by decide
      rcases List.append_eq_append_iff.1 heq' with ⟨z, h1, h2⟩ | ⟨z, h1, h2⟩
      · cases z with
        | nil => simp at h1 h2; exact ⟨by rw [h1], h2⟩
        | cons c z =>
          simp at h2
          exact absurd h2.1.symm (hx c (h'.2.2.1 c (by rw [h1]; simp)))
      · cases z with
        | nil => simp at h1 h2; exact ⟨by rw [h1], h2.symm⟩
        | cons c z =>
          simp at h2
          exact absurd h2.1.symm (hx c (h.2.2.1 c (by rw [h1]; simp)))

/-- A string body that contains something that is no escape is not the body of a
string. -/
theorem no_quoted {good l : List StrChar} {bad rest : Str} (hg : ∀ c ∈ good, c.Ok) (hl : ∀ c ∈ l, c.Ok)
    (hb : ∀ e, StrChar.Ok e → ¬ e.text <+: '\\' :: bad)
    (h : good.flatMap StrChar.text ++ '\\' :: bad = l.flatMap StrChar.text ++ '"' :: rest) : False := by
  induction good generalizing l with
  | nil =>
    cases l with
    | nil => simp at h
    | cons e l =>
      refine hb e (hl e (by simp)) ⟨l.flatMap StrChar.text ++ '"' :: rest, ?_⟩
      simpa using h.symm
  | cons g good ih =>
    cases l with
    | nil =>
      have hgo := hg g (by simp)
      cases g with
      | plain c => simp [StrChar.text] at h; exact hgo.1 h.1
      | esc c => simp [StrChar.text] at h
      | unicode c => simp [StrChar.text] at h
    | cons e l =>
      simp only [List.flatMap_cons, List.append_assoc] at h
      obtain ⟨-, h⟩ := strChar_prefix (hg g (by simp)) (hl e (by simp)) h
      exact ih (fun c hc => hg c (by simp [hc])) (fun c hc => hl c (by simp [hc])) h

/-! ### Space before a text -/

section
variable {O : Type} [Offset O]

/-- Legal lines before other lines. -/
theorem reps_lines {eoi : Sp O} {l : List Line} {s' s as t} (hl : LinesOk true (chars s) l)
    (hT : Takes s' (linesText l) s) (h : Reps lineSpace eoi s as t) (hf : Fails lineSpace eoi t) :
    ∃ as', Reps lineSpace eoi s' as' t := by
  induction l generalizing s' with
  | nil => have := takes_nil.1 hT; subst this; exact ⟨as, h⟩
  | cons w l ih =>
    obtain ⟨s1, h1, h2⟩ := (takes_append (a := w.text) (b := linesText l)).1 hT
    obtain ⟨hw, hl⟩ := hl
    obtain ⟨as, has⟩ := ih hl h2
    rw [← h2.chars] at hw
    have hlen := h1.length
    cases w with
    | newline n =>
      refine ⟨() :: as, .cons (ok_orP_left (ok_orP_left (ok_newline.2 ⟨n, h1, hw⟩))) ?_ has⟩
      have : 0 < n.text.length := by cases n <;> decide
      simp only [Line.text] at hlen
      omega
    | ws w =>
      cases w with
      | char c =>
        obtain ⟨sp, s2, rfl, h3⟩ := takes_cons.1 h1
        have := takes_nil.1 h3; subst this
        exact reps_ws_cons (fun _ _ h => ok_lineSpace_run h) hw has hf
      | block b =>
        refine ⟨() :: as, .cons (ok_orP_left (ok_orP_right (fails_newline ?_).fails
          (ok_ws_block hw h1))) ?_ has⟩
        · rw [h1.chars]; simp [Line.text, Ws.text, newlineChars]
        · simp [Line.text, Ws.text] at hlen
          omega
    | comment c =>
      have hc : chars s' = '/' :: '/' :: (c.body ++ stopText c.stop ++ chars s1) := by
        rw [h1.chars]; simp [Line.text, LineComment.text]
      refine ⟨() :: as, .cons (ok_orP_right (fails_orP.2 ⟨(fails_newline ?_).fails,
        (failsC_ws ?_).fails⟩) (ok_comment.2 ⟨c, h1, hw⟩)) ?_ has⟩
      · rw [hc]; simp [newlineChars]
      · rw [hc]; exact noWs_slash (by decide)
      · simp [Line.text, LineComment.text] at hlen
        omega

theorem sepReps_lines {item : P O α} (hi : Eats 1 item) {eoi : Sp O} {l : List Line} {s' s as t}
    (hl : LinesOk true (chars s) l) (hT : Takes s' (linesText l) s) :
    SepReps item (repeated lineSpace) eoi s' as t ↔ SepReps item (repeated lineSpace) eoi s as t := by
  obtain ⟨b0, t0, h0, hlen⟩ := lines_total (eoi := eoi) s
  have hle := hT.length
  have h1 : ∃ b1, Ok (repeated lineSpace) eoi s' b1 t0 := by
    obtain ⟨h2, h3⟩ := (ok_repeated eats_lineSpace.consumes).1 h0
    obtain ⟨as', h4⟩ := reps_lines hl hT h2 h3
    exact ⟨as', (ok_repeated eats_lineSpace.consumes).2 ⟨h4, h3⟩⟩
  obtain ⟨b1, h1⟩ := h1
  constructor
  · intro h
    cases h with
    | nil g1 g2 =>
      obtain ⟨_, rfl⟩ := g1.unique h1
      exact .nil h0 g2
    | cons g1 g2 g3 g4 =>
      obtain ⟨_, rfl⟩ := g1.unique h1
      have := Consumes.ok hi.consumes g2
      exact .cons h0 g2 (by omega) g4
  · intro h
    cases h with
    | nil g1 g2 =>
      obtain ⟨_, rfl⟩ := g1.unique h0
      exact .nil h1 g2
    | cons g1 g2 g3 g4 =>
      obtain ⟨_, rfl⟩ := g1.unique h0
      exact .cons h1 g2 (by omega) g4

theorem nodesRec_lines {eoi : Sp O} {n : Nat} {l : List Line} {s' s v t} (hl : LinesOk true (chars s) l)
    (hT : Takes s' (linesText l) s) : Ok (nodesRec (n + 1)) eoi s' v t ↔ Ok (nodesRec (n + 1)) eoi s v t := by
  have key : ∀ s vs, Ok (separatedBy (nodeItem (nodesRec n)) (repeated lineSpace)) eoi s vs t ↔
      SepReps (nodeItem (nodesRec n)) (repeated lineSpace) eoi s vs t := fun s vs =>
    ok_separatedBy (fun s => lines_total s) (eats_nodeItem (suf_nodesRec n)).consumes
  rw [nodesRec, ok_pmap, ok_pmap]
  constructor
  · rintro ⟨vs, h, hv⟩
    exact ⟨vs, (key _ _).2 ((sepReps_lines (eats_nodeItem (suf_nodesRec n)) hl hT).1 ((key _ _).1 h)), hv⟩
  · rintro ⟨vs, h, hv⟩
    exact ⟨vs, (key _ _).2 ((sepReps_lines (eats_nodeItem (suf_nodesRec n)) hl hT).2 ((key _ _).1 h)), hv⟩

/-- Legal lines before a document. -/
theorem document_lines {eoi : Sp O} {l : List Line} {s' s d} (hl : LinesOk true (chars s) l)
    (hT : Takes s' (linesText l) s) : Ok document eoi s' d [] ↔ Ok document eoi s d [] := by
  have hle := hT.length
  unfold document
  simp only [ok_pmap, ok_thenIgnore, ok_nodes]
  constructor
  · rintro ⟨v, ⟨t1, u, h1, h2⟩, hv⟩
    refine ⟨v, ⟨t1, u, ?_, h2⟩, hv⟩
    have := (nodesRec_lines hl hT).1 h1
    exact nodesRec_fuel (by omega) (by omega) this
  · rintro ⟨v, ⟨t1, u, h1, h2⟩, hv⟩
    refine ⟨v, ⟨t1, u, ?_, h2⟩, hv⟩
    exact (nodesRec_lines hl hT).2 (nodesRec_fuel (by omega) (by omega) h1)

/-! ### Comments that are never closed -/

/-- No line begins with a comment that is never closed. -/
theorem fails_lineSpace_open {eoi : Sp O} {s : List (Tok O)} {x : Str} (hs : chars s = '/' :: '*' :: x)
    (hx : ∀ b : Block, b.Ok false → ¬ b.text ++ ['*', '/'] <+: x) : Fails lineSpace eoi s := by
  rcases quiet_lineSpace.cases eoi s with ⟨a, t, h⟩ | h
  · exfalso
    obtain ⟨l, hl, hT⟩ := lineSpace_sound h
    have hlt := Consumes.ok eats_lineSpace.consumes h
    have hc := hT.chars
    rw [hs] at hc
    cases l with
    | nil =>
      have := takes_nil.1 hT; subst this
      omega
    | cons w l =>
      rw [show linesText (w :: l) = w.text ++ linesText l by simp [linesText]] at hc
      cases w with
      | newline n =>
        obtain ⟨c, h1, h2⟩ := newline_head (n := n) (f := linesText l ++ chars t)
        simp only [Line.text, List.append_assoc] at hc
        rw [← hc] at h2
        injection h2 with h2; subst h2
        revert h1; decide
      | ws w =>
        cases w with
        | char c =>
          simp [Line.text, Ws.text] at hc
          have := hl.1
          rw [← hc.1] at this
          revert this
          simp [Line.Ok, Ws.Ok, wsChars, uniSpaces]
        | block b =>
          simp [Line.text, Ws.text] at hc
          exact hx b hl.1 ⟨linesText l ++ chars t, by rw [hc]; simp⟩
      | comment c => simp [Line.text, LineComment.text] at hc
  · exact h.fails

omit [Offset O] in
theorem openLeaf_between {o : Open} (h : o.betweenNodes) : ∃ lines, openLeaf o = .node lines none := by
  induction o with
  | node l d => cases h; exact ⟨_, rfl⟩
  | entry => exact h.elim
  | inside _ _ _ _ _ _ _ _ ih => exact ih h
  | after _ _ _ _ ih => exact ih h

/-- After a beginning that expects a node, a comment that is never closed. -/
theorem walk_open {o : Open} {n : Nat} {eoi : Sp O} {s t v u} {x : Str} (hn : s.length ≤ n) (hT : Takes s o.text t)
    (ho : o.Ok (chars t)) (h : Ok (nodesRec (n + 1)) eoi s v u) (hend : BodyEnd (chars u))
    (hbet : o.betweenNodes) (ht : chars t = '/' :: '*' :: x)
    (hx : ∀ b : Block, b.Ok false → ¬ b.text ++ ['*', '/'] <+: x) : False := by
  obtain ⟨m, s', v', u', h1, h2, h3, h4⟩ := walk_leaf o hn hT ho h hend
  obtain ⟨lines, hl⟩ := openLeaf_between hbet
  rw [hl] at h1 h2
  have h5 := (nodesRec_lines (by simpa [dashText] using h2.1) (by simpa [Open.text, dashText] using h1)).1 h3
  rw [nodesRec] at h5
  obtain ⟨vs, h5, -⟩ := ok_pmap.1 h5
  rw [ok_separatedBy (fun s => lines_total s) (eats_nodeItem (suf_nodesRec m)).consumes] at h5
  have p : Ok (repeated lineSpace) eoi t [] t :=
    (ok_repeated eats_lineSpace.consumes).2 ⟨.nil _, fails_lineSpace_open ht hx⟩
  cases h5 with
  | nil g1 g2 =>
    obtain ⟨-, rfl⟩ := g1.unique p
    rw [ht] at h4
    rcases h4 with h4 | h4 <;> simp at h4
  | cons g1 g2 g3 g4 =>
    obtain ⟨-, rfl⟩ := g1.unique p
    unfold nodeItem at g2
    obtain ⟨t1, h5, h6⟩ := ok_seq.1 g2
    rcases ok_orNot.1 h5 with ⟨a, -, h5⟩ | ⟨-, rfl, -⟩
    · obtain ⟨t2, b, h7, -⟩ := ok_thenIgnore.1 h5
      rw [ok_beginComment] at h7
      have := h7.chars
      rw [ht] at this
      simp at this
    · obtain ⟨ty, nm, t2, e1, e2, e3, -⟩ := node_header h6
      have := e3.chars
      rw [ht] at this
      cases ty with
      | some m => simp [tyText] at this
      | none =>
        cases nm with
        | quoted l => simp [tyText, Name.text, quotedText] at this
        | bare v =>
          cases v with
          | nil => exact e2.1
          | cons c v =>
            simp [tyText, Name.text] at this
            exact identShape_not_mem e2.1 (c := '/') (by decide) (by rw [this.1]; simp)

end

end Knuffel
