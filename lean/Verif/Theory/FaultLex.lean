import Verif.Theory.FaultComb
import Verif.Theory.Calm
/-!
# Wrong escapes: what the parser of strings emits
-/

set_option linter.unusedSimpArgs false
set_option linter.unusedSectionVars false

namespace Knuffel

open Cst (Matching Fault Piece StrChar hexRun escFault piecesText piecesFaults PiecesOk resume)

variable {O α β γ : Type}

/-! ### Runs of hexadecimal digits -/

theorem takeWhile_split {p : Char → Bool} : ∀ (n : Nat) (r : Str), (∃ c ∈ r, p c = false) →
    ∃ c r', r = (r.take n).takeWhile p ++ c :: r' ∧
      (((r.take n).takeWhile p).length < n → p c = false) := by
  intro n
  induction n with
  | zero =>
    rintro r ⟨c, hc, _⟩
    cases r with
    | nil => simp at hc
    | cons x r => exact ⟨x, r, by simp, by simp⟩
  | succ n ih =>
    rintro r ⟨c, hc, hp⟩
    cases r with
    | nil => simp at hc
    | cons x r =>
      by_cases hx : p x = true
      · have : ∃ c ∈ r, p c = false := by
          rcases List.mem_cons.1 hc with rfl | hc
          · rw [hx] at hp; simp at hp
          · exact ⟨c, hc, hp⟩
        obtain ⟨d, r', h1, h2⟩ := ih r this
        refine ⟨d, r', ?_, ?_⟩
        · simp only [List.take_succ_cons, List.takeWhile_cons, hx, ↓reduceIte, List.cons_append]
          rw [← h1]
        · simp only [List.take_succ_cons, List.takeWhile_cons, hx, ↓reduceIte, List.length_cons]
          intro h; exact h2 (by omega)
      · exact ⟨x, r, by simp [List.takeWhile_cons, hx], fun _ => by simpa using hx⟩

/-- A hexadecimal digit. -/
def Hex (c : Char) : Prop := c ∈ Cst.hexDigits.map Prod.fst

theorem hexRun_split {r : Str} (h : ∃ c ∈ r, ¬ Hex c) : ∃ hs c r', r = hs ++ c :: r' ∧
    hs.length = hexRun r ∧ (∀ x ∈ hs, Hex x) ∧ hs.length ≤ 6 ∧ (hs.length < 6 → ¬ Hex c) := by
  obtain ⟨c, r', h1, h2⟩ := takeWhile_split (p := fun c => decide (c ∈ Cst.hexDigits.map Prod.fst)) 6 r
    (by obtain ⟨c, hc, hh⟩ := h; exact ⟨c, hc, by simpa [Hex] using hh⟩)
  refine ⟨_, c, r', h1, rfl, ?_, ?_, ?_⟩
  · intro x hx
    have := List.all_eq_true.1 (List.all_takeWhile (p := fun c => decide (c ∈ Cst.hexDigits.map Prod.fst))
      (l := r.take 6)) x hx
    simpa [Hex] using this
  · refine Nat.le_trans (List.takeWhile_prefix _).length_le ?_
    simp; omega
  · intro hl
    have := h2 hl
    simpa [Hex] using this

theorem take_takeWhile_append {p : Char → Bool} : ∀ (n : Nat) (x y : Str), (∃ c ∈ x, p c = false) →
    ((x ++ y).take n).takeWhile p = (x.take n).takeWhile p := by
  intro n
  induction n with
  | zero => intros; simp
  | succ n ih =>
    rintro x y ⟨c, hc, hp⟩
    cases x with
    | nil => simp at hc
    | cons a x =>
      simp only [List.cons_append, List.take_succ_cons, List.takeWhile_cons]
      by_cases ha : p a = true
      · have : ∃ c ∈ x, p c = false := by
          rcases List.mem_cons.1 hc with rfl | hc
          · rw [ha] at hp; simp at hp
          · exact ⟨c, hc, hp⟩
        simp only [ha, ↓reduceIte, ih x y this]
      · simp [ha]

theorem hexRun_append {x y : Str} (h : ∃ c ∈ x, ¬ Hex c) : hexRun (x ++ y) = hexRun x := by
  unfold hexRun
  rw [take_takeWhile_append 6 x y (by obtain ⟨c, hc, hh⟩ := h; exact ⟨c, hc, by simpa [Hex] using hh⟩)]

theorem resume_not_hex {c : Char} (h : c ∈ resume) : ¬ Hex c := by
  unfold Hex
  have : ∀ c ∈ resume, c ∉ Cst.hexDigits.map Prod.fst := by decide
  exact this c h

/-- What is wrong with an escape does not depend on what comes after its end. -/
theorem escFault_append {pos : Nat} {x y : Str} (h : ∃ c ∈ x, c ∈ resume) :
    escFault pos (x ++ y) = escFault pos x := by
  obtain ⟨c, hc, hr⟩ := h
  cases x with
  | nil => simp at hc
  | cons a x =>
    by_cases ha : a = '{'
    · subst ha
      have hx : ∃ c ∈ x, ¬ Hex c := by
        rcases List.mem_cons.1 hc with rfl | hc
        · exact absurd hr (by decide)
        · exact ⟨c, hc, resume_not_hex hr⟩
      have h1 := hexRun_append (y := y) hx
      obtain ⟨hs, d, r', h2, h3, _⟩ := hexRun_split hx
      have h4 : hexRun x < x.length := by rw [← h3]; rw [h2]; simp
      simp only [List.cons_append, escFault, h1, List.getElem?_append_left h4]
    · have e1 : ∀ z, escFault pos (a :: z) = .char pos := by
        intro z
        unfold escFault
        split
        · rename_i heq; injection heq with heq; exact absurd heq ha
        · rfl
      rw [List.cons_append, e1, e1]

/-- The first place of a character of a class is unique. -/
theorem first_unique {Q : Char → Prop} : ∀ {a b : Str} {c d : Char} {x y : Str}, a ++ c :: x = b ++ d :: y →
    (∀ z ∈ a, ¬ Q z) → Q c → (∀ z ∈ b, ¬ Q z) → Q d → a = b ∧ c = d ∧ x = y := by
  intro a
  induction a with
  | nil =>
    intro b c d x y h _ hc hb hd
    cases b with
    | nil => simp only [List.nil_append, List.cons.injEq] at h; exact ⟨rfl, h⟩
    | cons z b =>
      simp only [List.nil_append, List.cons_append, List.cons.injEq] at h
      exact absurd hc (by rw [h.1]; exact hb z (by simp))
  | cons w a ih =>
    intro b c d x y h ha hc hb hd
    cases b with
    | nil =>
      simp only [List.nil_append, List.cons_append, List.cons.injEq] at h
      exact absurd hd (by rw [← h.1]; exact ha w (by simp))
    | cons z b =>
      simp only [List.cons_append, List.cons.injEq] at h
      obtain ⟨h1, h2, h3⟩ := ih h.2 (fun z hz => ha z (by simp [hz])) hc (fun z hz => hb z (by simp [hz])) hd
      exact ⟨by rw [h.1, h1], h2, h3⟩

/-! ### Places -/

theorem spf_single {eoi : Sp O} {all t : List (Tok O)} {n : Nat} {c : Char} {sp : Sp O}
    (h : (c, sp) :: t = all.drop n) : sp = spf eoi all n (n + 1) := by
  have h' : all.drop (n + 1) = t := by
    rw [← List.drop_drop, ← h]; rfl
  unfold spf
  rw [← h, h']
  simp [spanSince]

theorem get_of_drop {all t : List (Tok O)} {n : Nat} {c : Char} {sp : Sp O}
    (h : (c, sp) :: t = all.drop n) : (chars all)[n]? = some c := by
  have : (all.drop n)[0]? = some (c, sp) := by rw [← h]; rfl
  rw [List.getElem?_drop] at this
  simp only [Nat.add_zero] at this
  simp [chars, this]

/-- A fault is not empty and lies in a text of `n` characters. -/
def FaultIn (n : Nat) : Fault → Prop
  | .word i j => i < j ∧ j ≤ n
  | .code i j => i < j ∧ j ≤ n
  | .char i => i < n

/-- What is due for the faults of a text. -/
def Due (eoi : Sp O) (all : List (Tok O)) (f : Fault) (e : PErr O) : Prop :=
  FaultIn all.length f ∧ f.Says (chars all) (spf eoi all) e

theorem lt_of_drop {all t : List (Tok O)} {n : Nat} {x : Tok O} (h : x :: t = all.drop n) :
    n < all.length := by
  have := congrArg List.length h
  simp at this
  omega

theorem due_char {eoi : Sp O} {all t : List (Tok O)} {n : Nat} {c : Char} {sp : Sp O}
    (h : (c, sp) :: t = all.drop n) (l : Option Str) (x : List TokenFormat) :
    Due eoi all (.char n) (.unexpected l sp (.char c) x) :=
  ⟨lt_of_drop h, c, l, x, get_of_drop h, by rw [← spf_single h]⟩

/-! ### The error -/

theorem filterMap_hex_ok {eoi : Sp O} {c : Char} {sp : Sp O} {t} (h : Hex c) :
    filterMap hexDigit eoi ((c, sp) :: t) = pok c t := by
  have : hexDigit sp c = .ok c := hexDigit_ok.2 ⟨h, rfl⟩
  simp [filterMap, this]

theorem filterMap_hex_err {eoi : Sp O} {c : Char} {sp : Sp O} {t} (h : ¬ Hex c) :
    filterMap hexDigit eoi ((c, sp) :: t) = pfail ((c, sp) :: t) (.unexpected (some "unexpected character".toList)
      sp (.char c) [.kind "hexadecimal digit".toList]) t := by
  have : isDigit 16 c = false := by
    cases hc : isDigit 16 c with
    | false => rfl
    | true => exact absurd (isDigit16_iff.1 hc) h
  simp [filterMap, hexDigit, this]

theorem repGo_hex {eoi : Sp O} : ∀ (fuel : Nat) {outs : List Char} {pan : Bool} {s t : List (Tok O)} {h : Str}
    {c : Char} {sp : Sp O}, s.length < fuel → Takes s h ((c, sp) :: t) → (∀ x ∈ h, Hex x) →
    outs.length + h.length ≤ 6 → 1 ≤ outs.length + h.length → (outs.length + h.length < 6 → ¬ Hex c) →
    ∃ alt, (repGo (filterMap hexDigit) 1 (some 6) eoi fuel outs [] none pan s).out = .ok (outs ++ h, alt) ∧
      (repGo (filterMap hexDigit) 1 (some 6) eoi fuel outs [] none pan s).rest = (c, sp) :: t ∧
      (repGo (filterMap hexDigit) 1 (some 6) eoi fuel outs [] none pan s).errs = [] ∧
      (alt = none ∨ ∃ l x, alt = some ⟨t.length + 1, .unexpected l sp (.char c) x⟩) := by
  intro fuel
  induction fuel with
  | zero => intro _ _ s _ _ _ _ h; omega
  | succ fuel ih =>
    intro outs pan s t h c sp hl hT hh h6 h1 hc
    rw [repGo]
    cases h with
    | nil =>
      have := takes_nil.1 hT; subst this
      by_cases hm : outs.length = 6
      · simp [hm]
      · have hm' : ¬ (some 6 = some outs.length) := by simp; omega
        have hc' : ¬ Hex c := hc (by simp at h6 ⊢; omega)
        have hlt : ¬ outs.length < 1 := by simp at h1; omega
        simp only [hm', ↓reduceIte, filterMap_hex_err hc', pfail, hlt]
        refine ⟨some ⟨t.length + 1, .unexpected (some "unexpected character".toList) sp (.char c)
          [.kind "hexadecimal digit".toList]⟩, ?_, trivial, trivial, Or.inr ⟨_, _, rfl⟩⟩
        rw [List.append_nil]
        rfl
    | cons x h =>
      obtain ⟨sp', s1, rfl, hT'⟩ := takes_cons.1 hT
      have hm' : ¬ (some 6 = some outs.length) := by simp at h6 ⊢; omega
      simp only [hm', ↓reduceIte, filterMap_hex_ok (hh x (by simp)), pok, List.length_cons,
        Nat.lt_succ_self, List.append_nil, mergeAlts, clashAlts, Bool.or_false]
      have := ih (outs := outs ++ [x]) (pan := pan) (s := s1) (t := t) (h := h) (c := c) (sp := sp)
        (by simp at hl; omega) hT' (fun y hy => hh y (by simp [hy])) (by simp at h6 ⊢; omega)
        (by simp at h1 ⊢; omega) (by simp at hc ⊢; intro hlt; exact hc (by omega))
      simpa using this

/-- The error of the braces with the number. -/
theorem hexBraces_err {eoi : Sp O} {all s : List (Tok O)} {pos : Nat} (hs : s = all.drop pos)
    (hr : ∃ c ∈ chars s, c ∈ resume)
    (hn : ∀ h f, chars s = '{' :: h ++ '}' :: f → (∀ x ∈ h, Hex x) → ¬ (StrChar.unicode h).Ok) :
    ∃ e, (tryMap hexToChar (hexBraces : P O (List Char)) eoi s).out = .error e ∧
      Due eoi all (escFault pos (chars s)) e.err := by
  obtain ⟨c0, hc0, hr0⟩ := hr
  cases s with
  | nil => simp at hc0
  | cons x s =>
    obtain ⟨a, sp0⟩ := x
    by_cases ha : a = '{'
    · subst ha
      have hx : ∃ c ∈ chars s, ¬ Hex c := by
        rcases List.mem_cons.1 hc0 with hc | hc
        · subst hc; exact absurd hr0 (by simp only; decide)
        · exact ⟨c0, hc, resume_not_hex hr0⟩
      obtain ⟨h, c, r', h1, h2, h3, h4, h5⟩ := hexRun_split hx
      obtain ⟨s2, hT, hc2⟩ := takes_of_chars h1
      obtain ⟨sp, t, rfl, hct⟩ := chars_eq_cons.1 hc2
      have e1 : s = all.drop (pos + 1) := (Takes.single (sp := sp0)).drop hs
      have e2 := hT.drop e1
      have hget : (chars s)[hexRun (chars s)]? = some c := by rw [← h2, h1]; simp
      by_cases h0 : h = []
      · -- no digit
        subst h0
        have := takes_nil.1 hT; subst this
        have hrun : hexRun (chars ((c, sp) :: t)) = 0 := by simpa using h2.symm
        have hnh : ¬ Hex c := h5 (by simp)
        have hesc : escFault pos (chars (('{', sp0) :: (c, sp) :: t)) = .char (pos + 1) := by
          rw [chars_cons]
          unfold escFault
          simp only [hrun]
          simp
        rw [hesc]
        refine ⟨⟨t.length + 1, .unexpected (some "unexpected character".toList) sp (.char c)
            [.kind "hexadecimal digit".toList]⟩, ?_, due_char e1 _ _⟩
        · simp [tryMap, hexBraces, delimitedBy, thenIgnore, ignoreThen, bind, just, pok, repeatedB, repGo,
            filterMap_hex_err hnh, pfail, Loc.maxO]
      · have hlen : 1 ≤ h.length := by
          cases h with
          | nil => exact absurd rfl h0
          | cons => simp
        obtain ⟨alt, g1, g2, g3, g4⟩ := repGo_hex (eoi := eoi) (s.length + 1) (outs := []) (pan := false)
          (Nat.lt_succ_self _) hT h3 (by simpa using h4) (by simpa using hlen) (by simpa using h5)
        simp only [List.nil_append] at g1
        by_cases hcl : c = '}'
        · -- the number
          subst hcl
          have hesc : escFault pos (chars (('{', sp0) :: s)) = .code pos (pos + hexRun (chars s) + 2) := by
            rw [chars_cons]
            unfold escFault
            simp only [hget]
            rw [if_pos ⟨by omega, trivial⟩]
          have hbad : charOfNat? (digitsVal 16 h) = none := by
            rw [digitsVal_eq h3]
            cases hc' : charOfNat? (Cst.hexNumber h) with
            | none => rfl
            | some v =>
              exact absurd ⟨hlen, h4, h3, (charOfNat_eq.1 hc').1⟩
                (hn h (chars t) (by rw [chars_cons, h1, ← hct]; rfl) h3)
          have hout : (hexBraces eoi (('{', sp0) :: s)).out = .ok (h, alt) ∧
              (hexBraces eoi (('{', sp0) :: s)).rest = t := by
            simp only [hexBraces, delimitedBy, thenIgnore, ignoreThen, bind, just, pok, repeatedB, g1, g2,
              pmap, ↓reduceIte]
            rcases g4 with rfl | ⟨l, y, rfl⟩ <;> simp [mergeAlts]
          rw [hesc]
          refine ⟨⟨t.length, .message (some "invalid character code".toList)
            (spanSince eoi (('{', sp0) :: s) t) "converted integer out of range for `char`".toList⟩, ?_, ?_⟩
          · simp only [tryMap, hout.1, hout.2, hexToChar, hbad]
          · have e3 : t = all.drop (pos + hexRun (chars s) + 2) := by
              have := (Takes.single (sp := sp)).drop e2
              rw [this, ← h2]
              congr 1
              simp only [List.length_singleton]; omega
            refine ⟨⟨by omega, ?_⟩, ?_⟩
            · have := lt_of_drop e2
              omega
            · show _ = _
              rw [spf, ← hs, ← e3]
        · -- no closing brace after the digits
          have hesc : escFault pos (chars (('{', sp0) :: s)) = .char (pos + hexRun (chars s) + 1) := by
            rw [chars_cons]
            unfold escFault
            simp only [hget]
            rw [if_neg (by simp [hcl])]
          have e2' : (c, sp) :: t = all.drop (pos + hexRun (chars s) + 1) := by
            rw [e2, ← h2]; congr 1; omega
          rw [hesc]
          rcases g4 with rfl | ⟨l, y, rfl⟩
          · refine ⟨⟨t.length + 1, .unexpected none sp (.char c) (setOf ([some '}'].map .ofOpt))⟩, ?_,
              due_char e2' _ _⟩
            simp [tryMap, hexBraces, delimitedBy, thenIgnore, ignoreThen, bind, just, pok, repeatedB, g1, g2,
              pmap, hcl, pfail, PErr.expectedFound, TokenFormat.ofOpt, Loc.maxO, mergeAlts]
          · refine ⟨⟨t.length + 1, .unexpected none sp (.char c)
              (setExtend (setOf ([some '}'].map .ofOpt)) y)⟩, ?_, due_char e2' _ _⟩
            simp [tryMap, hexBraces, delimitedBy, thenIgnore, ignoreThen, bind, just, pok, repeatedB, g1, g2,
              pmap, hcl, pfail, PErr.expectedFound, TokenFormat.ofOpt, Loc.maxO, Loc.max, PErr.merge, mergeAlts]
    · -- no opening brace
      have hesc : escFault pos (chars ((a, sp0) :: s)) = .char pos := by
        rw [chars_cons]
        unfold escFault
        split
        · rename_i heq; injection heq with heq; exact absurd heq ha
        · rfl
      rw [hesc]
      refine ⟨⟨s.length + 1, .unexpected none sp0 (.char a) (setOf ([some '{'].map .ofOpt))⟩, ?_,
        due_char hs _ _⟩
      simp [tryMap, hexBraces, delimitedBy, thenIgnore, ignoreThen, bind, just, ha, pfail,
        PErr.expectedFound, TokenFormat.ofOpt]

theorem skipTo_eq {s t : List (Tok O)} {w : Str} {c : Char} {sp : Sp O} {until_ : List Char}
    (hT : Takes s w ((c, sp) :: t)) (hw : ∀ x ∈ w, x ∉ until_) (hc : c ∈ until_) :
    skipTo until_ s = some ((c, sp) :: t) := by
  induction w generalizing s with
  | nil =>
    have := takes_nil.1 hT; subst this
    simp [skipTo, hc]
  | cons x w ih =>
    obtain ⟨sp', s1, rfl, hT'⟩ := takes_cons.1 hT
    have : x ∉ until_ := hw x (by simp)
    simp only [skipTo, List.contains_iff_mem, this, ↓reduceIte]
    simpa [this] using ih hT' (fun y hy => hw y (by simp [hy]))

/-! ### Strings -/

section
variable [Offset O]

theorem em_bad {eoi : Sp O} {all s t : List (Tok O)} {pos : Nat} {w : Str} (hs : s = all.drop pos)
    (hok : (Piece.bad w).Ok (chars t)) (hT : Takes s ('\\' :: 'u' :: w) t) :
    Em (Due eoi all) strChar eoi s '\x00' t [escFault (pos + 2) (w ++ chars t)] := by
  obtain ⟨h1, ⟨c, h2, h3⟩, h4⟩ := hok
  obtain ⟨sp1, s1, rfl, hT1⟩ := takes_cons.1 hT
  obtain ⟨sp2, s2, rfl, hT2⟩ := takes_cons.1 hT1
  have e1 := (Takes.single (sp := sp1)).drop hs
  have e2 : s2 = all.drop (pos + 2) := (Takes.single (sp := sp2)).drop e1
  cases t with
  | nil => simp at h3
  | cons x t =>
    obtain ⟨c', sp⟩ := x
    have : c' = c := by simpa using h3
    subst this
    have hskip : skipTo ['}', '"', '\\'] s2 = some ((c', sp) :: t) := skipTo_eq hT2 h1 h2
    have hch := hT2.chars
    obtain ⟨e, g1, g2⟩ := hexBraces_err (eoi := eoi) (all := all) e2
      ⟨c', by rw [hch]; simp, h2⟩ (by
        rintro h f hh hx hok
        rw [hch] at hh
        have hb : ∀ z ∈ ('{' :: h), z ∉ resume := by
          intro z hz
          rcases List.mem_cons.1 hz with rfl | hz
          · decide
          · intro hr; exact resume_not_hex hr (hx z hz)
        obtain ⟨q1, q2, _⟩ := first_unique (Q := (· ∈ resume)) (a := w) (b := '{' :: h)
          (by simpa using hh) h1 h2 hb (by decide)
        exact h4 ⟨h, q1, by simpa using q2, hok⟩)
    rw [hch] at g2
    have herrs : (tryMap hexToChar (hexBraces : P O (List Char)) eoi s2).errs = [] :=
      quiet_hexBraces eoi s2
    have key : Em (Due eoi all) (recoverSkipUntil ['}', '"', '\\'] '\x00'
        (tryMap hexToChar (hexBraces : P O (List Char)))) eoi s2 '\x00' ((c', sp) :: t)
        [escFault (pos + 2) (w ++ chars ((c', sp) :: t))] := by
      refine ⟨?_, ⟨none, by simp [recoverSkipUntil, g1, hskip]⟩, by simp [recoverSkipUntil, g1, hskip]⟩
      simp only [recoverSkipUntil, g1, hskip, herrs, List.nil_append, List.map_cons, List.map_nil]
      exact .cons g2 .nil
    unfold strChar
    refine em_orP_right ?_ ?_
    · rw [fails_filter_head]; simp
    · refine em_ignoreThen (fs := []) (em_of_ok (ok_just.2 ⟨sp1, rfl, rfl⟩)) ?_
      unfold escChar
      refine em_orP_right ?_ ?_
      · rw [fails_filterMap]
        rintro c sp' s' heq
        injection heq with h5 h6
        injection h5 with h5 h7
        subst h5 h7
        exact ⟨_, rfl⟩
      · exact em_ignoreThen (fs := []) (em_of_ok (ok_just.2 ⟨sp2, rfl, rfl⟩)) key

theorem piece_length {p : Piece} : 0 < p.text.length := by
  cases p with
  | good c => cases c <;> simp [Piece.text, StrChar.text]
  | bad w => simp [Piece.text]

theorem ereps_pieces {eoi : Sp O} {all s t : List (Tok O)} {pos : Nat} {l : List Piece} {f : Str}
    (hs : s = all.drop pos) (hok : PiecesOk f l) (hf : ∃ c ∈ f, c ∈ resume)
    (hT : Takes s (piecesText l) t) (hft : ∃ g, chars t = f ++ g) :
    EReps (Due eoi all) strChar eoi s t (piecesFaults f pos l) := by
  induction l generalizing s pos with
  | nil => have := takes_nil.1 hT; subst this; exact .nil _
  | cons p l ih =>
    obtain ⟨s1, h1, h2⟩ := (takes_append (a := p.text) (b := piecesText l)).1 hT
    obtain ⟨hp, hl⟩ := hok
    obtain ⟨g, hg⟩ := hft
    have hlen : s1.length < s.length := by
      have := h1.length
      have := piece_length (p := p)
      omega
    have hc1 : chars s1 = (piecesText l ++ f) ++ g := by rw [h2.chars, hg]; simp
    cases p with
    | good c =>
      have := EReps.cons (R := Due eoi all) (fs := []) (em_of_ok (ok_strChar.2 ⟨c, hp, rfl, h1⟩)) hlen
        (ih (h1.drop hs) hl h2)
      simpa [piecesFaults, Piece.text] using this
    | bad w =>
      have hb : (Piece.bad w).Ok (chars s1) := by
        refine ⟨hp.1, ?_, ?_⟩
        · obtain ⟨c, h3, h4⟩ := hp.2.1
          refine ⟨c, h3, ?_⟩
          rw [hc1, List.head?_append, h4]; rfl
        · rintro ⟨h, h3, h4, h5⟩
          refine hp.2.2 ⟨h, h3, ?_, h5⟩
          obtain ⟨c, h6, h7⟩ := hp.2.1
          rw [hc1, List.head?_append, h7] at h4
          rw [h7]; exact h4
      have h3 := em_bad (eoi := eoi) hs hb h1
      have he : escFault (pos + 2) (w ++ chars s1) = escFault (pos + 2) (w ++ (piecesText l ++ f)) := by
        rw [hc1, ← List.append_assoc]
        refine escFault_append ?_
        obtain ⟨c, h6, h7⟩ := hf
        exact ⟨c, by simp [h6], h7⟩
      rw [he] at h3
      have := EReps.cons h3 hlen (ih (h1.drop hs) hl h2)
      simpa [piecesFaults] using this

theorem em_quoted {eoi : Sp O} {all s t : List (Tok O)} {pos : Nat} {l : List Piece}
    (hs : s = all.drop pos) (hok : Cst.QuotedOk l) (hT : Takes s (Cst.quotedTextF l) t) :
    ∃ v, Em (Due eoi all) string eoi s v t (Cst.quotedFaults pos l) := by
  obtain ⟨sp, s1, rfl, h1⟩ := takes_cons.1 hT
  obtain ⟨s2, h2, h3⟩ := takes_append.1 h1
  have e1 := (Takes.single (sp := sp)).drop hs
  have hr := ereps_pieces (eoi := eoi) (f := ['"']) e1 hok ⟨'"', by simp, by decide⟩ h2
    ⟨chars t, h3.chars⟩
  have hf : Fails strChar eoi s2 := by
    unfold strChar
    rw [fails_orP]
    refine ⟨?_, fails_ignoreThen_left ?_⟩
    · rw [fails_filter_head, h3.chars]; simp
    · rw [fails_just_head, h3.chars]; simp
  obtain ⟨v, hv⟩ := em_repeated hr hf
  refine ⟨v, ?_⟩
  unfold string
  refine em_orP_right (failsC_rawString ?_).fails ?_
  · intro h
    have := rawStart_head h
    simp at this
  · unfold escapedString
    have := em_ignoreThen (R := Due eoi all) (fs := []) (em_of_ok (ok_just.2 ⟨sp, rfl, rfl⟩ : Ok (just '"') eoi _ _ s1))
      (em_mapErrWithSpan (f := stringErr) (em_thenIgnore hv (gs := [])
        (em_of_ok (ok_just_takes.2 ⟨h3, rfl⟩ : Ok (just '"') eoi s2 '"' t))))
    simpa [Cst.quotedFaults] using this

end

end Knuffel
