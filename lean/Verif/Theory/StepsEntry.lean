import Verif.Theory.StepsLex
/-!
# Bounds on the number of looks at the stream: strings, numbers, names, entries
-/

set_option linter.unusedSectionVars false
set_option linter.unusedVariables false

namespace Knuffel.Steps
open Cst

variable {O α β γ : Type}

theorem lin_repeatedConst {b mn mx} {p : PS O α} (h : Const b p) (he : Eats 1 p.run) :
    Lin (b + b) (repeatedB mn mx p) := h.fast.slow.repeatedLin he

/-! ### Raw strings -/

/-- The hashes at the beginning. -/
def hashRun : List (Tok O) → Nat
  | (c, _) :: t => if c = '#' then hashRun t + 1 else 0
  | [] => 0

theorem hash_cost (mx : Option Nat) (eoi : Sp O) : ∀ fuel count s,
    repCost (just '#') mx eoi fuel count s ≤ hashRun s + 1 := by
  intro fuel
  induction fuel with
  | zero => intro count s; simp [repCost]
  | succ fuel ih =>
    intro count s
    rw [repCost]
    split
    · omega
    · cases s with
      | nil => simp [just, Knuffel.just, pfail]
      | cons x t =>
        obtain ⟨c, sp⟩ := x
        by_cases hc : c = '#'
        · have := ih (count + 1) t
          simp [just, Knuffel.just, pok, hc, hashRun] at this ⊢
          omega
        · simp [just, Knuffel.just, pfail, hc]

/-- The end of a raw string. -/
def rawEnd (n : Nat) : PS O Unit := ignoreThen (just '"') (ignored (repeatedB n (some n) (just '#')))

theorem rawEnd_cost (n : Nat) (eoi : Sp O) (s : List (Tok O)) :
    (rawEnd n).cost eoi s ≤ match s with
      | [] => 1
      | (c, _) :: t => if c = '"' then hashRun t + 2 else 1 := by
  cases s with
  | nil => simp [rawEnd, ignoreThen, bind, just, Knuffel.just, pfail]
  | cons x t =>
    obtain ⟨c, sp⟩ := x
    by_cases hc : c = '"'
    · have := hash_cost (some n) eoi (t.length + 1) 0 t
      simp [rawEnd, ignoreThen, bind, just, Knuffel.just, pok, hc, ignored, pmap, repeatedB] at this ⊢
      omega
    · simp [rawEnd, ignoreThen, bind, just, Knuffel.just, pfail, hc]

theorem rawUntil_cost (n : Nat) (eoi : Sp O) : ∀ fuel s,
    untilCost (rawEnd n) eoi fuel s + hashRun s ≤ 3 * s.length + 3 := by
  have hr : ∀ s : List (Tok O), hashRun s ≤ s.length := by
    intro s
    induction s with
    | nil => simp [hashRun]
    | cons x t ih => obtain ⟨c, sp⟩ := x; simp only [hashRun, List.length_cons]; split <;> omega
  intro fuel
  induction fuel with
  | zero => intro s; have := hr s; simp [untilCost]; omega
  | succ fuel ih =>
    intro s
    rw [untilCost.eq_def]
    have h1 := rawEnd_cost n eoi s
    cases s with
    | nil =>
      simp only [hashRun, List.length_nil] at h1 ⊢
      cases ((rawEnd n).run eoi []).out <;> simp only <;> omega
    | cons x t =>
      obtain ⟨c, sp⟩ := x
      have h2 := ih t
      have h3 := hr t
      simp only [hashRun, List.length_cons] at h1 ⊢
      by_cases hc : c = '"'
      · have : ¬ c = '#' := by rw [hc]; decide
        simp only [hc, ↓reduceIte] at h1 ⊢
        have h0 : ¬ ('"' = '#') := by decide
        simp only [h0, ↓reduceIte]
        rw [← hc] at h1 ⊢
        cases ((rawEnd n).run eoi ((c, sp) :: t)).out <;> simp only <;> omega
      · simp only [hc, ↓reduceIte] at h1
        cases ((rawEnd n).run eoi ((c, sp) :: t)).out <;> simp only <;> split <;> omega

theorem lin_rawUntil (n : Nat) : Lin 3 (takeUntil (rawEnd n : PS O Unit)) :=
  ⟨fun eoi s _ => by
    have := rawUntil_cost n eoi (s.length + 1) s
    simp only [takeUntil]; omega,
   suf_takeUntil (suf_ignoreThen suf_just (suf_ignored (suf_repeatedB suf_just)))⟩

section
variable [Offset O]

theorem lin_rawString : Lin 7 (rawString : PS O Str) := by
  have h1 := ((const_just (O := O) (c := 'r')).lin.ignoreThen
    ((lin_repeatedConst (mn := 0) (mx := none) (const_just (c := '#')) eats_just).pmap (f := List.length))).thenIgnore
    (const_just (c := '"')).lin
  exact (h1.bind fun n => (lin_rawUntil n).mapErrWithSpan (f := rawStringErr n)).pmap

theorem slow_escChar : Slow 11 (escChar : PS O Char) := by
  have h1 := ((const_filterMap (O := O) (f := hexDigit)).repeatedMax (mn := 1) (m := 6)).delimitedBy
    (const_just (c := '{')) (const_just (c := '}'))
  have h2 := Slow.recover (u := ['}', '"', '\\']) (fb := '\x00') (h1.tryMap (f := hexToChar))
  have h3 := (const_just (O := O) (c := 'u')).fast.slow.bind fun _ => h2
  exact Slow.orP (quiet_filterMap _) (const_filterMap (f := escSimple)).fast h3

theorem slow_strChar : Slow 13 (strChar : PS O Char) :=
  Slow.orP (quiet_filter _) const_filter.fast (const_just.fast.slow.bind fun _ => slow_escChar)

theorem run_strChar : (strChar : PS O Char).run = Knuffel.strChar := rfl

theorem lin_escapedString : Lin 28 (escapedString : PS O Str) := by
  have h1 := (slow_strChar (O := O)).repeatedLin (mn := 0) (mx := none) (by rw [run_strChar]; exact eats_strChar)
  exact const_just.lin.ignoreThen ((h1.thenIgnore (const_just (c := '"')).lin).mapErrWithSpan (f := stringErr))

theorem lin_string : Lin 35 (string : PS O Str) := lin_rawString.orP lin_escapedString

end

/-! ### Names, numbers, keywords -/

theorem const_sign : Const 2 (sign : PS O Char) := const_just.orP const_just

theorem lin_idChars : Lin 2 (repeated idChar : PS O (List Char)) :=
  lin_repeatedConst (const_filter.mapErr) eats_idChar

theorem lin_bareIdent : Lin 10 (bareIdent : PS O Str) := by
  have h1 := (const_sign (O := O)).lin.seq ((const_filter (f := isIdSansDig)).mapErr
    (f := PErr.withExpectedKind "letter".toList) |>.lin.seq lin_idChars)
  have h2 : Const 2 (repeatedB 1 (some 1) sign : PS O (List Char)) := const_sign.repeatedMax (m := 1)
  have h3 := ((const_filter (O := O) (f := isIdSansSignDig)).mapErr
    (f := PErr.withExpectedKind "letter".toList)).lin.seq lin_idChars
  exact (Lin.choice3 h1.pmap h2.lin h3.pmap).tryMap

theorem lin_digits {r} : Lin 2 (digits r : PS O (List Char)) := lin_repeatedConst const_filter eats_filter

theorem const_optSign : Const 2 (optSign : PS O (Option Char)) := (const_just.orP const_just).orNot

theorem lin_decimalNumber : Lin 15 (decimalNumber : PS O Literal) := by
  have d : Const 1 (digit 10 : PS O Char) := const_filter
  have h1 := ((const_optSign (O := O)).lin.seq d.lin).seq (lin_digits (r := 10))
  have h2 := (((const_just (O := O) (c := '.')).lin.seq d.lin).seq (lin_digits (r := 10))).pmap
    (f := fun x => x.1.1 :: x.1.2 :: x.2)
  have h3 := ((((const_just (O := O) (c := 'e')).orP (const_just (c := 'E'))).lin.seq const_optSign.lin).seq
    (lin_digits (r := 10))).pmap (f := fun x => x.1.1 :: (x.1.2.toList ++ x.2))
  exact ((h1.seq h2.orNot).seq h3.orNot).pmap

theorem lin_radixDigits {m r x} : Lin 4 (radixDigits m r x : PS O (Radix × List Char)) := by
  have d : Const 1 (digit r : PS O Char) := const_filter
  exact const_just.lin.ignoreThen (d.lin.seq lin_digits).pmap

theorem lin_radixNumber : Lin 15 (radixNumber : PS O Literal) := by
  have h1 := (const_optSign (O := O)).lin.thenIgnore (const_just (c := '0')).lin
  exact (h1.seq (Lin.choice3 lin_radixDigits lin_radixDigits lin_radixDigits)).pmap

theorem lin_number : Lin 30 (number : PS O Literal) := lin_radixNumber.orP lin_decimalNumber

theorem lin_keyword : Lin 13 (keyword : PS O Literal) := by
  have h1 := (const_justStr (O := O) (cs := "null".toList)).lin.mapErr (f := PErr.withExpectedToken "null".toList)
  have h2 := (const_justStr (O := O) (cs := "true".toList)).lin.mapErr (f := PErr.withExpectedToken "true".toList)
  have h3 := (const_justStr (O := O) (cs := "false".toList)).lin.mapErr (f := PErr.withExpectedToken "false".toList)
  have e1 : "null".toList.length = 4 := rfl
  have e2 : "true".toList.length = 4 := rfl
  have e3 : "false".toList.length = 5 := rfl
  rw [e1] at h1; rw [e2] at h2; rw [e3] at h3
  exact Lin.choice3 h1.pmap h2.pmap h3.pmap

section
variable [Offset O]

theorem lin_ident : Lin 75 (ident : PS O Str) :=
  (Lin.choice3 lin_number.pmap lin_bareIdent.pmap lin_string.pmap).tryMap

theorem lin_literal : Lin 78 (literal : PS O Literal) :=
  Lin.choice3 lin_string.pmap lin_keyword lin_number

theorem Lin.spanned {a} {p : PS O α} (h : Lin a p) : Lin a (spanned p) := h.mapWithSpan

theorem lin_typeName : Lin 77 (typeName : PS O TypeName) :=
  (lin_ident.delimitedBy const_just.lin const_just.lin).pmap

theorem lin_typeNameValue : Lin 155 (typeNameValue : PS O (Value (Sp O))) :=
  (lin_typeName.spanned.seq lin_literal.spanned).pmap

theorem lin_value : Lin 233 (value : PS O (Value (Sp O))) :=
  lin_typeNameValue.orP lin_literal.spanned.pmap

theorem lin_optValue : Lin 234 (optValue : PS O (Option (Value (Sp O)))) :=
  (const_just.lin.ignoreThen lin_value).orNot

theorem lin_propOrArgInner : Lin 711 (propOrArgInner : PS O (PropOrArg (Sp O))) :=
  Lin.choice3 (lin_literal.spanned.seq lin_optValue).tryMap
    ((lin_bareIdent.spanned.seq lin_optValue).validate.pmap) lin_typeNameValue.pmap

theorem lin_propOrArg : Lin 1522 (propOrArg : PS O (PropOrArg (Sp O))) :=
  (((const_beginComment.lin.ignoreThen lin_nodeSpaces).ignoreThen lin_propOrArgInner).pmap).orP lin_propOrArgInner

theorem lin_spaceEntry : Lin 1620 (spaceEntry : PS O (PropOrArg (Sp O))) :=
  lin_nodeSpaces1.ignoreThen lin_propOrArg

/-! ### Forgetting the numbers -/

theorem run_rawString : (rawString : PS O Str).run = Knuffel.rawString := rfl
theorem run_string : (string : PS O Str).run = Knuffel.string := rfl
theorem run_bareIdent : (bareIdent : PS O Str).run = Knuffel.bareIdent := rfl
theorem run_number : (number : PS O Literal).run = Knuffel.number := rfl
theorem run_keyword : (keyword : PS O Literal).run = Knuffel.keyword := by
  unfold keyword Knuffel.keyword; rfl
theorem run_ident : (ident : PS O Str).run = Knuffel.ident := by
  show Knuffel.tryMap _ (Knuffel.choice [Knuffel.pmap _ number.run, Knuffel.pmap _ bareIdent.run,
    Knuffel.pmap _ string.run]) = _
  rw [run_number, run_bareIdent, run_string]; rfl
theorem run_literal : (literal : PS O Literal).run = Knuffel.literal := by
  show Knuffel.choice [Knuffel.pmap _ string.run, keyword.run, number.run] = _
  rw [run_number, run_keyword, run_string]; rfl
theorem run_typeName : (typeName : PS O TypeName).run = Knuffel.typeName := by
  show Knuffel.pmap _ (Knuffel.delimitedBy ident.run _ _) = _
  rw [run_ident]; rfl
theorem run_typeNameValue : (typeNameValue : PS O (Value (Sp O))).run = Knuffel.typeNameValue := by
  show Knuffel.pmap _ (Knuffel.seq (Knuffel.spanned typeName.run) (Knuffel.spanned literal.run)) = _
  rw [run_typeName, run_literal]; rfl
theorem run_value : (value : PS O (Value (Sp O))).run = Knuffel.value := by
  show Knuffel.orP typeNameValue.run (Knuffel.pmap _ (Knuffel.spanned literal.run)) = _
  rw [run_typeNameValue, run_literal]; rfl
theorem run_optValue : (optValue : PS O (Option (Value (Sp O)))).run = Knuffel.optValue := by
  show Knuffel.orNot (Knuffel.ignoreThen _ value.run) = _
  rw [run_value]; rfl
theorem run_propOrArgInner : (propOrArgInner : PS O (PropOrArg (Sp O))).run = Knuffel.propOrArgInner := by
  show Knuffel.choice [Knuffel.tryMap _ (Knuffel.seq (Knuffel.spanned literal.run) optValue.run),
    Knuffel.pmap _ (Knuffel.validate _ (Knuffel.seq (Knuffel.spanned bareIdent.run) optValue.run)),
    Knuffel.pmap _ typeNameValue.run] = _
  rw [run_literal, run_optValue, run_bareIdent, run_typeNameValue]; rfl
theorem run_nodeSpaces : (repeated nodeSpace : PS O (List Unit)).run = Knuffel.repeated Knuffel.nodeSpace := by
  show Knuffel.repeated nodeSpace.run = _
  rw [run_nodeSpace]
theorem run_propOrArg : (propOrArg : PS O (PropOrArg (Sp O))).run = Knuffel.propOrArg := by
  show Knuffel.orP (Knuffel.pmap _ (Knuffel.ignoreThen (Knuffel.ignoreThen _ (repeated nodeSpace).run)
    propOrArgInner.run)) propOrArgInner.run = _
  rw [run_nodeSpaces, run_propOrArgInner]; rfl
theorem run_spaceEntry : (spaceEntry : PS O (PropOrArg (Sp O))).run = Knuffel.spaceEntry := by
  show Knuffel.ignoreThen (Knuffel.repeatedB 1 none nodeSpace.run) propOrArg.run = _
  rw [run_nodeSpace, run_propOrArg]; rfl
theorem run_nodeTerminator : (nodeTerminator : PS O Unit).run = Knuffel.nodeTerminator := by
  show Knuffel.choice [newline.run, comment.run, _, _] = _
  rw [run_newline, run_comment]; rfl

end

end Knuffel.Steps
