import Verif.Theory.StepsDoc
/-!
# Every character taken has been looked at
-/

set_option linter.unusedSectionVars false
set_option linter.unusedVariables false

namespace Knuffel.Steps

variable {O α β γ : Type}

/-- A run takes no more characters than it looks at. -/
def Look (p : PS O α) : Prop := ∀ eoi s, s.length ≤ p.cost eoi s + (p.run eoi s).rest.length

theorem look_just {c} : Look (just c : PS O Char) := by
  intro eoi s
  show s.length ≤ 1 + (Knuffel.just c eoi s).rest.length
  cases s with
  | nil => simp
  | cons x t => simp only [Knuffel.just]; split <;> simp [pok, pfail] <;> omega

theorem look_filter {f} : Look (filter f : PS O Char) := by
  intro eoi s
  show s.length ≤ 1 + (Knuffel.filter f eoi s).rest.length
  cases s with
  | nil => simp
  | cons x t => simp only [Knuffel.filter]; split <;> simp [pok, pfail] <;> omega

theorem look_filterMap {f} : Look (filterMap f : PS O α) := by
  intro eoi s
  show s.length ≤ 1 + (Knuffel.filterMap f eoi s).rest.length
  cases s with
  | nil => simp
  | cons x t => simp only [Knuffel.filterMap]; split <;> simp [pok, pfail] <;> omega

theorem look_endP : Look (endP : PS O Unit) := by
  intro eoi s
  show s.length ≤ 1 + (Knuffel.endP eoi s).rest.length
  cases s with
  | nil => simp
  | cons x t => simp [Knuffel.endP, pfail]; omega

theorem look_justStr : ∀ {cs}, Look (justStr cs : PS O Unit)
  | [] => by intro eoi s; simp [justStr, Knuffel.justStr, pok]
  | c :: cs => by
    intro eoi s
    show s.length ≤ strCost (c :: cs) s + (Knuffel.justStr (c :: cs) eoi s).rest.length
    cases s with
    | nil => simp
    | cons x t =>
      have ih := look_justStr (cs := cs) eoi t
      change t.length ≤ strCost cs t + (Knuffel.justStr cs eoi t).rest.length at ih
      simp only [strCost, Knuffel.justStr]
      split
      · simp; omega
      · simp [pfail]; omega

theorem Look.pmap {f : α → β} {p : PS O α} (h : Look p) : Look (pmap f p) := h
theorem Look.ignored {p : PS O α} (h : Look p) : Look (ignored p) := h
theorem Look.mapErr {f} {p : PS O α} (h : Look p) : Look (mapErr f p) := h
theorem Look.mapErrWithSpan {f} {p : PS O α} (h : Look p) : Look (mapErrWithSpan f p) := h
theorem Look.mapWithSpan {f : α → Sp O → β} {p : PS O α} (h : Look p) : Look (mapWithSpan f p) := h
theorem Look.tryMap {f : α → Sp O → Except (PErr O) β} {p : PS O α} (h : Look p) : Look (tryMap f p) := h

theorem Look.validate {f} {p : PS O α} (h : Look p) : Look (validate f p) := by
  intro eoi s
  have := h eoi s
  show s.length ≤ p.cost eoi s + (Knuffel.validate f p.run eoi s).rest.length
  unfold Knuffel.validate
  cases hp : (p.run eoi s).out <;> simp only [hp] <;> exact this

theorem Look.bind {p : PS O α} {f : α → PS O β} (h : Look p) (hf : ∀ a, Look (f a)) : Look (bind p f) := by
  intro eoi s
  have h1 := h eoi s
  show s.length ≤ (p.cost eoi s + match (p.run eoi s).out with
      | .ok (a, _) => (f a).cost eoi (p.run eoi s).rest
      | .error _ => 0) + (Knuffel.bind p.run (fun a => (f a).run) eoi s).rest.length
  unfold Knuffel.bind
  cases hp : (p.run eoi s).out with
  | error e => simp only [hp, Nat.add_zero]; exact h1
  | ok a =>
    have h2 := hf a.1 eoi (p.run eoi s).rest
    cases hq : ((f a.1).run eoi (p.run eoi s).rest).out <;> simp only [hp, hq] <;> omega

theorem Look.seq {p : PS O α} {q : PS O β} (h : Look p) (hq : Look q) : Look (seq p q) := h.bind fun _ => hq.pmap
theorem Look.ignoreThen {p : PS O α} {q : PS O β} (h : Look p) (hq : Look q) : Look (ignoreThen p q) :=
  h.bind fun _ => hq
theorem Look.thenIgnore {p : PS O α} {q : PS O β} (h : Look p) (hq : Look q) : Look (thenIgnore p q) :=
  h.bind fun _ => hq.pmap
theorem Look.delimitedBy {p : PS O α} {l : PS O β} {r : PS O γ} (h : Look p) (hl : Look l) (hr : Look r) :
    Look (delimitedBy p l r) := (hl.ignoreThen h).thenIgnore hr

theorem Look.orP {p q : PS O α} (h : Look p) (hq : Look q) : Look (orP p q) := by
  intro eoi s
  have h1 := h eoi s
  have h2 := hq eoi s
  show s.length ≤ (p.cost eoi s + if (p.run eoi s).clean then 0 else q.cost eoi s) +
    (Knuffel.orP p.run q.run eoi s).rest.length
  unfold Knuffel.orP
  simp only
  split
  · omega
  · split
    · cases h3 : (q.run eoi s).out <;> simp only <;> omega
    · split
      · rw [takeA_rest]; omega
      · rw [takeA_rest]; omega

theorem look_choiceGo {eoi : Sp O} {s} : ∀ {ps : List (PS O α)} {alt pan}, (∀ p ∈ ps, Look p) →
    s.length ≤ choiceCost eoi s ps + (choiceGo alt pan (ps.map PS.run) eoi s).rest.length := by
  intro ps
  induction ps with
  | nil => intro alt pan _; cases alt <;> simp [choiceGo]
  | cons p ps ih =>
    intro alt pan h
    have h1 := h p (by simp) eoi s
    rw [choiceCost, List.map_cons, choiceGo]
    cases hp : (p.run eoi s).out with
    | ok y => simp only [hp, Nat.add_zero]; exact h1
    | error e =>
      simp only [hp]
      have := ih (alt := mergeAlts alt (some e)) (pan := pan || (p.run eoi s).panicked || clashAlts alt (some e))
        (fun q hq => h q (by simp [hq]))
      omega

theorem look_choice {ps : List (PS O α)} (h : ∀ p ∈ ps, Look p) : Look (choice ps) := fun _ _ => look_choiceGo h

theorem Look.choice2 {p q : PS O α} (h1 : Look p) (h2 : Look q) : Look (choice [p, q]) :=
  look_choice (by intro x hx; simp at hx; rcases hx with rfl | rfl <;> assumption)
theorem Look.choice3 {p q r : PS O α} (h1 : Look p) (h2 : Look q) (h3 : Look r) : Look (choice [p, q, r]) :=
  look_choice (by intro x hx; simp at hx; rcases hx with rfl | rfl | rfl <;> assumption)
theorem Look.choice4 {p q r t : PS O α} (h1 : Look p) (h2 : Look q) (h3 : Look r) (h4 : Look t) :
    Look (choice [p, q, r, t]) :=
  look_choice (by intro x hx; simp at hx; rcases hx with rfl | rfl | rfl | rfl <;> assumption)

theorem Look.orNot {p : PS O α} (h : Look p) : Look (orNot p) := by
  intro eoi s
  have h1 := h eoi s
  show s.length ≤ p.cost eoi s + (Knuffel.orNot p.run eoi s).rest.length
  unfold Knuffel.orNot
  cases hp : (p.run eoi s).out <;> simp only [hp] <;> omega

theorem Look.rewind {p : PS O α} (h : Look p) : Look (rewind p) := by
  intro eoi s
  have h1 := h eoi s
  show s.length ≤ p.cost eoi s + (Knuffel.rewind p.run eoi s).rest.length
  unfold Knuffel.rewind
  cases hp : (p.run eoi s).out <;> simp only [hp] <;> omega

theorem Look.repeatedB {p : PS O α} {mn mx} (h : Look p) : Look (repeatedB mn mx p) := by
  have key : ∀ eoi fuel outs errs alt pan s, s.length ≤ repCost p mx eoi fuel outs.length s +
      (repGo p.run mn mx eoi fuel outs errs alt pan s).rest.length := by
    intro eoi fuel
    induction fuel with
    | zero => intro outs errs alt pan s; simp [repGo]
    | succ fuel ih =>
      intro outs errs alt pan s
      have h1 := h eoi s
      rw [repCost, repGo]
      split
      · simp only; omega
      · cases hp : (p.run eoi s).out with
        | error e =>
          simp only [hp, Nat.add_zero]
          split
          · exact h1
          · simp only; omega
        | ok y =>
          obtain ⟨y, aalt⟩ := y
          simp only [hp]
          split
          · have := ih (outs ++ [y]) (errs ++ (p.run eoi s).errs) (mergeAlts alt aalt)
              (pan || (p.run eoi s).panicked || clashAlts alt aalt) (p.run eoi s).rest
            rw [List.length_append, List.length_singleton] at this
            omega
          · simp only [Nat.add_zero]; exact h1
  exact fun eoi s => key eoi _ [] _ _ _ s

theorem Look.repeated {p : PS O α} (h : Look p) : Look (repeated p) := h.repeatedB

theorem Look.takeUntil {p : PS O β} (h : Look p) : Look (takeUntil p) := by
  have key : ∀ eoi fuel outs alt pan s, s.length ≤ untilCost p eoi fuel s +
      (takeUntilGo p.run eoi fuel outs alt pan s).rest.length := by
    intro eoi fuel
    induction fuel with
    | zero => intro outs alt pan s; simp [takeUntilGo]
    | succ fuel ih =>
      intro outs alt pan s
      have h1 := h eoi s
      rw [untilCost.eq_def, takeUntilGo]
      cases hp : (p.run eoi s).out with
      | ok y => simp only [hp, Nat.add_zero]; exact h1
      | error e =>
        cases s with
        | nil => simp
        | cons x t =>
          simp only [hp]
          have := ih (outs ++ [x.1]) (mergeAlts alt (some e)) (pan || (p.run eoi (x :: t)).panicked || clashAlts alt (some e)) t
          simp only [List.length_cons]
          simp only [← Nat.add_assoc]
          omega
  exact fun eoi s => key eoi _ _ _ _ s

theorem Look.recoverSkipUntil {p : PS O α} {u fb} (h : Look p) : Look (recoverSkipUntil u fb p) := by
  intro eoi s
  have h1 := h eoi s
  have hs : ∀ s : List (Tok O), s.length ≤ skipCost u s ∨ ∃ t, skipTo u s = some t ∧ s.length ≤ skipCost u s + t.length := by
    intro s
    induction s with
    | nil => left; simp
    | cons x s ih =>
      rw [skipCost, skipTo]
      split
      · right; exact ⟨_, rfl, by omega⟩
      · rcases ih with ih | ⟨t, ih1, ih2⟩
        · left; simp; omega
        · right; exact ⟨t, ih1, by simp; omega⟩
  show s.length ≤ (p.cost eoi s + match (p.run eoi s).out with
      | .ok _ => 0
      | .error _ => skipCost u s) + (Knuffel.recoverSkipUntil u fb p.run eoi s).rest.length
  unfold Knuffel.recoverSkipUntil
  cases hp : (p.run eoi s).out with
  | ok y => simp only [hp, Nat.add_zero]; exact h1
  | error e =>
    simp only [hp]
    rcases hs s with h2 | ⟨t, h2, h3⟩
    · omega
    · simp only [h2]; omega

theorem Look.sepDelim {delim : PS O β} (h : Look delim) (eoi : Sp O) (alt s) :
    s.length ≤ delim.cost eoi s + (Knuffel.sepDelim delim.run eoi alt s).2.2.length := by
  have h1 := h eoi s
  unfold Knuffel.sepDelim
  cases hp : (delim.run eoi s).out <;> simp only [hp] <;> omega

theorem Look.separatedBy {item : PS O α} {delim : PS O β} (hi : Look item) (hd : Look delim) :
    Look (separatedBy item delim) := by
  have key : ∀ eoi fuel s, s.length ≤ sepCost item delim eoi fuel s + (sepEnd item delim eoi fuel s).length := by
    intro eoi fuel
    induction fuel with
    | zero => intro s; simp [sepEnd]
    | succ fuel ih =>
      intro s
      have h1 := hd eoi s
      have h2 := hi eoi (delim.run eoi s).rest
      rw [sepCost, sepEnd]
      cases hp : (delim.run eoi s).out with
      | error e => simp only; omega
      | ok d =>
        simp only
        cases (item.run eoi (delim.run eoi s).rest).out with
        | error e => simp only; omega
        | ok a =>
          simp only
          split
          · have := ih (item.run eoi (delim.run eoi s).rest).rest
            simp only [← Nat.add_assoc]
            omega
          · omega
  intro eoi s
  have h0 := hd.sepDelim eoi none s
  show s.length ≤ (delim.cost eoi s + (item.cost eoi (Knuffel.sepDelim delim.run eoi none s).2.2 +
    match (item.run eoi (Knuffel.sepDelim delim.run eoi none s).2.2).out with
      | .error _ => 0
      | .ok _ =>
        let t := (item.run eoi (Knuffel.sepDelim delim.run eoi none s).2.2).rest
        sepCost item delim eoi (t.length + 1) t + delim.cost eoi (sepEnd item delim eoi (t.length + 1) t))) +
    (Knuffel.separatedBy item.run delim.run eoi s).rest.length
  unfold Knuffel.separatedBy
  rcases hsd : Knuffel.sepDelim delim.run eoi none s with ⟨alt0, pan0, s0⟩
  rw [hsd] at h0
  have h1 := hi eoi s0
  simp only at h0 ⊢
  cases hio : (item.run eoi s0).out with
  | error e => simp only [Nat.add_zero]; omega
  | ok a =>
    simp only
    have h2 := key eoi ((item.run eoi s0).rest.length + 1) (item.run eoi s0).rest
    rcases hg : sepGo item.run delim.run eoi ((item.run eoi s0).rest.length + 1) [a.1] (item.run eoi s0).errs
      (mergeAlts alt0 a.2) (pan0 || (item.run eoi s0).panicked || clashAlts alt0 a.2)
      (item.run eoi s0).rest with ⟨outs, errs, alt, pan, s1, err⟩
    have h4 := sepGo_end (item := item) (delim := delim) (eoi := eoi) ((item.run eoi s0).rest.length + 1) [a.1]
      (item.run eoi s0).errs (mergeAlts alt0 a.2) (pan0 || (item.run eoi s0).panicked || clashAlts alt0 a.2)
      (item.run eoi s0).rest
    rw [hg] at h4
    simp only at h4 ⊢
    rw [← h4] at h2 ⊢
    have h3 := hd.sepDelim eoi alt s1
    rcases hs2 : Knuffel.sepDelim delim.run eoi alt s1 with ⟨alt', pan', s2⟩
    rw [hs2] at h3
    simp only [← Nat.add_assoc] at h3 ⊢
    omega

theorem look_tooDeep : Look (tooDeep : PS O α) := by
  intro eoi s; simp [tooDeep, Knuffel.tooDeep]

/-! ### The grammar -/

theorem look_beginComment {c} : Look (beginComment c : PS O Unit) :=
  look_just.mapErr.ignoreThen look_just.ignored

theorem look_newline : Look (newline : PS O Unit) :=
  Look.mapErr (Look.ignored ((((((look_just.orNot.ignoreThen look_just).orP look_just).orP look_just).orP
    look_just).orP look_just).orP look_just))

theorem look_wsChar : Look (wsChar : PS O Unit) := look_filter.ignored

theorem look_comment : Look (comment : PS O Unit) :=
  Look.ignored (look_beginComment.seq (look_newline.orP look_endP).takeUntil)

theorem look_mlCommentRec : ∀ n, Look (mlCommentRec n : PS O Unit)
  | 0 => look_tooDeep
  | n + 1 => Look.delimitedBy (Look.ignored (Look.repeated (Look.choice3 (look_mlCommentRec n) look_filter.ignored
      (look_just.thenIgnore look_filter.rewind).ignored))) look_beginComment look_justStr

variable [Offset O]

theorem look_mlComment : Look (mlComment : PS O Unit) := fun eoi s => look_mlCommentRec (s.length + 1) eoi s

theorem look_ws : Look (ws : PS O Unit) := Look.mapErr (Look.orP look_wsChar.repeatedB.ignored look_mlComment)

theorem look_rawString : Look (rawString : PS O Str) :=
  Look.pmap (Look.bind ((look_just.ignoreThen look_just.repeated.pmap).thenIgnore look_just) fun n =>
    Look.mapErrWithSpan (look_just.ignoreThen look_just.repeatedB.ignored).takeUntil)

theorem look_escChar : Look (escChar : PS O Char) :=
  look_filterMap.orP (look_just.ignoreThen (Look.recoverSkipUntil
    (Look.tryMap (Look.delimitedBy look_filterMap.repeatedB look_just look_just))))

theorem look_strChar : Look (strChar : PS O Char) := look_filter.orP (look_just.ignoreThen look_escChar)

theorem look_escapedString : Look (escapedString : PS O Str) :=
  look_just.ignoreThen (Look.mapErrWithSpan (look_strChar.repeated.thenIgnore look_just))

theorem look_string : Look (string : PS O Str) := look_rawString.orP look_escapedString

theorem look_sign : Look (sign : PS O Char) := look_just.orP look_just

theorem look_idChar : Look (idChar : PS O Char) := look_filter.mapErr

theorem look_bareIdent : Look (bareIdent : PS O Str) :=
  Look.tryMap (Look.choice3
    (Look.pmap (look_sign.seq (Look.seq (p := idSansDig) look_filter.mapErr look_idChar.repeated)))
    look_sign.repeatedB
    (Look.pmap (Look.seq (p := idSansSignDig) look_filter.mapErr look_idChar.repeated)))

theorem look_optSign : Look (optSign : PS O (Option Char)) := (look_just.orP look_just).orNot
theorem look_digits {r} : Look (digits r : PS O (List Char)) := look_filter.repeated
theorem look_digit {r} : Look (digit r : PS O Char) := look_filter

theorem look_decimalNumber : Look (decimalNumber : PS O Literal) :=
  Look.pmap ((((look_optSign.seq look_digit).seq look_digits).seq
    (Look.pmap ((look_just.seq look_digit).seq look_digits)).orNot).seq
    (Look.pmap (((look_just.orP look_just).seq look_optSign).seq look_digits)).orNot)

theorem look_radixDigits {m r k} : Look (radixDigits m r k : PS O (Radix × List Char)) :=
  look_just.ignoreThen (Look.pmap (look_digit.seq look_digits))

theorem look_radixNumber : Look (radixNumber : PS O Literal) :=
  Look.pmap ((look_optSign.thenIgnore look_just).seq
    (Look.choice3 look_radixDigits look_radixDigits look_radixDigits))

theorem look_number : Look (number : PS O Literal) := look_radixNumber.orP look_decimalNumber

theorem look_keyword : Look (keyword : PS O Literal) :=
  Look.choice3 (Look.pmap look_justStr.mapErr) (Look.pmap look_justStr.mapErr) (Look.pmap look_justStr.mapErr)

theorem look_ident : Look (ident : PS O Str) :=
  Look.tryMap (Look.choice3 look_number.pmap look_bareIdent.pmap look_string.pmap)

theorem look_literal : Look (literal : PS O Literal) := Look.choice3 look_string.pmap look_keyword look_number

theorem look_typeName : Look (typeName : PS O TypeName) :=
  Look.pmap (Look.delimitedBy look_ident look_just look_just)

theorem look_escLine : Look (escLine : PS O Unit) :=
  (look_just.ignoreThen look_ws.repeated).ignoreThen (look_comment.orP look_newline)

theorem look_nodeSpace : Look (nodeSpace : PS O Unit) := look_ws.orP look_escLine

theorem look_nodeTerminator : Look (nodeTerminator : PS O Unit) :=
  Look.choice4 look_newline look_comment look_just.ignored look_endP

theorem Look.spanned {p : PS O α} (h : Look p) : Look (spanned p) := h.mapWithSpan

theorem look_typeNameValue : Look (typeNameValue : PS O (Value (Sp O))) :=
  Look.pmap (look_typeName.spanned.seq look_literal.spanned)

theorem look_value : Look (value : PS O (Value (Sp O))) := look_typeNameValue.orP look_literal.spanned.pmap

theorem look_optValue : Look (optValue : PS O (Option (Value (Sp O)))) := (look_just.ignoreThen look_value).orNot

theorem look_propOrArgInner : Look (propOrArgInner : PS O (PropOrArg (Sp O))) :=
  Look.choice3 (Look.tryMap (look_literal.spanned.seq look_optValue))
    (Look.pmap (Look.validate (look_bareIdent.spanned.seq look_optValue)))
    look_typeNameValue.pmap

theorem look_propOrArg : Look (propOrArg : PS O (PropOrArg (Sp O))) :=
  Look.orP (Look.pmap ((look_beginComment.ignoreThen look_nodeSpace.repeated).ignoreThen look_propOrArgInner))
    look_propOrArgInner

theorem look_lineSpace : Look (lineSpace : PS O Unit) := (look_newline.orP look_ws).orP look_comment

theorem look_nodeItem {inner : PS O (List (SpannedNode (Sp O)))} (h : Look inner) : Look (nodeItem inner) := by
  have hb : Look (bracedNodes inner) := look_just.ignoreThen (Look.mapErrWithSpan (h.thenIgnore look_just))
  have hd : Look (orNot (thenIgnore (beginComment '-') (repeated nodeSpace)) : PS O (Option Unit)) :=
    (look_beginComment.thenIgnore look_nodeSpace.repeated).orNot
  have hc : Look (optChildren inner) := Look.orNot ((look_nodeSpace.repeated.ignoreThen hd).seq hb.spanned)
  have he : Look (spaceEntry : PS O (PropOrArg (Sp O))) := look_nodeSpace.repeatedB.ignoreThen look_propOrArg
  have hn : Look (node inner) := Look.pmap ((((look_typeName.spanned.orNot.seq look_ident.spanned).seq
    he.repeated).seq hc).thenIgnore (look_nodeSpace.repeated.seq look_nodeTerminator))
  exact hd.seq hn.spanned

theorem look_nodesRec : ∀ n, Look (nodesRec n : PS O (List (SpannedNode (Sp O))))
  | 0 => look_tooDeep
  | n + 1 => Look.pmap (Look.separatedBy (look_nodeItem (look_nodesRec n)) look_lineSpace.repeated)

theorem look_document : Look (document : PS O (Document (Sp O))) :=
  Look.pmap (Look.thenIgnore (p := nodes) (fun eoi s => look_nodesRec (s.length + 1) eoi s) look_endP)

end Knuffel.Steps
