import Verif.Theory.OrderedEntry
/-!
# The order of the diagnostics: nodes
-/

set_option linter.unusedSimpArgs false
set_option linter.unusedSectionVars false
set_option linter.unusedVariables false

namespace Knuffel.Ordered
open Cst

variable {α β : Type} {text : Str} {inner : P Nat (List (SpannedNode (Sp Nat)))}

/-! ### White space and entries -/

theorem repGo_min {p : P Nat α} {eoi : Sp Nat} : ∀ fuel {outs errs alt pan s x}, (repGo p 1 none eoi fuel outs errs alt pan s).out = .ok x →
    repGo p 0 none eoi fuel outs errs alt pan s = repGo p 1 none eoi fuel outs errs alt pan s := by
  intro fuel
  induction fuel with
  | zero => intros; rfl
  | succ fuel ih =>
    intro outs errs alt pan s x h
    unfold repGo at h ⊢
    simp only [reduceCtorEq, if_false] at h ⊢
    cases ho : (p eoi s).out with
    | ok y =>
      obtain ⟨a, aalt⟩ := y
      simp only [ho] at h ⊢
      split
      · rename_i hlt
        rw [if_pos hlt] at h
        exact ih h
      · rfl
    | error e =>
      simp only [ho] at h ⊢
      rw [if_neg (by omega)]
      split at h
      · cases h
      · rename_i hn
        rw [if_neg hn]

theorem repeatedB_min {p : P Nat α} {eoi : Sp Nat} {s x} (h : (repeatedB 1 none p eoi s).out = .ok x) :
    (repeatedB 1 none p eoi s).rest = (repeated p eoi s).rest := by
  unfold repeatedB at h ⊢
  unfold Knuffel.repeated repeatedB
  rw [repGo_min _ h]

theorem repeated_none {p : P Nat α} {eoi : Sp Nat} {s} (h : Fails p eoi s) : (repeated p eoi s).rest = s := by
  obtain ⟨e, h⟩ := h
  simp [Knuffel.repeated, repeatedB, repGo, h]

theorem repeatedB_error {p : P Nat α} {eoi : Sp Nat} {s e} (h : (repeatedB 1 none p eoi s).out = .error e) : Fails p eoi s := by
  cases ho : (p eoi s).out with
  | error e => exact ⟨e, ho⟩
  | ok x =>
    exfalso
    have key : ∀ fuel {outs errs alt pan s e}, 1 ≤ outs.length → (repGo p 1 none eoi fuel outs errs alt pan s).out ≠ .error e := by
      intro fuel
      induction fuel with
      | zero => intros; simp [repGo]
      | succ fuel ih =>
        intro outs errs alt pan s e hl
        unfold repGo
        simp only [reduceCtorEq, if_false]
        split
        · split
          · exact ih (by simp)
          · simp
        · rw [if_neg (by omega)]; simp
    unfold repeatedB repGo at h
    simp only [reduceCtorEq, if_false, ho] at h
    split at h
    · exact key _ (by simp) h
    · cases h

theorem repeated_is_ok {p : P Nat α} {eoi : Sp Nat} {s} : ∃ a alt, (repeated p eoi s).out = .ok (a, alt) := by
  cases ho : (repeated p eoi s).out with
  | ok x => exact ⟨x.1, x.2, rfl⟩
  | error e => exact absurd ⟨e, ho⟩ not_fails_repeated


theorem fails_nodeSpace_eq {s} (h : Hd '=' s) : Fails nodeSpace (offsetEoi text) s := by
  refine (failsC_nodeSpace ⟨⟨?_, h.no (by decide)⟩, ?_⟩).fails
  · intro c hc
    rw [h] at hc
    injection hc with hc
    subst hc
    decide
  · rw [h]; decide

/-- After the white space there is something that cannot be read as an entry. -/
def Blk (text : Str) (s : List (Tok Nat)) : Prop := Wall (afterSp text s) ∨ Bad text (afterSp text s)

theorem r_spaceEntry : R text (Hd '=') (Blk text) spaceEntry := by
  intro s hs
  have h1 := R.repeatedB (mn := 1) (by omega) r_nodeSpace (fun _ _ h => h.elim) (fun s e h => quiet_nodeSpace.failQuiet _ s e h) s hs
  have hr := h1.suf.trans hs
  have h1' : Rd text (off text s) (off text) (off text s) Wall (fun t => Wall t ∧ Fails nodeSpace (offsetEoi text) t) s
      (repeatedB 1 none nodeSpace (offsetEoi text) s) := by
    refine ⟨h1.suf, h1.steps, ?_, ?_⟩
    · intro a alt ho l hl
      exact ⟨(h1.ok a alt ho l hl).1, (h1.ok a alt ho l hl).2.imp id fun h => ⟨h.1, h.2.resolve_left id⟩⟩
    · intro e he
      exact ⟨(h1.err e he).1, (h1.err e he).2.1, (h1.err e he).2.2.imp id fun h => ⟨h, repeatedB_error he⟩⟩
  refine Rd.bind (F2 := Bad text) hs (Nat.le_refl _) (off_mono h1.suf) h1' (fun _ _ _ => r_propOrArg _ hr) ?_ ?_ ?_
  · intro a alt ho hb y hy
    exact nok (fails_propOrArg_wall hb) hy
  · rintro ⟨h, hf⟩
    left
    unfold afterSp
    rw [repeated_none hf]
    exact h
  · intro a alt ho h
    rw [repeatedB_min ho] at h
    exact h

theorem failQuiet_spaceEntry : FailQuiet (spaceEntry : P Nat _) :=
  failQuiet_ignoreThen (quiet_repeatedB quiet_nodeSpace) failQuiet_propOrArg

theorem fails_spaceEntry_eq {s} (h : Hd '=' s) : Fails spaceEntry (offsetEoi text) s := by
  refine fails_ignoreThen_left ?_
  obtain ⟨e, he⟩ := fails_nodeSpace_eq (text := text) h
  exact ⟨e, by simp [repeatedB, repGo, he]⟩

/-- What follows the entries, if an error about them remains. -/
def Ent (text : Str) (s : List (Tok Nat)) : Prop := Hd '=' s ∨ Blk text s

theorem r_entries {F} : R text (Ent text) F (repeated spaceEntry) :=
  R.repeated r_spaceEntry (fun s _ h => fails_spaceEntry_eq h) (fun s e h => failQuiet_spaceEntry _ s e h)

/-! ### The end of a node -/

theorem fails_terminator {s} {c : Char} (h : Hd c s) (h1 : c ∉ newlineChars) (h2 : c ≠ ';') (h3 : ¬ ['/', '/'] <+: chars s) :
    Fails nodeTerminator (offsetEoi text) s := by
  refine fails_choice.2 ?_
  intro p hp
  simp only [List.mem_cons, List.not_mem_nil, or_false] at hp
  rcases hp with rfl | rfl | rfl | rfl
  · exact fails_newline_of_hd h h1
  · exact fails_comment_of h3
  · exact fails_pmap.2 (fails_just_of_hd h h2)
  · refine fails_endP.2 ?_
    rintro rfl
    simp [Hd, chars] at h

theorem fl_terminator : Fl text nodeTerminator := by
  intro n
  refine tr_choice ?_
  intro p hp
  simp only [List.mem_cons, List.not_mem_nil, or_false] at hp
  rcases hp with rfl | rfl | rfl | rfl
  · exact tr_newline
  · exact tr_comment
  · exact tr_ignored (tr_just _)
  · exact tr_endP

/-- The end of a node cannot be read here. -/
def NoEnd (text : Str) (s : List (Tok Nat)) : Prop := Fails (seq (repeated nodeSpace) nodeTerminator) (offsetEoi text) s

theorem noEnd_of {s} (h : Fails nodeTerminator (offsetEoi text) (afterSp text s)) : NoEnd text s := by
  obtain ⟨a, alt, ho⟩ := repeated_is_ok (p := nodeSpace) (eoi := offsetEoi text) (s := s)
  exact fails_seq_right (Quiet.ok (quiet_repeated quiet_nodeSpace) ho) h

theorem noEnd_hd {s} {c : Char} (h : Hd c (afterSp text s)) (h1 : c ∉ newlineChars) (h2 : c ≠ ';')
    (h3 : ¬ ['/', '/'] <+: chars (afterSp text s)) : NoEnd text s := noEnd_of (fails_terminator h h1 h2 h3)

theorem Wall.noEnd {s} (h : Wall (afterSp text s)) : NoEnd text s := by
  obtain ⟨c, h1, h2, h3, h4, h5, h6, h7⟩ := h.hd
  exact noEnd_hd h1 h6 h7 (h.no (by decide))

theorem dash_no {s : List (Tok Nat)} {c : Char} (h : ['/', '-'] <+: chars s) (hc : c ≠ '-') : ¬ ['/', c] <+: chars s := by
  obtain ⟨r, h⟩ := h
  rintro ⟨r', h'⟩
  rw [← h] at h'
  simp only [List.cons_append, List.nil_append, List.cons.injEq] at h'
  exact hc h'.2.1

theorem Eh.hd {s} (h : Eh s) : ∃ c, Hd c s ∧ c ∉ newlineChars ∧ c ≠ ';' ∧ c ≠ '/' ∧ c ≠ '{' ∧ c ≠ '}' := by
  rcases h with h | h
  · obtain ⟨c, h1, h2⟩ := nm_hd h
    refine ⟨c, h1, ?_⟩
    simp only [stops, List.mem_append, List.mem_cons, List.not_mem_nil, or_false, not_or] at h2
    exact ⟨h2.1, h2.2.1, h2.2.2.1, h2.2.2.2.1, h2.2.2.2.2.1⟩
  · exact ⟨_, h, by decide⟩

theorem noEnd_dash {s} (h : ['/', '-'] <+: chars (afterSp text s)) : NoEnd text s :=
  noEnd_hd (hd_of_prefix h) (by decide) (by decide) (dash_no h (by decide))

theorem Ent.noEnd {s} (h : Ent text s) : NoEnd text s := by
  rcases h with h | h | h | h
  · have hf := repeated_none (fails_nodeSpace_eq (text := text) h)
    refine noEnd_hd (c := '=') ?_ (by decide) (by decide) ?_ <;> unfold afterSp <;> rw [hf]
    · exact h
    · exact h.no (by decide)
  · exact h.noEnd
  · exact noEnd_dash h.1
  · obtain ⟨c, h1, h2, h3, h4, -⟩ := h.hd
    exact noEnd_hd h1 h2 h3 (h1.no h4)

/-! ### Children -/

/-- What may comment out a node or its children. -/
abbrev dash : P Nat (Option Unit) := orNot (thenIgnore (beginComment '-') (repeated nodeSpace))

theorem beginComment_of_prefix {c : Char} {s : List (Tok Nat)} {eoi : Sp Nat} (h : ['/', c] <+: chars s) : ∃ x, (beginComment c eoi s).out = .ok x := by
  obtain ⟨r, h⟩ := h
  match s with
  | [] => simp [chars] at h
  | [x] => simp [chars] at h
  | (x, sx) :: (y, sy) :: t =>
    simp only [chars, List.map_cons, List.cons_append, List.nil_append, List.cons.injEq] at h
    obtain ⟨rfl, rfl, -⟩ := h
    exact ⟨_, by simp [beginComment, ignoreThen, Knuffel.bind, mapErr, Knuffel.just, Knuffel.ignored, Knuffel.pmap, pok]; rfl⟩

theorem dash_rest (s : List (Tok Nat)) : (['/', '-'] <+: chars s ∧ (dash (offsetEoi text) s).rest = afterSp text (s.drop 2)) ∨
    (¬ ['/', '-'] <+: chars s ∧ (dash (offsetEoi text) s).rest = s) := by
  unfold dash
  rcases orNot_inv (thenIgnore (beginComment '-') (repeated nodeSpace)) (offsetEoi text) s with ⟨a, alt, h1, h2⟩ | ⟨e, h1, h2⟩
  · left
    rw [h2]
    obtain ⟨a', alt1, alt2, h3, h4, h5, h6⟩ := bind_ok_inv h1
    have h7 := beginComment_rest h3
    refine ⟨beginComment_ok_prefix h3, ?_⟩
    show (thenIgnore (beginComment '-') (repeated nodeSpace) (offsetEoi text) s).rest = _
    unfold thenIgnore
    rw [h6, h7.1]
    rfl
  · right
    rw [h2]
    refine ⟨?_, rfl⟩
    intro hp
    cases ho : (beginComment '-' (offsetEoi text) s).out with
    | error e' =>
      exact nok (α := Unit) (text := text) ⟨e', ho⟩ (beginComment_of_prefix hp).choose_spec
    | ok y =>
      obtain ⟨y, alt⟩ := y
      obtain ⟨a, alt2, h3⟩ := repeated_is_ok (p := nodeSpace) (eoi := offsetEoi text) (s := (beginComment '-' (offsetEoi text) s).rest)
      simp [thenIgnore, Knuffel.bind, ho, Knuffel.pmap, h3] at h1

theorem dash_ok {s : List (Tok Nat)} : ∃ a alt, (dash (offsetEoi text) s).out = .ok (a, alt) := by
  rcases orNot_inv (thenIgnore (beginComment '-') (repeated nodeSpace)) (offsetEoi text) s with ⟨a, alt, h1, h2⟩ | ⟨e, h1, h2⟩ <;>
    unfold dash <;> rw [h2] <;> exact ⟨_, _, rfl⟩

theorem quiet_dash : Quiet dash := quiet_orNot (quiet_thenIgnore (quiet_beginComment _) (quiet_repeated quiet_nodeSpace))

theorem r_dash {F} : R text Wall F dash := by
  refine (R.orNot (F' := F) (B := Wall) (F := No) ?_).weaken (fun _ h => h.resolve_right id) (fun _ => id)
  exact R.bind0 (F2 := No) fl_beginComment.any (fun _ => r_nodeSpaces.pmap) (fun _ _ _ _ h => h.elim)

/-- What is before the braces of the children. -/
abbrev beforeBraces : P Nat (Option Unit) := ignoreThen (repeated nodeSpace) dash

theorem beforeBraces_rest (s : List (Tok Nat)) : (beforeBraces (offsetEoi text) s).rest = (dash (offsetEoi text) (afterSp text s)).rest := by
  obtain ⟨a, alt, ho⟩ := repeated_is_ok (p := nodeSpace) (eoi := offsetEoi text) (s := s)
  obtain ⟨b, alt2, ho2⟩ := dash_ok (text := text) (s := afterSp text s)
  simp [beforeBraces, ignoreThen, Knuffel.bind, ho, ho2]

theorem Wall.dash_rest {s} (h : Wall s) : (dash (offsetEoi text) s).rest = s := by
  rcases Ordered.dash_rest (text := text) s with h1 | h1
  · exact absurd h1.1 (h.no (by decide))
  · exact h1.2


/-- What never fails. -/
theorem R.total {B F F' : List (Tok Nat) → Prop} {p : P Nat α} (h : R text B F p) (ht : ∀ s, ¬ Fails p (offsetEoi text) s) : R text B F' p :=
  fun s hs => ⟨(h s hs).suf, (h s hs).steps, (h s hs).ok, fun e he => absurd ⟨e, he⟩ (ht s)⟩

theorem beforeBraces_ok {s : List (Tok Nat)} : ∃ x, (beforeBraces (offsetEoi text) s).out = .ok x := by
  obtain ⟨a, alt, ho⟩ := repeated_is_ok (p := nodeSpace) (eoi := offsetEoi text) (s := s)
  obtain ⟨b, alt2, ho2⟩ := dash_ok (text := text) (s := afterSp text s)
  simp [beforeBraces, ignoreThen, Knuffel.bind, ho, ho2]

theorem quiet_beforeBraces : Quiet beforeBraces := quiet_ignoreThen (quiet_repeated quiet_nodeSpace) quiet_dash

theorem r_beforeBraces {F} : R text Wall F beforeBraces := by
  refine R.total (F := fun _ => True) ?_ ?_
  · intro s hs
    have h1 := r_nodeSpaces (F := No) s hs
    have hr := h1.suf.trans hs
    refine Rd.bind (F2 := No) hs (Nat.le_refl _) (off_mono h1.suf) h1 (fun _ _ _ => r_dash _ hr) ?_ (fun h => h.elim) (fun _ _ _ _ => trivial)
    intro a alt ho hb y hy
    exact ⟨hb.dash_rest, hb⟩
  · rintro s ⟨e, he⟩
    obtain ⟨x, hx⟩ := beforeBraces_ok (text := text) (s := s)
    rw [hx] at he; cases he

/-- Children follow, or white space that cannot be read. -/
def Chl (text : Str) (s : List (Tok Nat)) : Prop :=
  Wall (beforeBraces (offsetEoi text) s).rest ∨ Hd '{' (beforeBraces (offsetEoi text) s).rest

theorem Chl.noEnd {s} (h : Chl text s) : NoEnd text s := by
  unfold Chl at h
  rw [beforeBraces_rest] at h
  rcases dash_rest (text := text) (afterSp text s) with h1 | h1
  · exact noEnd_dash h1.1
  · rw [h1.2] at h
    rcases h with h | h
    · exact h.noEnd
    · exact noEnd_hd h (by decide) (by decide) (h.no (by decide))

theorem fails_braced {s} (h : ¬ Hd '{' s) : Fails (bracedNodes inner) (offsetEoi text) s :=
  fails_ignoreThen_left (fails_just_head.2 h)

/-- The children with what is before them. -/
abbrev childrenP (inner : P Nat (List (SpannedNode (Sp Nat)))) : P Nat (Option Unit × Spanned (List (SpannedNode (Sp Nat))) (Sp Nat)) :=
  seq beforeBraces (spanned (bracedNodes inner))

theorem fails_children {s} (h : ¬ Hd '{' (beforeBraces (offsetEoi text) s).rest) : Fails (childrenP inner) (offsetEoi text) s := by
  obtain ⟨⟨a, alt⟩, ho⟩ := beforeBraces_ok (text := text) (s := s)
  exact fails_seq_right (Quiet.ok quiet_beforeBraces ho) (fails_spanned.2 (fails_braced h))

theorem Wall.not_brace {s} (h : Wall s) : ¬ Hd '{' s := by
  obtain ⟨c, h1, h2, h3, h4, -⟩ := h.hd
  exact fun h5 => h4 (hd_unique h1 h5)

theorem Eh.not_brace {s} (h : Eh s) : ¬ Hd '{' s := by
  obtain ⟨c, h1, h2, h3, h4, h5, -⟩ := h.hd
  exact fun h6 => h5 (hd_unique h1 h6)

theorem Ent.no_children {s} (h : Ent text s) : Fails (childrenP inner) (offsetEoi text) s := by
  refine fails_children ?_
  rw [beforeBraces_rest]
  have hd := dash_rest (text := text) (afterSp text s)
  rcases h with h | h | h | h
  · have hf : afterSp text s = s := repeated_none (fails_nodeSpace_eq (text := text) h)
    rw [hf] at hd ⊢
    rw [(hd.resolve_left fun h1 => h.no (by decide) h1.1).2]
    exact fun h2 => absurd (hd_unique h h2) (by decide)
  · rw [h.dash_rest]; exact h.not_brace
  · rw [(hd.resolve_right fun h1 => h1.1 h.1).2]
    rcases h.2 with h | h
    · exact h.not_brace
    · exact h.not_brace
  · have hn : ¬ ['/', '-'] <+: chars (afterSp text s) := by
      obtain ⟨c, h1, h2, h3, h4, -⟩ := h.hd
      exact h1.no h4
    rw [(hd.resolve_left fun h1 => hn h1.1).2]
    exact h.not_brace

theorem r_optChildren {F} (hb : R text No (Hd '{') (bracedNodes inner)) : R text (Chl text) F (optChildren inner) := by
  have h1 : R text No (Chl text) (childrenP inner) := by
    refine R.bindF (F1 := No) (F2 := Hd '{') r_beforeBraces (fun _ => hb.spanned.pmap) ?_ (fun _ h => h.elim) ?_
    · intro _ s hs h
      exact fails_pmap.2 (fails_spanned.2 (fails_braced h.not_brace))
    · intro s a alt h h2
      exact h2
  exact (R.orNot (F' := F) h1).weaken (fun _ h => h.resolve_left id) (fun _ => id)

theorem optChildren_none {s} (h : Fails (childrenP inner) (offsetEoi text) s) : (optChildren inner (offsetEoi text) s).rest = s := by
  unfold optChildren
  rcases orNot_inv (childrenP inner) (offsetEoi text) s with ⟨a, alt, h1, h2⟩ | ⟨e, h1, h2⟩
  · exact nok h h1
  · rw [h2]

/-! ### Nodes -/

/-- The type and the name of a node. -/
abbrev headP : P Nat (Option (Spanned TypeName (Sp Nat)) × Spanned Str (Sp Nat)) := seq (orNot (spanned typeName)) (spanned ident)

theorem headP_ok {s x} (h : (headP (offsetEoi text) s).out = .ok x) : Eh s := by
  obtain ⟨x, alt⟩ := x
  obtain ⟨a, alt1, alt2, h1, h2, h3, h4⟩ := bind_ok_inv h
  obtain ⟨b, h5⟩ := pmap_ok h2
  obtain ⟨b, h5⟩ := spanned_ok h5
  have hid := ident_ok h5
  rcases orNot_inv (spanned typeName) (offsetEoi text) s with ⟨a, alt, h6, h7⟩ | ⟨e, h6, h7⟩
  · obtain ⟨y, h8⟩ := spanned_ok h6
    exact Or.inr (typeName_ok h8)
  · rw [h7] at hid
    exact Or.inl hid

theorem r_headP : R text No Eh headP := by
  intro s hs
  have h1 := R.orNot (F' := No) (r_typeName (text := text)).spanned s hs
  have hr := h1.suf.trans hs
  refine Rd.bind (F2 := Nm) hs (Nat.le_refl _) (off_mono h1.suf) h1 (fun _ _ _ => r_ident.spanned.pmap _ hr) ?_ (fun h => h.elim) ?_
  · intro a alt ho hb y hy
    replace hb := hb.resolve_left id
    exact nok (fails_pmap.2 (fails_spanned.2 (failsC_ident (noName_hd hb (by decide))).fails)) hy
  · intro a alt ho h
    rcases orNot_inv (spanned typeName) (offsetEoi text) s with ⟨a, alt, h6, h7⟩ | ⟨e, h6, h7⟩
    · obtain ⟨y, h8⟩ := spanned_ok h6
      exact Or.inr (typeName_ok h8)
    · rw [h7] at h
      rcases h with h | h
      · exact Or.inr (h.resolve_left id)
      · exact Or.inl h

/-- The node up to its children. -/
abbrev lineP := seq headP (repeated (spaceEntry : P Nat (PropOrArg (Sp Nat))))

theorem r_lineP : R text (Ent text) Eh lineP :=
  R.bind0 (F2 := No) r_headP (fun _ => r_entries.pmap) (fun _ _ _ _ h => h.elim)

theorem lineP_ok {s x} (h : (lineP (offsetEoi text) s).out = .ok x) : Eh s := by
  obtain ⟨y, h⟩ := bind_ok h
  exact headP_ok h

/-- The node up to its end. -/
abbrev openP (inner : P Nat (List (SpannedNode (Sp Nat)))) := seq lineP (optChildren inner)

theorem r_openP (hb : R text No (Hd '{') (bracedNodes inner)) : R text (NoEnd text) Eh (openP inner) := by
  intro s hs
  have h1 := r_lineP (text := text) s hs
  have hr := h1.suf.trans hs
  refine Rd.bind (F2 := No) hs (Nat.le_refl _) (off_mono h1.suf) h1
    (fun _ _ _ => (((r_optChildren hb).weaken (fun _ => Chl.noEnd) (fun _ => id)).pmap _ hr)) ?_ id ?_
  · intro a alt ho hb y hy
    exact ⟨optChildren_none hb.no_children, hb.noEnd⟩
  · intro a alt ho _
    exact lineP_ok ho

theorem r_end : R text No (fun _ => True) (seq (repeated nodeSpace) nodeTerminator) := by
  refine R.bindF (F1 := No) (F2 := No) r_nodeSpaces (fun _ => fl_terminator.any.pmap) ?_ (fun _ h => h.elim) (fun _ _ _ _ _ => trivial)
  intro _ s hs h
  obtain ⟨c, h1, h2, h3, h4, h5, h6, h7⟩ := h.hd
  exact fails_pmap.2 (fails_terminator h1 h6 h7 (h.no (by decide)))

theorem r_node (hb : R text No (Hd '{') (bracedNodes inner)) : R text No Eh (node inner) := by
  refine R.pmap ?_
  refine R.bindF (F2 := fun _ => True) (r_openP hb) (fun _ => r_end.pmap) ?_ (fun _ => id) ?_
  · intro _ s hs h
    exact fails_pmap.2 h
  · intro s a alt h _
    obtain ⟨y, h⟩ := bind_ok h
    exact lineP_ok h

/-! ### The errors recorded before a failure -/

/-- The errors recorded before a failure are before it. -/
def FC (text : Str) (s : List (Tok Nat)) (r : PRes Nat α) : Prop :=
  ∀ e, r.out = .error e → Steps (off text s) r.errs (first e.err) ∧ Steps (off text s) r.errs (offr text e.rem)

theorem FC.quiet {B F} {s} {r : PRes Nat α} (hs : s <:+ offsetToks 0 text) (h : Rd text (off text s) (off text) (off text s) B F s r)
    (hq : ∀ e, r.out = .error e → r.errs = []) : FC text s r := by
  intro e he
  rw [hq e he]
  have := h.err e he
  refine ⟨this.2.1, ?_⟩
  show off text s ≤ _
  rw [← offr_eq hs]
  exact offr_mono this.1

/-- The place of the merged error, and which of the two it is. -/
theorem max_far (a b : Loc Nat) : ((a.max b).rem = a.rem ∧ first (a.max b).err = first a.err ∧ a.rem ≤ b.rem) ∨
    ((a.max b).rem = b.rem ∧ first (a.max b).err = first b.err ∧ b.rem ≤ a.rem) := by
  unfold Loc.max
  split
  · exact Or.inl ⟨rfl, rfl, by omega⟩
  · split
    · exact Or.inr ⟨rfl, rfl, by omega⟩
    · have : a.rem = b.rem := by omega
      split
      · rename_i e he
        cases ha : a.err <;> cases hb : b.err <;> rw [ha, hb] at he <;>
          simp only [PErr.merge, Option.some.injEq, reduceCtorEq] at he <;> subst he
        all_goals first
          | exact Or.inl ⟨rfl, rfl, Nat.le_of_eq this⟩
          | exact Or.inr ⟨this, rfl, Nat.le_of_eq this.symm⟩
      · exact Or.inl ⟨rfl, rfl, Nat.le_of_eq this⟩

theorem FC.bind {B1 F1} {p : P Nat α} {f : α → P Nat β} {s}
    (h1 : Rd text (off text s) (off text) (off text s) B1 F1 s (p (offsetEoi text) s)) (hp : FC text s (p (offsetEoi text) s))
    (hf : ∀ a alt, (p (offsetEoi text) s).out = .ok (a, alt) → FC text (p (offsetEoi text) s).rest (f a (offsetEoi text) (p (offsetEoi text) s).rest))
    (hB : ∀ a alt, (p (offsetEoi text) s).out = .ok (a, alt) → B1 (p (offsetEoi text) s).rest →
      ∀ e, (f a (offsetEoi text) (p (offsetEoi text) s).rest).out = .error e → (f a (offsetEoi text) (p (offsetEoi text) s).rest).errs = []) :
    FC text s (Knuffel.bind p f (offsetEoi text) s) := by
  cases ho : (p (offsetEoi text) s).out with
  | error e =>
    have hb : Knuffel.bind p f (offsetEoi text) s = ⟨(p (offsetEoi text) s).panicked, (p (offsetEoi text) s).errs, .error e, (p (offsetEoi text) s).rest⟩ := by
      simp [Knuffel.bind, ho]
    rw [hb]
    intro e' hx
    simp only [Except.error.injEq] at hx
    subst hx
    exact hp e ho
  | ok x =>
    obtain ⟨a, alt⟩ := x
    have hst := h1.steps _ ho
    cases ho2 : (f a (offsetEoi text) (p (offsetEoi text) s).rest).out with
    | ok y => 
      intro e he
      simp [Knuffel.bind, ho, ho2] at he
    | error e =>
      have hb : Knuffel.bind p f (offsetEoi text) s = ⟨(p (offsetEoi text) s).panicked || (f a (offsetEoi text) (p (offsetEoi text) s).rest).panicked || e.clashO alt,
          (p (offsetEoi text) s).errs ++ (f a (offsetEoi text) (p (offsetEoi text) s).rest).errs, .error (e.maxO alt), (f a (offsetEoi text) (p (offsetEoi text) s).rest).rest⟩ := by
        simp [Knuffel.bind, ho, ho2]
      rw [hb]
      intro e' hx
      simp only [Except.error.injEq] at hx
      subst hx
      have h2 := hf a alt ho e ho2
      have hall := hst.append h2.1
      have hall2 := hst.append h2.2
      cases alt with
      | none => exact ⟨hall, hall2⟩
      | some l =>
        simp only [Loc.maxO]
        rcases max_far e l with ⟨h3, h4, h5⟩ | ⟨h3, h4, h5⟩
        · rw [h3, h4]; exact ⟨hall, hall2⟩
        · rw [h3, h4]
          have h6 := hall2.mono (Nat.le_refl _) (offr_mono h5)
          refine ⟨?_, h6⟩
          rcases (h1.ok a _ ho l rfl).2 with h7 | h7
          · exact h6.mono (Nat.le_refl _) h7
          · simp only [hB a _ ho h7.2 e ho2, List.append_nil]
            exact hst.mono (Nat.le_refl _) h7.1

theorem FC.pmap {f : α → β} {p : P Nat α} {s} (h : FC text s (p (offsetEoi text) s)) : FC text s (Knuffel.pmap f p (offsetEoi text) s) := by
  intro e he
  exact h e (pmap_error.1 he)

theorem FC.spanned {p : P Nat α} {s} (h : FC text s (p (offsetEoi text) s)) : FC text s (Knuffel.spanned p (offsetEoi text) s) := by
  intro e he
  cases ho : (p (offsetEoi text) s).out with
  | ok y => simp [Knuffel.spanned, Knuffel.mapWithSpan, ho] at he
  | error e' =>
    simp only [Knuffel.spanned, Knuffel.mapWithSpan, ho, Except.error.injEq] at he
    subst he
    exact h e' ho

theorem FC.total {p : P Nat α} {s} (h : ∃ y, (p (offsetEoi text) s).out = .ok y) : FC text s (p (offsetEoi text) s) := by
  obtain ⟨y, h⟩ := h
  intro e he
  rw [h] at he; cases he

theorem orNot_ok {p : P Nat α} {eoi : Sp Nat} {s} : ∃ y, (orNot p eoi s).out = .ok y := by
  rcases orNot_inv p eoi s with ⟨a, alt, h1, h2⟩ | ⟨e, h1, h2⟩ <;> rw [h2] <;> exact ⟨_, rfl⟩

theorem pmap_is_ok {f : α → β} {p : P Nat α} {eoi : Sp Nat} {s} (h : ∃ y, (p eoi s).out = .ok y) : ∃ y, (pmap f p eoi s).out = .ok y := by
  obtain ⟨y, h⟩ := h
  exact ⟨(f y.1, y.2), by simp [Knuffel.pmap, h]⟩

theorem fc_node (hb : R text No (Hd '{') (bracedNodes inner)) {s} (hs : s <:+ offsetToks 0 text) : FC text s (node inner (offsetEoi text) s) := by
  refine FC.pmap ?_
  have hrep : ∀ {α} {p : P Nat α} {s}, ∃ y, (repeated p (offsetEoi text) s).out = .ok y := by
    intro α p s
    obtain ⟨a, alt, h⟩ := repeated_is_ok (p := p) (eoi := offsetEoi text) (s := s)
    exact ⟨_, h⟩
  have hO := r_openP hb s hs
  have hL := r_lineP (text := text) s hs
  have hH := r_headP (text := text) s hs
  have hT := R.orNot (F' := No) (r_typeName (text := text)).spanned s hs
  refine FC.bind hO ?_ (fun a alt _ => ?_) ?_
  · refine FC.bind hL ?_ (fun a alt _ => FC.total (pmap_is_ok orNot_ok)) ?_
    · refine FC.bind hH ?_ (fun a alt _ => FC.total (pmap_is_ok hrep)) ?_
      · refine FC.bind hT (FC.total orNot_ok) (fun a alt _ => ?_) ?_
        · exact FC.quiet (hT.suf.trans hs) (r_ident.spanned.pmap _ (hT.suf.trans hs))
            (fun e he => failQuiet_pmap (failQuiet_spanned failQuiet_ident) _ _ e he)
        · intro a alt _ _ e he
          exact failQuiet_pmap (failQuiet_spanned failQuiet_ident) _ _ e he
      · intro a alt _ _ e he
        obtain ⟨y, hy⟩ := pmap_is_ok (f := fun b => (a, b)) (hrep (p := spaceEntry) (s := (headP (offsetEoi text) s).rest))
        rw [hy] at he; cases he
    · intro a alt _ _ e he
      obtain ⟨y, hy⟩ := pmap_is_ok (f := fun b => (a, b)) (orNot_ok (p := childrenP inner) (eoi := offsetEoi text) (s := (lineP (offsetEoi text) s).rest))
      rw [show (pmap (fun b => (a, b)) (optChildren inner) (offsetEoi text) (lineP (offsetEoi text) s).rest).out = _ from hy] at he; cases he
  · exact FC.quiet (hO.suf.trans hs) (r_end.pmap _ (hO.suf.trans hs))
      (fun e _ => quiet_pmap (quiet_seq (quiet_repeated quiet_nodeSpace) quiet_nodeTerminator) _ _)
  · intro a alt _ _ e _
    exact quiet_pmap (quiet_seq (quiet_repeated quiet_nodeSpace) quiet_nodeTerminator) _ _

/-! ### A node that may be commented out -/

/-- There is something that does not end the children. -/
def NB (s : List (Tok Nat)) : Prop := ∃ c, Hd c s ∧ c ≠ '}'

theorem Wall.nb {s} (h : Wall s) : NB s := by
  obtain ⟨c, h1, h2, h3, h4, h5, -⟩ := h.hd
  exact ⟨c, h1, h5⟩

theorem Eh.nb {s} (h : Eh s) : NB s := by
  obtain ⟨c, h1, h2, h3, h4, h5, h6⟩ := h.hd
  exact ⟨c, h1, h6⟩

theorem failsC_node {s} (h : ¬ Eh s) : FailsC (node inner) (offsetEoi text) s := by
  have hn : NoName (chars s) := Classical.not_not.1 fun hn => h (Or.inl hn)
  have ht : (chars s).head? ≠ some '(' := fun hp => h (Or.inr hp)
  refine failsC_pmap.2 (failsC_thenIgnore_left (failsC_seq_left (failsC_seq_left (failsC_seq_right
    (ok_orNot.2 (Or.inr ⟨rfl, rfl, fails_spanned.2 (failsC_typeName ht).fails⟩)) ?_))))
  · exact failsC_spanned.2 (failsC_ident hn)

theorem r_nodeItem (hb : R text No (Hd '{') (bracedNodes inner)) : R text No NB (nodeItem inner) := by
  refine R.bindF (F1 := No) (F2 := Eh) r_dash (fun _ => (r_node hb).spanned.pmap) ?_ (fun _ h => h.elim) ?_
  · intro _ s hs h
    exact fails_pmap.2 (fails_spanned.2 (failsC_node h.not_eh).fails)
  · intro s a alt ho h
    rcases dash_rest (text := text) s with h1 | h1
    · exact ⟨_, hd_of_prefix h1.1, by decide⟩
    · rw [h1.2] at h
      rcases h with h | h
      · exact h.nb
      · exact h.nb

theorem fc_nodeItem (hb : R text No (Hd '{') (bracedNodes inner)) {s} (hs : s <:+ offsetToks 0 text) : FC text s (nodeItem inner (offsetEoi text) s) := by
  have h1 := r_dash (text := text) (F := No) s hs
  refine FC.bind h1 (FC.total orNot_ok) (fun a alt _ => ((fc_node hb (h1.suf.trans hs)).spanned.pmap)) ?_
  intro a alt _ hw e he
  exact (failsC_node (inner := inner) hw.not_eh).1

theorem failsC_nodeItem {s} (h : ¬ NB s ∨ Slash s) : FailsC (nodeItem inner) (offsetEoi text) s := by
  have hd : ¬ ['/', '-'] <+: chars s := by
    rcases h with h | h
    · exact fun hp => h ⟨_, hd_of_prefix hp, by decide⟩
    · exact h.no (by decide)
  have hE : ¬ Eh s := by
    rcases h with h | h
    · exact fun he => h he.nb
    · exact Wall.not_eh (Or.inl h)
  have hr := ((dash_rest (text := text) s).resolve_left fun h => hd h.1).2
  obtain ⟨a, alt, ho⟩ := dash_ok (text := text) (s := s)
  have hok := Quiet.ok quiet_dash ho
  rw [hr] at hok
  exact failsC_seq_right hok (failsC_spanned.2 (failsC_node hE))

end Knuffel.Ordered
