import Verif.Theory.BlameTok
/-!
# Two texts with the same beginning: entries of nodes
-/

set_option linter.unusedSimpArgs false
set_option linter.unusedSectionVars false
set_option linter.unusedVariables false

namespace Knuffel
open Cst

variable {O α β γ : Type} [Offset O] {C : Twin O} {k : Bool} {n : Nat}

/-- What is asked of the rejected text where words begin: raw strings have an end, and no
number with a sign stands for the name of a property. -/
structure Decent (C : Twin O) : Prop where
  code : CodesOk (C.U ++ C.v)
  tie : NoTie (chars (C.U ++ C.v))
  raw : ∀ x w, x :: w <:+ C.U → C.Start (x :: w) → RawStart (chars (x :: w ++ C.v)) →
    ¬ Fails rawString C.eoi (x :: w ++ C.v)
  num : ∀ x w, x :: w <:+ C.U → C.Start (x :: w) → (x.1 = '+' ∨ x.1 = '-') → ∀ l t,
    Ok number C.eoi (x :: (w ++ C.v)) l t → (chars t).head? ≠ some '='

theorem hashes_split (s : Str) : ∃ j, (s = List.replicate j '#') ∨ ∃ c r, s = List.replicate j '#' ++ c :: r ∧ c ≠ '#' := by
  induction s with
  | nil => exact ⟨0, Or.inl rfl⟩
  | cons c s ih =>
    by_cases hc : c = '#'
    · subst hc
      obtain ⟨j, h | ⟨d, r, h, hd⟩⟩ := ih
      · exact ⟨j + 1, Or.inl (by rw [h]; rfl)⟩
      · exact ⟨j + 1, Or.inr ⟨d, r, by rw [h]; rfl, hd⟩⟩
    · exact ⟨0, Or.inr ⟨c, s, rfl, hc⟩⟩

theorem replicate_inj {i j : Nat} {c d : Char} {r q : Str} (hc : c ≠ '#') (hd : d ≠ '#')
    (h : List.replicate i '#' ++ c :: r = List.replicate j '#' ++ d :: q) : c = d := by
  induction i generalizing j with
  | zero =>
    cases j with
    | zero => simp at h; exact h.1
    | succ j => simp [List.replicate_succ] at h; exact absurd h.1 hc
  | succ i ih =>
    cases j with
    | zero => simp [List.replicate_succ] at h; exact absurd h.1.symm hd
    | succ j => simp [List.replicate_succ] at h; exact ih h

/-- Where a literal fails, it fails whatever comes last, unless a name reaches the end. -/
theorem literal_touch (hT : Decent C) {x : Tok O} {u} (hu : x :: u <:+ C.U) (hs : C.Start (x :: u))
    (hf : Fails literal C.eoi (x :: (u ++ C.v))) :
    Fails literal C.eoi' (x :: (u ++ C.v')) ∨
      x.1 ≠ '(' ∧ (Fails bareIdent C.eoi (x :: (u ++ C.v)) ∨ Touch C.v.length (bareIdent C.eoi (x :: (u ++ C.v)))) := by
  have h1 : Fails string C.eoi (x :: (u ++ C.v)) := fails_pmap.1 (fails_choice.1 hf (pmap .string string) (by simp))
  have h2 : Fails keyword C.eoi (x :: (u ++ C.v)) := fails_choice.1 hf _ (by simp)
  have h3 : Fails number C.eoi (x :: (u ++ C.v)) := fails_choice.1 hf _ (by simp)
  have mk : ∀ {eoi : Sp O} {s}, Fails string eoi s → Fails keyword eoi s → Fails number eoi s → Fails literal eoi s := by
    intro eoi s g1 g2 g3
    refine fails_choice.2 ?_
    intro p hp
    simp only [List.mem_cons, List.not_mem_nil, or_false] at hp
    rcases hp with rfl | rfl | rfl
    · exact fails_pmap.2 g1
    · exact g2
    · exact g3
  have hdig := (fails_number_iff.1 h3 x.1 _ rfl).1
  by_cases hq : x.1 = '"'
  · exact Or.inr ⟨by rw [hq]; decide, Or.inl (fails_bareIdent_head (by rw [hq, ← isIdSansDig_iff]; decide))⟩
  by_cases hr : x.1 = 'r'
  · have k1 : ∀ {eoi : Sp O} {t}, Fails keyword eoi (x :: t) := fun {eoi t} =>
      fails_keyword_head (by rw [hr]; decide) (by rw [hr]; decide) (by rw [hr]; decide)
    have k2 : ∀ {eoi : Sp O} {t}, Fails number eoi (x :: t) := fun {eoi t} =>
      fails_number_head (by rw [hr]; decide) (by rw [hr]; decide)
    obtain ⟨j, hj | ⟨c, r, hj, hc⟩⟩ := hashes_split (chars u)
    · refine Or.inr ⟨by rw [hr]; decide, Or.inr (bareIdent_touch (by rw [hr, ← isIdSansDig_iff]; decide) (Or.inr ⟨by rw [hr]; decide, ?_⟩))⟩
      intro y hy
      have : y.1 ∈ chars u := List.mem_map_of_mem hy
      rw [hj] at this
      rw [(List.mem_replicate.1 this).2, ← isIdChar_iff]
      decide
    · by_cases hc' : c = '"'
      · exfalso
        refine hT.raw _ _ hu hs ⟨j, r ++ chars C.v, ?_⟩ (fails_orP.1 h1).1
        simp [chars] at hj ⊢
        simp [hj, hr, hc']
      · refine Or.inl (mk (failsC_string (by simpa [chars] using hq) ?_).fails k1 k2)
        rintro ⟨i, q, hi⟩
        have hi : 'r' :: List.replicate i '#' ++ ['"'] ++ q = x.1 :: (chars u ++ chars C.v') := by
          rw [hi]; simp [chars]
        rw [hj] at hi
        simp at hi
        exact hc' (replicate_inj hc (by decide) hi.2.symm)
  have hstr : ∀ {eoi : Sp O} {t}, Fails string eoi (x :: t) := fun {eoi t} => fails_string_head hr hq
  by_cases hk : x.1 = 'n' ∨ x.1 = 't' ∨ x.1 = 'f'
  · have k2 : ∀ {eoi : Sp O} {t}, Fails number eoi (x :: t) := fun {eoi t} => by
      rcases hk with h | h | h <;> exact fails_number_head (by rw [h]; decide) (by rw [h]; decide)
    by_cases hall : ∃ kw ∈ keywords, kw <+: chars (x :: (u ++ C.v'))
    rotate_left
    · exact Or.inl (mk hstr (failsC_keyword (fun kw h1 h2 => hall ⟨kw, h1, h2⟩)).fails k2)
    · right
      obtain ⟨kw, hkw, hp⟩ := hall
      have hpre : chars (x :: u) <+: kw := by
        have e1 : chars (x :: (u ++ C.v')) = chars (x :: u) ++ chars C.v' := by simp [chars]
        have e2 : chars (x :: (u ++ C.v)) = chars (x :: u) ++ chars C.v := by simp [chars]
        rw [e1] at hp
        rcases List.prefix_or_prefix_of_prefix hp (List.prefix_append _ _) with h | h
        · exfalso
          have hpp : kw <+: chars (x :: (u ++ C.v)) := by rw [e2]; exact h.trans (List.prefix_append _ _)
          have key : ∀ cs, Fails (justStr cs) C.eoi (x :: (u ++ C.v)) → ¬ cs <+: chars (x :: (u ++ C.v)) := by
            intro cs hc
            rcases (quiet_justStr cs).cases C.eoi (x :: (u ++ C.v)) with ⟨_, _, g⟩ | g
            · exact absurd hc g.not_fails
            · exact failsC_justStr_prefix.1 g
          have hm := fails_choice.1 h2
          simp only [keywords, List.mem_cons, List.not_mem_nil, or_false] at hkw
          rcases hkw with rfl | rfl | rfl
          · exact key _ (fails_mapErr.1 (fails_pmap.1 (hm (pmap (fun _ => .bool true) (mapErr (PErr.withExpectedToken "true".toList)
              (justStr "true".toList))) (by simp)))) hpp
          · exact key _ (fails_mapErr.1 (fails_pmap.1 (hm (pmap (fun _ => .bool false) (mapErr (PErr.withExpectedToken "false".toList)
              (justStr "false".toList))) (by simp)))) hpp
          · exact key _ (fails_mapErr.1 (fails_pmap.1 (hm (pmap (fun _ => .null) (mapErr (PErr.withExpectedToken "null".toList)
              (justStr "null".toList))) (by simp)))) hpp
        · exact h
      refine ⟨by rcases hk with h | h | h <;> rw [h] <;> decide, Or.inr (bareIdent_touch ?_ (Or.inr ⟨?_, ?_⟩))⟩
      · rw [← isIdSansDig_iff]
        rcases hk with h | h | h <;> rw [h] <;> decide
      · rcases hk with h | h | h <;> rw [h] <;> decide
      · intro y hy
        have : y.1 ∈ kw := hpre.subset (List.mem_map_of_mem (List.mem_cons_of_mem _ hy))
        rw [← isIdChar_iff]
        have hall : ∀ kw ∈ keywords, ∀ c ∈ kw, isIdChar c = true := by decide
        exact hall kw hkw _ this
  have hkf : ∀ {eoi : Sp O} {t}, Fails keyword eoi (x :: t) := fun {eoi t} =>
    fails_keyword_head (fun h => hk (Or.inl h)) (fun h => hk (Or.inr (Or.inl h))) (fun h => hk (Or.inr (Or.inr h)))
  rcases number_touch h3 with h | ⟨hx, h⟩
  · exact Or.inl (mk hstr hkf h)
  · exact Or.inr ⟨by rcases hx with h | h <;> rw [h] <;> decide, Or.inr h⟩

theorem Touch.mapWithSpan {f : α → Sp O → β} {p : P O α} {eoi : Sp O} {s m} (h : Touch m (p eoi s)) :
    Touch m (mapWithSpan f p eoi s) := by
  cases ho : (p eoi s).out with
  | error e => exact (touch_error' (e := e) (by simp [Knuffel.mapWithSpan, ho])).2 ((touch_error' ho).1 h)
  | ok x => exact (touch_ok' (a := f x.1 (spanSince eoi s (p eoi s).rest)) (alt := x.2) (by simp [Knuffel.mapWithSpan, ho])).2
              ((touch_ok' (a := x.1) (alt := x.2) ho).1 h)

theorem Touch.validate {f : α → Sp O → List (PErr O)} {p : P O α} {eoi : Sp O} {s m} (h : Touch m (p eoi s)) :
    Touch m (validate f p eoi s) := by
  unfold Touch PRes.altOrErr at *
  rw [validate_out.1, validate_out.2]; exact h

theorem fails_typedValue_head {eoi : Sp O} {x : Tok O} {t} (h : x.1 ≠ '(') : Fails typeNameValue eoi (x :: t) := by
  refine fails_pmap.2 (fails_seq_left (fails_mapWithSpan.2 (fails_typeName_head ?_)))
  simpa [chars] using h

theorem keyword_shape {w : Str} (h : w ∈ keywords) : IdentShape w := by
  have h2 : ∀ c ∈ ("truefalsn".toList), isIdSansDig c = true ∧ isIdChar c = true := by decide
  have st : ∀ c ∈ ("truefalsn".toList), IdentStart c := fun c hc => isIdSansDig_iff.1 (h2 c hc).1
  have ch : ∀ c ∈ ("truefalsn".toList), IdentChar c := fun c hc => isIdChar_iff.1 (h2 c hc).2
  simp only [keywords, List.mem_cons, List.not_mem_nil, or_false] at h
  rcases h with rfl | rfl | rfl
  all_goals
    refine ⟨Or.inr ⟨by decide, by decide, st _ (by decide), ch _ (by decide)⟩, ?_⟩
    intro c hc
    exact ch c (by revert c; decide)

theorem bl_propOrArgInner (hT : Decent C) : Bl C true n propOrArgInner propOrArgInner := by
  have hU := hT.code
  have hseq : Bl C false n (seq (spanned literal) optValue) (seq (spanned literal) optValue) :=
    (bl_literal hU).spanned.seq (bl_optValue hU)
  unfold propOrArgInner
  refine bl_choice ⟨Bl.weaken (hseq.tryMap ?_), ?_,
    Bl.weaken (Bl.pmap (Bl.validate (bl_bareIdent.spanned.seq (bl_optValue hU)))), ?_, (bl_typeNameValue hU).pmap, ?_, trivial⟩
  · -- an error of the mapping
    intro x u hu hn _ a alt ho ha hl sp e hf
    obtain ⟨l, ov⟩ := a
    obtain ⟨a1, alt1, alt2, h1, h2, -, h4⟩ := bind_ok_inv ho
    rw [show (seq (spanned literal) optValue C.eoi (x :: (u ++ C.v))).rest = _ from h4] at hl
    obtain ⟨b, h5, h6⟩ := pmap_ok_inv h2
    obtain ⟨rfl, rfl⟩ : a1 = l ∧ b = ov := by simpa [eq_comm] using h6
    have hl : C.v.length < (optValue C.eoi (spanned literal C.eoi (x :: (u ++ C.v))).rest).rest.length := hl
    cases b with
    | none => obtain ⟨sp0, l⟩ := a1; cases l <;> simp [literalEntry] at hf
    | some val =>
      rcases orNot_inv (ignoreThen (just '=') value) C.eoi (spanned literal C.eoi (x :: (u ++ C.v))).rest with
        ⟨b, alt3, g1, g2⟩ | ⟨e, g1, g2⟩
      rotate_left
      · rw [show optValue C.eoi _ = _ from g2] at h5; cases h5
      have hl : C.v.length < (ignoreThen (just '=') value C.eoi (spanned literal C.eoi (x :: (u ++ C.v))).rest).rest.length := by
        rw [show optValue C.eoi _ = _ from g2] at hl; exact hl
      obtain ⟨a2, alt4, alt5, g3, g4, -, g5⟩ := bind_ok_inv g1
      obtain ⟨sp1, g6, -⟩ := ok_just.1 (Quiet.ok (quiet_just '=') g3)
      rw [show (ignoreThen (just '=') value C.eoi (spanned literal C.eoi (x :: (u ++ C.v))).rest).rest = _ from g5] at hl
      have hv := (suf_value C.eoi (just '=' C.eoi (spanned literal C.eoi (x :: (u ++ C.v))).rest).rest).length_le
      have hlen := congrArg List.length g6
      simp only [List.length_cons] at hlen
      obtain ⟨alt', w, k1, k2, k3, k4⟩ := (bl_literal (n := n) hU).spanned.same (u := x :: u) (tight_spanned tight_literal) hu hn h1
        (by simp only [List.cons_append]; omega)
      simp only [List.cons_append] at k1 k3 k4
      rw [k1] at g6 hl g4 hlen
      cases w with
      | nil => simp only [List.nil_append] at hlen hl hv k1 g6; rw [k1] at hv; omega
      | cons y w =>
        simp only [List.cons_append, List.cons.injEq] at g6 hl g4
        obtain ⟨rfl, g6⟩ := g6
        have g6' := g6
        rw [← g6'] at hl g4
        have hw : w <:+ C.U := ((List.suffix_cons _ _).trans k2).trans hu
        have hst := value_stays hU hw g4 hl
        refine fails_tryMap.2 (Or.inr ?_)
        cases hv' : (value C.eoi' (w ++ C.v')).out with
        | error e' => exact absurd ⟨e', hv'⟩ hst
        | ok xv =>
          obtain ⟨val', altv⟩ := xv
          have q1 : ∃ alt6, (ignoreThen (just '=') value C.eoi' (('=', sp1) :: (w ++ C.v'))).out = .ok (val', alt6) := by
            simp [ignoreThen, bind, just, pok, hv']
          obtain ⟨alt6, q1⟩ := q1
          have q2 : ∃ alt7, (seq (spanned literal) optValue C.eoi' (x :: (u ++ C.v'))).out = .ok ((a1, some val'), alt7) := by
            simp [seq, bind, k3, k4, pmap, optValue, orNot, List.cons_append, q1]
          obtain ⟨alt7, q2⟩ := q2
          obtain ⟨sp0, l⟩ := a1
          cases l with
          | string s => simp [literalEntry] at hf
          | _ => exact ⟨_, _, _, q2, rfl⟩
  · -- the first alternative fails
    intro x u hu hn hs e he _
    have hs := hs rfl
    have fin : x.1 ≠ '(' → (Fails bareIdent C.eoi (x :: (u ++ C.v)) ∨ Touch C.v.length (bareIdent C.eoi (x :: (u ++ C.v)))) →
        ∀ q ∈ [pmap identEntry (validate identEntryErrs (seq (spanned bareIdent) optValue)), pmap .arg typeNameValue],
          (∃ e', (q C.eoi (x :: (u ++ C.v))).out = .error e') ∨ Touch C.v.length (q C.eoi (x :: (u ++ C.v))) := by
      intro g1 g2 q hq
      simp only [List.mem_cons, List.not_mem_nil, or_false] at hq
      rcases hq with rfl | rfl
      · rcases g2 with g2 | g2
        · exact Or.inl (fails_pmap.2 (fails_validate.2 (fails_seq_left (fails_mapWithSpan.2 g2))))
        · exact Or.inr ((Touch.validate ((Touch.mapWithSpan g2).bind (fun _ => (bl_optValue (k := false) (n := n) hU).pmap.inn))).pmap)
      · exact Or.inl (fails_pmap.2 (fails_typedValue_head g1))
    rcases fails_tryMap.1 ⟨e, he⟩ with h | ⟨⟨l, ov⟩, alt, e, ho, hf⟩
    · have hlit := fails_mapWithSpan.1 (fails_seq_total (fun _ => not_fails_orNot) h)
      rcases literal_touch hT hu hs hlit with h | ⟨h1, h2⟩
      · exact Or.inl (fails_tryMap.2 (Or.inl (fails_seq_left (fails_mapWithSpan.2 h))))
      · exact Or.inr (fin h1 h2)
    · right
      obtain ⟨a1, alt1, alt2, h1, h2, -, h4⟩ := bind_ok_inv ho
      obtain ⟨b, h5, h6⟩ := pmap_ok_inv h2
      obtain ⟨rfl, rfl⟩ : a1 = l ∧ b = ov := by simpa [eq_comm] using h6
      cases b with
      | none => obtain ⟨sp0, l⟩ := a1; cases l <;> simp [literalEntry] at hf
      | some val =>
        have heq : (chars (spanned literal C.eoi (x :: (u ++ C.v))).rest).head? = some '=' := by
          rcases orNot_inv (ignoreThen (just '=') value) C.eoi (spanned literal C.eoi (x :: (u ++ C.v))).rest with
            ⟨b, alt3, g1, g2⟩ | ⟨e, g1, g2⟩
          · obtain ⟨a2, alt4, alt5, g3, g4, -, g5⟩ := bind_ok_inv g1
            exact (just_ok_head g3).1
          · rw [show optValue C.eoi _ = _ from g2] at h5; cases h5
        obtain ⟨l', h7, h8⟩ := mapWithSpan_ok_inv h1
        have hr : (spanned literal C.eoi (x :: (u ++ C.v))).rest = (literal C.eoi (x :: (u ++ C.v))).rest := rfl
        rw [hr] at heq
        obtain ⟨p, hp, g1, g2, -⟩ := choice_ok_inv h7
        rw [show (literal C.eoi (x :: (u ++ C.v))).rest = _ from g2] at heq
        simp only [List.mem_cons, List.not_mem_nil, or_false] at hp
        rcases hp with rfl | rfl | rfl
        · exfalso
          obtain ⟨s, -, g3⟩ := pmap_ok_inv g1
          rw [h8, g3] at hf
          simp [literalEntry] at hf
        · obtain ⟨lit, _, g4, _, g5, _⟩ := keyword_sound (Quiet.ok quiet_keyword g1)
          have hid : Ok identChoice C.eoi (x :: (u ++ C.v)) lit.text (keyword C.eoi (x :: (u ++ C.v))).rest :=
            identChoice_complete (keyword_shape g5) g4 (by
              intro c hc
              rw [heq] at hc
              injection hc with hc
              subst hc
              exact ⟨by rw [← isIdChar_iff]; decide, by decide⟩)
          have hbf : Fails bareIdent C.eoi (x :: (u ++ C.v)) := by
            have hk : lit.text = "true".toList ∨ lit.text = "false".toList ∨ lit.text = "null".toList := by
              simpa [keywords] using g5
            exact (failsC_tryMap_err hid (by unfold checkKeyword; rw [if_pos hk])).fails
          refine fin ?_ (Or.inl hbf)
          rcases bareIdent_fails_cases hbf with h | h
          · obtain ⟨w', t', hw⟩ : ∃ w' t', Ok identChoice C.eoi (x :: (u ++ C.v)) w' t' := ⟨_, _, hid⟩
            exact absurd (fails_identChoice_head h) hw.not_fails
          · rcases h with h | h | h <;> rw [h] <;> decide
        · have hok := Quiet.ok quiet_number g1
          by_cases hx : x.1 = '+' ∨ x.1 = '-'
          · exact absurd heq (hT.num x u hu hs hx _ _ hok)
          · have hxd : x.1 ∈ decDigits := by
              apply Classical.byContradiction
              intro hd
              exact hok.not_fails (fails_number_head hd hx)
            have hne : x.1 ≠ '(' := by intro h; rw [h] at hxd; revert hxd; decide
            exact fin hne (Or.inl (fails_bareIdent_head (fun h => h.2 hxd)))
  · intro x u _ _ _ e he _
    have hb : Fails bareIdent C.eoi (x :: (u ++ C.v)) :=
      fails_mapWithSpan.1 (fails_seq_total (fun _ => not_fails_orNot) (fails_validate.1 (fails_pmap.1 ⟨e, he⟩)))
    by_cases hx : x.1 = '('
    · left
      exact fails_pmap.2 (fails_validate.2 (fails_seq_left (fails_mapWithSpan.2 (fails_bareIdent_head
        (by rw [hx, ← isIdSansDig_iff]; decide)))))
    · right
      intro q hq
      simp only [List.mem_cons, List.not_mem_nil, or_false] at hq
      subst hq
      exact Or.inl (fails_pmap.2 (fails_typedValue_head hx))
  · intro x u _ _ _ e he _
    exact Or.inr (by simp)

theorem fails_beginComment_head {c} {eoi : Sp O} {x : Tok O} {t} (h : x.1 ≠ '/') : Fails (beginComment c) eoi (x :: t) :=
  fails_ignoreThen_left (fails_mapErr.2 (fails_just_head.2 (by simpa [chars] using h)))

theorem bl_propOrArg (hT : Decent C) : Bl C true n propOrArg propOrArg := by
  unfold propOrArg
  refine Bl.orP (Bl.pmap (Bl.ignoreThenS (bl_beginComment.ignoreThen (bl_nodeSpace hT.tie).repeated) (bl_propOrArgInner hT) ?_))
    (bl_propOrArgInner hT) ?_
  · exact ed_mono (ed_bind' suf_beginComment (ed_beginComment (by decide))
      (fun _ => ed_repeatedB suf_nodeSpace (ed_mono ed_nodeSpace)))
  · intro eoi s x hx _
    refine (fails_propOrArgInner ?_).fails
    intro c hc
    obtain ⟨sp, t, rfl⟩ := toks_of_head hc
    by_cases h : c = '/'
    · subst h
      exact ⟨by rw [← isIdSansDig_iff]; decide, by decide, by decide, by decide⟩
    · exfalso
      refine not_fails_of_ok hx (fails_pmap.2 (fails_ignoreThen_left (fails_ignoreThen_left (fails_beginComment_head h))))

theorem bl_spaceEntry (hT : Decent C) : Bl C false n spaceEntry spaceEntry := by
  refine Bl.ignoreThenS ((bl_nodeSpace hT.tie).repeatedB (by simp) (Or.inl (by omega))) (bl_propOrArg hT) ?_
  exact ed_eats (ed_repeatedB suf_nodeSpace (ed_mono ed_nodeSpace)) (eats_repeatedB suf_nodeSpace eats_nodeSpace (by omega) (by simp))

theorem bl_nodeTerminator : Bl C false n nodeTerminator nodeTerminator := by
  refine bl_choice ⟨bl_newline, ?_, bl_comment, ?_, bl_just.ignored, ?_, bl_endP, ?_, trivial⟩
  · intro x u _ _ _ e he _
    left
    refine fails_newline_iff.2 ?_
    intro c hc
    exact fails_newline_iff.1 ⟨e, he⟩ c (by simpa [chars] using hc)
  · intro x u _ _ _ e he _
    by_cases hx : x.1 = '/'
    · right
      intro q hq
      simp only [List.mem_cons, List.not_mem_nil, or_false] at hq
      left
      rcases hq with rfl | rfl
      · exact fails_pmap.2 (fails_just_head.2 (by simp [chars, hx]))
      · exact fails_endP.2 (by simp)
    · exact Or.inl (fails_pmap.2 (fails_seq_left (fails_beginComment_head hx)))
  · intro x u _ _ _ e he _
    left
    have := fails_just_head.1 (fails_pmap.1 ⟨e, he⟩)
    exact fails_pmap.2 (fails_just_head.2 (by simpa [chars] using this))
  · intro x u _ _ _ e he _
    exact Or.inr (by simp)

end Knuffel
