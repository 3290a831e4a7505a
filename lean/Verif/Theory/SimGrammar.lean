import Verif.Theory.Sim
/-!
# Two runs of the grammar on the same characters
-/

namespace Knuffel
namespace Rel

variable {O O' : Type} [Offset O] [Offset O'] {T : Type} {R : Rel O O' T} {α α' : Type} {k : Nat}

/-! ### Errors -/

theorem er_kind {t : Str} (ht : TokenFormat.Usual (.kind t)) {e : PErr O} {e' : PErr O'} (h : R.er e e') :
    R.er (e.withExpectedKind t) (e'.withExpectedKind t) := by
  cases e <;> cases e' <;> simp only [er] at h <;> simp only [PErr.withExpectedKind, er] <;> grind [altSet_one]

theorem er_token {t : Str} (ht : TokenFormat.Usual (.token t)) {e : PErr O} {e' : PErr O'} (h : R.er e e') :
    R.er (e.withExpectedToken t) (e'.withExpectedToken t) := by
  cases e <;> cases e' <;> simp only [er] at h <;> simp only [PErr.withExpectedToken, er] <;> grind [altSet_one]

theorem er_noExpected {e : PErr O} {e' : PErr O'} (h : R.er e e') :
    R.er e.withNoExpected e'.withNoExpected := by
  cases e <;> cases e' <;> simp only [er] at h <;> simp only [PErr.withNoExpected, er] <;> grind [altSet_nil]

theorem er_getD {e f : PErr O} {e' f' : PErr O'} (h : R.er e e') (h' : R.er f f') :
    R.er ((e.merge f).getD e) ((e'.merge f').getD e') := by
  have := er_merge h h'
  cases h1 : e.merge f <;> cases h2 : e'.merge f' <;> rw [h1, h2] at this <;> simp only [ORel] at this <;>
    simp only [Option.getD]
  · exact h
  · exact this

theorem er_mlComment (e : PErr O) (e' : PErr O') (a b) (h : R.er e e') (hs : R.sp a b) :
    R.er (mlCommentErr e a) (mlCommentErr e' b) := by
  unfold mlCommentErr
  rw [er_isEoi h, R.sp_len hs]
  split
  · rename_i hc
    refine er_getD h ⟨rfl, R.at_start hs ?_, rfl, R.at_end hs, rfl, rfl⟩
    rw [R.sp_len hs]
    simp at hc; exact hc.2
  · exact h

theorem er_rawString (n : Nat) (e : PErr O) (e' : PErr O') (a b) (h : R.er e e') (hs : R.sp a b) :
    R.er (rawStringErr n e a) (rawStringErr n e' b) := by
  unfold rawStringErr
  rw [er_isEoi h]
  split
  · exact er_getD h ⟨rfl, R.before _ hs, rfl, R.at_end hs, rfl, rfl⟩
  · exact h

theorem er_string (e : PErr O) (e' : PErr O') (a b) (h : R.er e e') (hs : R.sp a b) :
    R.er (stringErr e a) (stringErr e' b) := by
  unfold stringErr
  rw [er_isEoi h]
  split
  · exact er_getD h ⟨rfl, R.before _ hs, rfl, R.at_end hs, rfl, rfl⟩
  · exact h

theorem er_braces (e : PErr O) (e' : PErr O') (a b) (h : R.er e e') (hs : R.sp a b) :
    R.er (bracesErr e a) (bracesErr e' b) := by
  unfold bracesErr
  rw [er_isEoi h]
  split
  · exact er_getD h ⟨rfl, R.before _ hs, rfl, R.at_end hs, rfl, rfl⟩
  · exact h

/-! ### Space -/

theorem sim_beginComment (c : Char) : R.Sim k Eq (beginComment c) (beginComment c) :=
  sim_ignoreThen (sim_mapErr (sim_just _) (fun _ _ h => er_noExpected h)) (sim_ignored (sim_just _))

theorem sim_newline : R.Sim k Eq (newline : P O Unit) (newline : P O' Unit) := by
  refine sim_mapErr (sim_ignored (va := Eq) ?_) (fun _ _ h => er_kind (by decide) h)
  exact sim_orP (sim_orP (sim_orP (sim_orP (sim_orP (sim_ignoreThen (sim_orNot (sim_just _)) (sim_just _)) (sim_just _)) (sim_just _))
    (sim_just _)) (sim_just _)) (sim_just _)

theorem sim_wsChar : R.Sim k Eq (wsChar : P O Unit) (wsChar : P O' Unit) := sim_ignored (sim_filter _)

theorem sim_comment : R.Sim k Eq (comment : P O Unit) (comment : P O' Unit) :=
  sim_ignored (sim_seq (sim_beginComment _) (sim_takeUntil (sim_orP sim_newline sim_endP)))

theorem sim_tooDeep {va : α → α' → Prop} : R.Sim k va tooDeep tooDeep := by
  intro s s' hs _
  exact ⟨rfl, trivial, Or.inr ⟨_, _, rfl, rfl, st_length hs, er_expected R.sp_eoi _ _⟩, hs, List.suffix_refl _, List.suffix_refl _⟩

theorem sim_mlCommentRec (n : Nat) : R.Sim k Eq (mlCommentRec n : P O Unit) (mlCommentRec n : P O' Unit) := by
  induction n with
  | zero => exact sim_tooDeep
  | succ n ih =>
    refine sim_delimitedBy (sim_ignored (sim_repeated (sim_choice (va := Eq) ?_))) (sim_beginComment _) (sim_justStr _)
    exact ⟨ih, sim_ignored (sim_noneOf _), sim_ignored (sim_thenIgnore (sim_just _) (sim_rewind (sim_noneOf _))), trivial⟩

theorem sim_mlComment : R.Sim k Eq (mlComment : P O Unit) (mlComment : P O' Unit) := by
  intro s s' hs hk
  unfold mlComment
  rw [← st_length hs]
  exact sim_mapErrWithSpan (sim_mlCommentRec _) er_mlComment s s' hs hk

theorem sim_ws : R.Sim k Eq (ws : P O Unit) (ws : P O' Unit) :=
  sim_mapErr (sim_orP (sim_ignored (sim_repeatedB sim_wsChar _ _)) sim_mlComment) (fun _ _ h => er_kind (by decide) h)

theorem sim_escLine : R.Sim k Eq (escLine : P O Unit) (escLine : P O' Unit) :=
  sim_ignoreThen (sim_ignoreThen (sim_just _) (sim_repeated sim_ws)) (sim_orP sim_comment sim_newline)

theorem sim_nodeSpace : R.Sim k Eq (nodeSpace : P O Unit) (nodeSpace : P O' Unit) := sim_orP sim_ws sim_escLine

theorem sim_lineSpace : R.Sim k Eq (lineSpace : P O Unit) (lineSpace : P O' Unit) :=
  sim_orP (sim_orP sim_newline sim_ws) sim_comment

theorem sim_nodeTerminator : R.Sim k Eq (nodeTerminator : P O Unit) (nodeTerminator : P O' Unit) :=
  sim_choice ⟨sim_newline, sim_comment, sim_ignored (sim_just _), sim_endP, trivial⟩

/-! ### Tokens -/

theorem sim_rawString : R.Sim k Eq (rawString : P O Str) (rawString : P O' Str) := by
  refine sim_pmap (va := PairRel Eq Eq) (sim_bind (va := Eq) (sim_thenIgnore (sim_ignoreThen (sim_just _) (sim_pmap (sim_repeated (sim_just _)) ?_)) (sim_just _)) ?_) ?_
  · intro a b h; rw [h.eq]
  · rintro n _ rfl
    exact sim_mapErrWithSpan (sim_takeUntil (sim_ignoreThen (sim_just _) (sim_ignored (sim_repeatedB (sim_just _) _ _)))) (er_rawString n)
  · intro a b h; exact h.1

theorem sim_escChar : R.Sim k Eq (escChar : P O Char) (escChar : P O' Char) := by
  refine sim_orP (sim_filterMap ?_) (sim_ignoreThen (sim_just _) (sim_recoverSkipUntil _ rfl (sim_tryMap (va := LRel Eq)
    (sim_delimitedBy (sim_repeatedB (sim_filterMap ?_) _ _) (sim_just _) (sim_just _)) ?_)))
  · intro a b c h
    unfold escSimple
    repeat' split
    all_goals first | exact rfl | exact ⟨rfl, h, rfl, rfl, altSet_setOf (by decide)⟩
  · intro a b c h
    unfold hexDigit
    split
    · exact rfl
    · exact ⟨rfl, h, rfl, rfl, altSet_one (by decide)⟩
  · intro a b x y h hs
    rw [h.eq]
    unfold hexToChar
    split
    · exact rfl
    · exact ⟨rfl, hs, rfl⟩

theorem sim_strChar : R.Sim k Eq (strChar : P O Char) (strChar : P O' Char) :=
  sim_orP (sim_filter _) (sim_ignoreThen (sim_just _) sim_escChar)

theorem sim_escapedString : R.Sim k Eq (escapedString : P O Str) (escapedString : P O' Str) :=
  sim_ignoreThen (sim_just _) (sim_mapErrWithSpan
    (sim_thenIgnore ((sim_repeated sim_strChar).mono (fun _ _ h => h.eq)) (sim_just _)) er_string)

theorem sim_string : R.Sim k Eq (string : P O Str) (string : P O' Str) := sim_orP sim_rawString sim_escapedString

theorem sim_sign : R.Sim k Eq (sign : P O Char) (sign : P O' Char) := sim_orP (sim_just _) (sim_just _)

theorem sim_idChar : R.Sim k Eq (idChar : P O Char) (idChar : P O' Char) := sim_mapErr (sim_filter _) (fun _ _ h => er_kind (by decide) h)
theorem sim_idSansDig : R.Sim k Eq (idSansDig : P O Char) (idSansDig : P O' Char) := sim_mapErr (sim_filter _) (fun _ _ h => er_kind (by decide) h)
theorem sim_idSansSignDig : R.Sim k Eq (idSansSignDig : P O Char) (idSansSignDig : P O' Char) :=
  sim_mapErr (sim_filter _) (fun _ _ h => er_kind (by decide) h)

theorem sim_bareIdent : R.Sim k Eq (bareIdent : P O Str) (bareIdent : P O' Str) := by
  refine sim_tryMap (va := Eq) (sim_choice ⟨?_, ?_, ?_, trivial⟩) ?_
  · refine sim_pmap (sim_seq sim_sign (sim_seq sim_idSansDig (sim_repeated sim_idChar))) ?_
    rintro ⟨a1, a2, a3⟩ ⟨b1, b2, b3⟩ ⟨h1, h2, h3⟩
    simp only at h1 h2 h3; rw [h1, h2, h3.eq]
  · exact (sim_repeatedB sim_sign _ _).mono (fun _ _ h => h.eq)
  · refine sim_pmap (sim_seq sim_idSansSignDig (sim_repeated sim_idChar)) ?_
    rintro ⟨a1, a3⟩ ⟨b1, b3⟩ ⟨h1, h3⟩
    simp only at h1 h3; rw [h1, h3.eq]
  · rintro a _ x y rfl hs
    unfold checkKeyword
    split
    · exact ⟨rfl, hs, rfl, rfl, altSet_one (by decide)⟩
    · exact rfl

theorem sim_digits (r : Nat) : R.Sim k Eq (digits r : P O (List Char)) (digits r : P O' (List Char)) :=
  (sim_repeated (sim_filter _)).mono (fun _ _ h => h.eq)

theorem orel_eq {a b : Option α} (h : ORel Eq a b) : a = b := by
  cases a <;> cases b <;> simp only [ORel] at h <;> simp [h]

theorem sim_optSign : R.Sim k Eq (optSign : P O (Option Char)) (optSign : P O' (Option Char)) :=
  (sim_orNot (sim_orP (sim_just _) (sim_just _))).mono (fun _ _ h => orel_eq h)

theorem sim_decimalNumber : R.Sim k Eq (decimalNumber : P O Literal) (decimalNumber : P O' Literal) := by
  refine sim_pmap (sim_seq (sim_seq (sim_seq (sim_seq sim_optSign (sim_filter _)) (sim_digits _))
    (sim_orNot (va := Eq) (sim_pmap (sim_seq (sim_seq (sim_just _) (sim_filter _)) (sim_digits _)) ?_)))
    (sim_orNot (va := Eq) (sim_pmap (sim_seq (sim_seq (sim_orP (sim_just _) (sim_just _)) sim_optSign) (sim_digits _)) ?_))) ?_
  · rintro ⟨⟨a1, a2⟩, a3⟩ ⟨⟨b1, b2⟩, b3⟩ ⟨⟨h1, h2⟩, h3⟩
    simp only at h1 h2 h3; rw [h1, h2, h3]
  · rintro ⟨⟨a1, a2⟩, a3⟩ ⟨⟨b1, b2⟩, b3⟩ ⟨⟨h1, h2⟩, h3⟩
    simp only at h1 h2 h3; rw [h1, h2, h3]
  · rintro ⟨⟨⟨⟨a1, a2⟩, a3⟩, a4⟩, a5⟩ ⟨⟨⟨⟨b1, b2⟩, b3⟩, b4⟩, b5⟩ ⟨⟨⟨⟨h1, h2⟩, h3⟩, h4⟩, h5⟩
    simp only at h1 h2 h3 h4 h5; rw [h1, h2, h3, orel_eq h4, orel_eq h5]

theorem sim_radixDigits (m : Char) (n : Nat) (r : Radix) :
    R.Sim k Eq (radixDigits m n r : P O (Radix × List Char)) (radixDigits m n r : P O' (Radix × List Char)) := by
  refine sim_ignoreThen (sim_just _) (sim_pmap (sim_seq (sim_filter _) (sim_digits _)) ?_)
  rintro ⟨a1, a3⟩ ⟨b1, b3⟩ ⟨h1, h3⟩
  simp only at h1 h3; rw [h1, h3]

theorem sim_radixNumber : R.Sim k Eq (radixNumber : P O Literal) (radixNumber : P O' Literal) := by
  refine sim_pmap (sim_seq (sim_thenIgnore sim_optSign (sim_just _))
    (sim_choice ⟨sim_radixDigits _ _ _, sim_radixDigits _ _ _, sim_radixDigits _ _ _, trivial⟩)) ?_
  rintro ⟨a1, a3⟩ ⟨b1, b3⟩ ⟨h1, h3⟩
  simp only at h1 h3; rw [h1, h3]

theorem sim_number : R.Sim k Eq (number : P O Literal) (number : P O' Literal) := sim_orP sim_radixNumber sim_decimalNumber

theorem sim_keyword : R.Sim k Eq (keyword : P O Literal) (keyword : P O' Literal) :=
  sim_choice ⟨sim_pmap (sim_mapErr (sim_justStr _) (fun _ _ h => er_token (by decide) h)) (fun _ _ _ => rfl),
    sim_pmap (sim_mapErr (sim_justStr _) (fun _ _ h => er_token (by decide) h)) (fun _ _ _ => rfl),
    sim_pmap (sim_mapErr (sim_justStr _) (fun _ _ h => er_token (by decide) h)) (fun _ _ _ => rfl), trivial⟩

theorem sim_ident : R.Sim k Eq (ident : P O Str) (ident : P O' Str) := by
  refine sim_tryMap (va := Eq) (sim_choice ⟨sim_pmap sim_number (fun _ _ _ => rfl), sim_pmap sim_bareIdent (fun _ _ h => by rw [h]),
    sim_pmap sim_string (fun _ _ h => by rw [h]), trivial⟩) ?_
  rintro a _ x y rfl hs
  cases a with
  | some s => exact rfl
  | none => exact ⟨rfl, hs, rfl, rfl, altSet_one (by decide)⟩

theorem sim_literal : R.Sim k Eq (literal : P O Literal) (literal : P O' Literal) :=
  sim_choice ⟨sim_pmap sim_string (fun _ _ h => by rw [h]), sim_keyword, sim_number, trivial⟩

theorem sim_typeName : R.Sim k Eq (typeName : P O TypeName) (typeName : P O' TypeName) :=
  sim_pmap (sim_delimitedBy sim_ident (sim_just _) (sim_just _)) (fun _ _ h => by rw [h])

/-! ### Values -/

/-- Related spanned values. -/
def spd (R : Rel O O' T) (va : α → α' → Prop) (x : Spanned α (Sp O)) (y : Spanned α' (Sp O')) : Prop :=
  R.sp x.span y.span ∧ va x.value y.value

/-- Related values. -/
def val (R : Rel O O' T) (v : Value (Sp O)) (v' : Value (Sp O')) : Prop :=
  ORel (R.spd Eq) v.typeName v'.typeName ∧ R.spd Eq v.literal v'.literal

/-- Related entries. -/
def entry (R : Rel O O' T) : PropOrArg (Sp O) → PropOrArg (Sp O') → Prop
  | .prop n v, .prop n' v' => R.spd Eq n n' ∧ R.val v v'
  | .arg v, .arg v' => R.val v v'
  | .ignore, .ignore => True
  | _, _ => False

theorem sim_spanned {va : α → α' → Prop} {p : P O α} {p' : P O' α'} (h : R.Sim k va p p') :
    R.Sim k (R.spd va) (spanned p) (spanned p') :=
  sim_mapWithSpan h (fun _ _ _ _ h1 h2 => ⟨h2, h1⟩)

theorem sim_typeNameValue : R.Sim k R.val typeNameValue typeNameValue :=
  sim_pmap (sim_seq (sim_spanned sim_typeName) (sim_spanned sim_literal)) (fun _ _ h => ⟨h.1, h.2⟩)

theorem sim_value : R.Sim k R.val value value :=
  sim_orP sim_typeNameValue (sim_pmap (sim_spanned sim_literal) (fun _ _ h => ⟨trivial, h⟩))

theorem sim_optValue : R.Sim k (ORel R.val) optValue optValue := sim_orNot (sim_ignoreThen (sim_just _) sim_value)

theorem ex_literalEntry {a : Spanned Literal (Sp O) × Option (Value (Sp O))} {b : Spanned Literal (Sp O') × Option (Value (Sp O'))}
    (h : PairRel (R.spd Eq) (ORel R.val) a b) (x y) : exRel R R.entry (literalEntry a x) (literalEntry b y) := by
  obtain ⟨⟨sp, l⟩, v⟩ := a
  obtain ⟨⟨sp', l'⟩, v'⟩ := b
  obtain ⟨⟨h1, h2⟩, h3⟩ := h
  simp only at h1 h2 h3
  subst h2
  cases v <;> cases v' <;> simp only [ORel] at h3
  · cases l <;> exact ⟨trivial, h1, rfl⟩
  · cases l
    · exact ⟨rfl, h1, rfl, rfl, altSet_setOf (by decide)⟩
    · exact ⟨rfl, h1, rfl, rfl, altSet_setOf (by decide)⟩
    · exact ⟨rfl, h1, rfl, rfl⟩
    · exact ⟨rfl, h1, rfl, rfl⟩
    · exact ⟨⟨h1, rfl⟩, h3⟩

theorem sim_propOrArgInner : R.Sim k R.entry propOrArgInner propOrArgInner := by
  refine sim_choice ⟨sim_tryMap (sim_seq (sim_spanned sim_literal) sim_optValue) (fun _ _ _ _ h _ => ex_literalEntry h _ _),
    sim_pmap (sim_validate (sim_seq (sim_spanned sim_bareIdent) sim_optValue) ?_) ?_,
    sim_pmap sim_typeNameValue (fun _ _ h => h), trivial⟩
  · rintro ⟨a1, a2⟩ ⟨b1, b2⟩ x y ⟨h1, h2⟩ hs
    simp only at h1 h2
    cases a2 <;> cases b2 <;> simp only [ORel] at h2 <;> simp only [identEntryErrs]
    · exact ⟨⟨rfl, hs, rfl, rfl⟩, trivial⟩
    · trivial
  · rintro ⟨a1, a2⟩ ⟨b1, b2⟩ ⟨h1, h2⟩
    simp only at h1 h2
    cases a2 <;> cases b2 <;> simp only [ORel] at h2
    · exact ⟨trivial, h1.1, congrArg _ h1.2⟩
    · exact ⟨h1, h2⟩

theorem sim_propOrArg : R.Sim k R.entry propOrArg propOrArg :=
  sim_orP (sim_pmap (sim_ignoreThen (sim_ignoreThen (sim_beginComment _) (sim_repeated sim_nodeSpace)) sim_propOrArgInner)
    (fun _ _ _ => trivial)) sim_propOrArgInner

theorem sim_spaceEntry : R.Sim k R.entry spaceEntry spaceEntry :=
  sim_ignoreThen (sim_repeatedB sim_nodeSpace _ _) sim_propOrArg

/-! ### Nodes -/

theorem spd_map {x : Spanned α (Sp O)} {y : Spanned α (Sp O')} (h : R.spd Eq x y) : x.mapSpan R.g = y.mapSpan R.g' := by
  obtain ⟨a, b⟩ := x
  obtain ⟨c, d⟩ := y
  obtain ⟨h1, h2⟩ := h
  simp only at h1 h2
  simp [Spanned.mapSpan, R.sp_g h1, h2]

theorem ospd_map {x : Option (Spanned α (Sp O))} {y : Option (Spanned α (Sp O'))} (h : ORel (R.spd Eq) x y) :
    x.map (Spanned.mapSpan R.g) = y.map (Spanned.mapSpan R.g') := by
  cases x <;> cases y <;> simp only [ORel] at h
  · rfl
  · simp [spd_map h]

theorem val_map {v : Value (Sp O)} {v' : Value (Sp O')} (h : R.val v v') : v.mapSpan R.g = v'.mapSpan R.g' := by
  unfold Value.mapSpan
  rw [ospd_map h.1, spd_map h.2]

theorem mapProps_insert {S : Type} (g : S → T) (k : Spanned Str S) (v : Value S) (l : List (Spanned Str S × Value S)) :
    mapProps g (propInsert k v l) = propInsert (k.mapSpan g) (v.mapSpan g) (mapProps g l) := by
  induction l with
  | nil => rfl
  | cons x l ih =>
    obtain ⟨k', v'⟩ := x
    simp only [mapProps] at ih
    simp only [propInsert, mapProps, List.map_cons, Spanned.mapSpan]
    split
    · simp
    · split
      · rfl
      · simp only [List.map_cons, List.cons.injEq]
        exact ⟨trivial, ih⟩

theorem collect_map {l : List (PropOrArg (Sp O))} {l' : List (PropOrArg (Sp O'))} (h : LRel R.entry l l') :
    ∀ {acc : List (Value (Sp O)) × List (Spanned Str (Sp O) × Value (Sp O))}
      {acc' : List (Value (Sp O')) × List (Spanned Str (Sp O') × Value (Sp O'))},
      acc.1.map (Value.mapSpan R.g) = acc'.1.map (Value.mapSpan R.g') → mapProps R.g acc.2 = mapProps R.g' acc'.2 →
      (collectItems l acc).1.map (Value.mapSpan R.g) = (collectItems l' acc').1.map (Value.mapSpan R.g') ∧
      mapProps R.g (collectItems l acc).2 = mapProps R.g' (collectItems l' acc').2 := by
  induction l generalizing l' with
  | nil => cases l' with
    | nil => intro acc acc' h1 h2; exact ⟨h1, h2⟩
    | cons => exact h.elim
  | cons x l ih => cases l' with
    | nil => exact h.elim
    | cons y l' =>
      obtain ⟨hxy, hl⟩ := h
      rintro ⟨a, p⟩ ⟨a', p'⟩ h1 h2
      simp only at h1 h2
      cases x <;> cases y <;> simp only [entry] at hxy <;> simp only [collectItems]
      · refine ih hl h1 ?_
        simp only
        rw [mapProps_insert, mapProps_insert, spd_map hxy.1, val_map hxy.2, h2]
      · exact ih hl (by simp [h1, val_map hxy]) h2
      · exact ih hl h1 h2

/-- Related lists of nodes. -/
def nds (R : Rel O O' T) (l : List (SpannedNode (Sp O))) (l' : List (SpannedNode (Sp O'))) : Prop :=
  mapNodes R.g l = mapNodes R.g' l'

theorem sim_bracedNodes {p : P O (List (SpannedNode (Sp O)))} {p' : P O' (List (SpannedNode (Sp O')))}
    (h : R.Sim (k - 1) R.nds p p') : R.Sim k R.nds (bracedNodes p) (bracedNodes p') :=
  sim_justThen (sim_mapErrWithSpan (sim_thenIgnore h (sim_just _)) er_braces)

/-- Related slash-dash marks. -/
theorem sim_optDash : R.Sim k Eq
    (orNot (thenIgnore (beginComment '-') (repeated nodeSpace)) : P O (Option Unit))
    (orNot (thenIgnore (beginComment '-') (repeated nodeSpace)) : P O' (Option Unit)) :=
  (sim_orNot (sim_thenIgnore (sim_beginComment _) (sim_repeated sim_nodeSpace))).mono (fun _ _ h => orel_eq h)

theorem sim_optChildren {p : P O (List (SpannedNode (Sp O)))} {p' : P O' (List (SpannedNode (Sp O')))}
    (h : R.Sim (k - 1) R.nds p p') : R.Sim k (ORel (PairRel Eq (R.spd R.nds))) (optChildren p) (optChildren p') :=
  sim_orNot (sim_seq (sim_ignoreThen (sim_repeated sim_nodeSpace) sim_optDash) (sim_spanned (sim_bracedNodes h)))

theorem sim_node {p : P O (List (SpannedNode (Sp O)))} {p' : P O' (List (SpannedNode (Sp O')))}
    (h : R.Sim (k - 1) R.nds p p') :
    R.Sim k (fun n n' => n.mapSpan R.g = n'.mapSpan R.g') (node p) (node p') := by
  refine sim_pmap (sim_thenIgnore (sim_seq (sim_seq (sim_seq (sim_orNot (sim_spanned sim_typeName)) (sim_spanned sim_ident))
    (sim_repeated sim_spaceEntry)) (sim_optChildren h)) (sim_seq (sim_repeated sim_nodeSpace) sim_nodeTerminator)) ?_
  rintro ⟨⟨⟨a1, a2⟩, a3⟩, a4⟩ ⟨⟨⟨b1, b2⟩, b3⟩, b4⟩ ⟨⟨⟨h1, h2⟩, h3⟩, h4⟩
  simp only at h1 h2 h3 h4
  have hc := collect_map h3 (acc := ([], [])) (acc' := ([], [])) rfl rfl
  simp only [buildNode, Node.mapSpan]
  rw [ospd_map h1, spd_map h2, hc.1, hc.2]
  congr 1
  cases a4 <;> cases b4 <;> simp only [ORel] at h4
  · rfl
  · rename_i x y
    obtain ⟨x1, sp, x2⟩ := x
    obtain ⟨y1, sp', y2⟩ := y
    obtain ⟨g1, g2, g3⟩ := h4
    simp only at g1 g2 g3
    subst g1
    cases x1
    · simp only [mapChildren, Option.some.injEq, Spanned.mk.injEq]
      exact ⟨R.sp_g g2, g3⟩
    · rfl

theorem sim_nodeItem {p : P O (List (SpannedNode (Sp O)))} {p' : P O' (List (SpannedNode (Sp O')))}
    (h : R.Sim (k - 1) R.nds p p') :
    R.Sim k (PairRel Eq (R.spd (fun n n' => n.mapSpan R.g = n'.mapSpan R.g'))) (nodeItem p) (nodeItem p') :=
  sim_seq sim_optDash (sim_spanned (sim_node h))

theorem keep_map {l : List (Option Unit × SpannedNode (Sp O))} {l' : List (Option Unit × SpannedNode (Sp O'))}
    (h : LRel (PairRel Eq (R.spd (fun n n' => n.mapSpan R.g = n'.mapSpan R.g'))) l l') :
    R.nds (keepNodes l) (keepNodes l') := by
  induction l generalizing l' with
  | nil => cases l' with
    | nil => exact rfl
    | cons => exact h.elim
  | cons x l ih => cases l' with
    | nil => exact h.elim
    | cons y l' =>
      obtain ⟨⟨h1, h2, h3⟩, hl⟩ := h
      obtain ⟨x1, sp, x2⟩ := x
      obtain ⟨y1, sp', y2⟩ := y
      simp only at h1 h2 h3
      subst h1
      have := ih hl
      cases x1
      · simp only [nds, keepNodes, List.filterMap_cons, mapNodes, List.cons.injEq, Spanned.mk.injEq] at this ⊢
        exact ⟨⟨R.sp_g h2, h3⟩, this⟩
      · simpa only [nds, keepNodes, List.filterMap_cons] using this

theorem sim_nodesRec : ∀ (n m k : Nat), k ≤ n → k ≤ m → R.Sim k R.nds (nodesRec n) (nodesRec m) := by
  intro n
  induction n with
  | zero => intro m k h1 h2 s s' _ h; omega
  | succ n ih =>
    intro m k h1 h2
    cases m with
    | zero => intro s s' _ h; omega
    | succ m =>
      exact sim_pmap (sim_separatedBy (sim_nodeItem (ih m (k - 1) (by omega) (by omega))) (sim_repeated sim_lineSpace))
        (fun _ _ h => keep_map h)

theorem sim_nodes : R.Sim k R.nds nodes nodes := by
  intro s s' hs hk
  exact sim_nodesRec (s.length + 1) (s'.length + 1) (s.length + 1) (Nat.le_refl _) (by rw [st_length hs]; exact Nat.le_refl _) s s' hs (by omega)

theorem sim_document : R.Sim k (fun d d' => d.mapSpan R.g = d'.mapSpan R.g') document document :=
  sim_pmap (sim_thenIgnore sim_nodes sim_endP) (fun _ _ h => congrArg Document.mk h)

/-- Two runs of the driver. -/
theorem run_document {s s'} (h : R.st s s') :
    (∃ d d', runParser document R.eoi s = some (.ok d) ∧ runParser document R.eoi' s' = some (.ok d') ∧
      d.mapSpan R.g = d'.mapSpan R.g') ∨
    (∃ es es', runParser document R.eoi s = some (.error es) ∧ runParser document R.eoi' s' = some (.error es') ∧
      LRel R.er es es') ∨
    (runParser document R.eoi s = none ∧ runParser document R.eoi' s' = none) := by
  have hr := sim_document (R := R) (k := s.length + 1) s s' h (by omega)
  have hlen := hr.errs.length
  unfold runParser
  simp only [← hr.pan]
  split
  · exact Or.inr (Or.inr ⟨rfl, rfl⟩)
  · rcases hr.out with ⟨a, b, alt, alt', g1, g2, g3, g4⟩ | ⟨e, e', g1, g2, g3⟩ <;> simp only [g1, g2]
    · have : (document R.eoi s).errs.isEmpty = (document R.eoi' s').errs.isEmpty := by
        cases h1 : (document R.eoi s).errs <;> cases h2 : (document R.eoi' s').errs <;> simp [h1, h2] at hlen ⊢
      rw [← this]
      split
      · exact Or.inl ⟨a, b, rfl, rfl, g3⟩
      · exact Or.inr (Or.inl ⟨_, _, rfl, rfl, hr.errs.map (fun _ _ h => h.2)⟩)
    · refine Or.inr (Or.inl ⟨_, _, rfl, rfl, ?_⟩)
      have he : LRel R.loc [e] [e'] := ⟨g3, trivial⟩
      exact (hr.errs.append he).map (fun _ _ h => h.2)

end Rel
end Knuffel
