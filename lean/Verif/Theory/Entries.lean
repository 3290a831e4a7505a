import Verif.Theory.Quiet
/-!
# Values, properties and arguments: the parser against the specification
-/

set_option linter.unusedSimpArgs false
set_option linter.unusedSectionVars false

namespace Knuffel

open Cst (StrChar StrLit Num Lit Name Val PropName Entry Item)

variable {O α β γ : Type}

/-! ### Positions -/

/-- The span from position `i` to position `j` of the token list `all`. -/
def spf (eoi : Sp O) (all : List (Tok O)) (i j : Nat) : Sp O := spanSince eoi (all.drop i) (all.drop j)

theorem Takes.drop {s t all : List (Tok O)} {a : Str} {n : Nat} (h : Takes s a t)
    (hs : s = all.drop n) : t = all.drop (n + a.length) := by
  obtain ⟨pre, rfl, rfl⟩ := h
  rw [Nat.add_comm, ← List.drop_drop] 
  have : t = List.drop pre.length (pre ++ t) := by simp
  rw [this, hs]
  simp [chars, List.drop_drop, Nat.add_comm]

section
variable [Offset O]

theorem ok_spanned {p : P O α} {eoi : Sp O} {s x t} :
    Ok (spanned p) eoi s x t ↔ ∃ a, Ok p eoi s a t ∧ x = ⟨spanSince eoi s t, a⟩ := by
  unfold spanned
  rw [ok_mapWithSpan]
  simp only [eq_comm]

theorem fails_spanned {p : P O α} {eoi : Sp O} {s} : Fails (spanned p) eoi s ↔ Fails p eoi s :=
  fails_mapWithSpan
theorem failsC_spanned {p : P O α} {eoi : Sp O} {s} : FailsC (spanned p) eoi s ↔ FailsC p eoi s :=
  failsC_mapWithSpan

/-! ### Values -/

theorem typeNameValue_sound {eoi : Sp O} {all s v t} {n : Nat} (hs : s = all.drop n)
    (h : Ok typeNameValue eoi s v t) :
    ∃ w : Val, w.ty.isSome ∧ w.Ok ∧ Takes s w.text t ∧ v = w.value (spf eoi all) n := by
  unfold typeNameValue at h
  obtain ⟨⟨a, b⟩, hh, rfl⟩ := ok_pmap.1 h; clear h
  obtain ⟨t1, h1, h2⟩ := ok_seq.1 hh
  simp only at h1 h2
  obtain ⟨ty, h1', rfl⟩ := ok_spanned.1 h1; replace h1 := h1'
  obtain ⟨l, h2', rfl⟩ := ok_spanned.1 h2; replace h2 := h2'
  obtain ⟨nm, h3, h4, rfl⟩ := ok_typeName_sound h1
  obtain ⟨lt, h5, h6, rfl⟩ := literal_sound h2
  have e1 := h4.drop hs
  have e2 := h6.drop e1
  refine ⟨⟨some nm, lt⟩, rfl, ⟨h3, h5⟩, h4.trans h6, ?_⟩
  simp only [Val.value, Cst.tyValue, spf]
  rw [← e1, ← e2, ← hs]

theorem value_sound {eoi : Sp O} {all s v t} {n : Nat} (hs : s = all.drop n)
    (h : Ok value eoi s v t) :
    ∃ w : Val, w.Ok ∧ Takes s w.text t ∧ v = w.value (spf eoi all) n := by
  rcases ok_orP.1 h with h | ⟨_, h⟩
  · obtain ⟨w, _, h1⟩ := typeNameValue_sound hs h
    exact ⟨w, h1⟩
  · obtain ⟨l, hh, rfl⟩ := ok_pmap.1 h; clear h
    obtain ⟨l', h2, rfl⟩ := ok_spanned.1 hh
    obtain ⟨lt, h5, h6, rfl⟩ := literal_sound h2
    have e1 := h6.drop hs
    refine ⟨⟨none, lt⟩, ⟨trivial, h5⟩, h6, ?_⟩
    simp only [Val.value, Cst.tyValue, spf, Cst.tyText, List.length_nil, Nat.add_zero]
    rw [← e1, ← hs]

theorem typeNameValue_complete {eoi : Sp O} {all s t} {n : Nat} {w : Val} (hs : s = all.drop n)
    (hw : w.Ok) (hty : w.ty.isSome) (hT : Takes s w.text t)
    (he : EndTok (chars t)) : Ok typeNameValue eoi s (w.value (spf eoi all) n) t := by
  obtain ⟨ty, l⟩ := w
  cases ty with
  | none => simp at hty
  | some nm =>
    obtain ⟨t1, h1, h2⟩ := takes_append.1 hT
    have e1 := h1.drop hs
    have e2 := h2.drop e1
    unfold typeNameValue
    refine ok_pmap.2 ⟨(⟨spanSince eoi s t1, TypeName.fromString nm.value⟩, ⟨spanSince eoi t1 t, l.value⟩),
      ok_seq.2 ⟨t1, ok_spanned.2 ⟨_, typeName_complete hw.1 h1, rfl⟩,
        ok_spanned.2 ⟨_, literal_complete hw.2 h2 (Or.inl he.numEnd'), rfl⟩⟩, ?_⟩
    simp only [Val.value, Cst.tyValue, spf]
    rw [← e1, ← e2, ← hs]

theorem lit_head {l : Lit} (hl : l.Ok) : ∃ c rest, l.text = c :: rest ∧
    (c = '"' ∨ c = 'r' ∨ c = 'n' ∨ c = 't' ∨ c = 'f' ∨ c = '+' ∨ c = '-' ∨ c ∈ Cst.decDigits) := by
  cases l with
  | str s =>
    cases s with
    | quoted l => exact ⟨'"', _, rfl, by simp⟩
    | raw n b => exact ⟨'r', _, rfl, by simp⟩
  | null => exact ⟨'n', _, rfl, by simp⟩
  | bool b =>
    cases b
    · exact ⟨'f', _, rfl, by simp⟩
    · exact ⟨'t', _, rfl, by simp⟩
  | num n =>
    obtain ⟨c, rest, h1, h2⟩ := num_text_head hl
    exact ⟨c, rest, h1, by rcases h2 with h | h | h <;> simp only [h, true_or, or_true]⟩

theorem value_complete {eoi : Sp O} {all s t} {n : Nat} {w : Val} (hs : s = all.drop n)
    (hw : w.Ok) (hT : Takes s w.text t)
    (he : EndTok (chars t)) : Ok value eoi s (w.value (spf eoi all) n) t := by
  unfold value
  by_cases hty : w.ty.isSome
  · exact ok_orP_left (typeNameValue_complete hs hw hty hT he)
  · obtain ⟨ty, l⟩ := w
    cases ty with
    | some nm => simp at hty
    | none =>
      have hT' : Takes s l.text t := hT
      have e1 := hT'.drop hs
      obtain ⟨c, rest, hc, hc'⟩ := lit_head hw.2
      refine ok_orP_right ?_ ?_
      · unfold typeNameValue
        rw [fails_pmap]
        refine fails_seq_left (fails_spanned.2 (failsC_typeName ?_).fails)
        rw [hT'.chars, hc]
        simp only [List.cons_append, List.head?_cons, ne_eq, Option.some.injEq]
        rintro rfl
        revert hc'; decide
      · refine ok_pmap.2 ⟨_, ok_spanned.2 ⟨_, literal_complete hw.2 hT' (Or.inl he.numEnd'), rfl⟩, ?_⟩
        simp only [Val.value, Cst.tyValue, spf, Cst.tyText, List.length_nil, Nat.add_zero]
        rw [← e1, ← hs]

theorem fails_value_not {eoi : Sp O} {s} (h : (chars s).head? ≠ some '=') :
    Ok optValue eoi s none s := by
  unfold optValue
  exact ok_orNot.2 (Or.inr ⟨rfl, rfl, fails_ignoreThen_left (fails_just_head.2 h)⟩)

theorem optValue_sound {eoi : Sp O} {all s v t} {n : Nat} (hs : s = all.drop n)
    (h : Ok optValue eoi s (some v) t) :
    ∃ w : Val, w.Ok ∧ Takes s ('=' :: w.text) t ∧ v = w.value (spf eoi all) (n + 1) := by
  unfold optValue at h
  rcases ok_orNot.1 h with ⟨a, ha, hh⟩ | ⟨h, _⟩
  · injection ha with ha; subst ha; clear h
    obtain ⟨_, t1, h1, h2⟩ := ok_ignoreThen.1 hh
    obtain ⟨h1', rfl⟩ := ok_just_takes.1 h1
    have e1 := h1'.drop hs
    obtain ⟨w, h3, h4, h5⟩ := value_sound e1 h2
    exact ⟨w, h3, h1'.trans h4, h5⟩
  · simp at h

theorem optValue_none {eoi : Sp O} {s t} (h : Ok optValue eoi s none t) : t = s := by
  unfold optValue at h
  rcases ok_orNot.1 h with ⟨a, ha, hh⟩ | ⟨_, h, _⟩
  · simp at ha
  · exact h

theorem optValue_complete {eoi : Sp O} {all s t} {n : Nat} {w : Val} (hs : s = all.drop n)
    (hw : w.Ok) (hT : Takes s ('=' :: w.text) t) (he : EndTok (chars t)) :
    Ok optValue eoi s (some (w.value (spf eoi all) (n + 1))) t := by
  obtain ⟨sp, s1, rfl, h1⟩ := takes_cons.1 hT
  unfold optValue
  refine ok_orNot.2 (Or.inl ⟨_, rfl, ok_ignoreThen.2 ⟨'=', s1, ok_just.2 ⟨sp, rfl, rfl⟩, ?_⟩⟩)
  exact value_complete ((Takes.single (sp := sp)).drop hs) hw h1 he

/-! ### Entries -/

/-- The meaning of an entry. -/
def entryValue {S : Type} (f : Nat → Nat → S) (n : Nat) : Entry → PropOrArg S
  | .arg v => .arg (v.value f n)
  | .prop nm v => .prop ⟨f n (n + nm.text.length), nm.value⟩ (v.value f (n + nm.text.length + 1))

theorem keyword_prefix_of_literal {eoi : Sp O} {s : List (Tok O)} {k : Str} (hk : k ∈ Cst.keywords)
    (hp : k <+: chars s) : ∃ l t, Ok literal eoi s l t ∧ Takes s k t ∧ (l = .null ∨ ∃ b, l = .bool b) := by
  obtain ⟨w, hw⟩ := hp
  obtain ⟨t, hT, _⟩ := takes_of_chars hw.symm
  simp only [Cst.keywords, List.mem_cons, List.not_mem_nil, or_false] at hk
  have hstr : ∀ c, k.head? = some c → c ≠ '"' → c ≠ 'r' → Fails (pmap Literal.string (string : P O Str)) eoi s := by
    intro c hc h1 h2
    have hs : (chars s).head? = some c := by
      obtain ⟨k', rfl⟩ := head_eq_some.1 hc
      rw [hT.chars]; rfl
    rw [fails_pmap]
    refine (failsC_string ?_ ?_).fails
    · rw [hs]; simpa using h1
    · intro h
      have := rawStart_head h
      rw [hs] at this
      injection this with this
      exact h2 this
  rcases hk with rfl | rfl | rfl
  · exact ⟨.bool true, t, ok_choice_cons.2 (Or.inr ⟨hstr 't' rfl (by decide) (by decide),
      ok_choice_cons.2 (Or.inl (keyword_complete (l := .bool true) (by simp) hT))⟩), hT, by simp⟩
  · exact ⟨.bool false, t, ok_choice_cons.2 (Or.inr ⟨hstr 'f' rfl (by decide) (by decide),
      ok_choice_cons.2 (Or.inl (keyword_complete (l := .bool false) (by simp) hT))⟩), hT, by simp⟩
  · exact ⟨.null, t, ok_choice_cons.2 (Or.inr ⟨hstr 'n' rfl (by decide) (by decide),
      ok_choice_cons.2 (Or.inl (keyword_complete (l := .null) (by simp) hT))⟩), hT, by simp⟩

theorem identShape_tail {k v : Str} {c : Char} {rest : Str} (hk : k ∈ Cst.keywords)
    (hv : Cst.IdentShape v) (h : v = k ++ c :: rest) : Cst.IdentChar c := by
  simp only [Cst.keywords, List.mem_cons, List.not_mem_nil, or_false] at hk
  rcases hk with rfl | rfl | rfl
  all_goals
    subst h
    exact hv.2 c (by simp)

theorem propOrArgInner_sound {eoi : Sp O} {all s v t} {n : Nat} (hs : s = all.drop n)
    (hb : (chars s).head? ≠ some '\ufeff') (h : Ok propOrArgInner eoi s v t) :
    ∃ e : Entry, e.Ok ∧ Takes s e.text t ∧ v = entryValue (spf eoi all) n e := by
  unfold propOrArgInner at h
  rcases ok_choice_cons.1 h with h | ⟨hf, h⟩
  · obtain ⟨⟨a, o⟩, hh, hl⟩ := ok_tryMap.1 h; clear h
    obtain ⟨t1, h1, h2⟩ := ok_seq.1 hh
    simp only at h1 h2
    obtain ⟨l, h1', rfl⟩ := ok_spanned.1 h1; replace h1 := h1'
    obtain ⟨lt, h5, h6, rfl⟩ := literal_sound h1
    have e1 := h6.drop hs
    cases o with
    | none =>
      have := optValue_none h2; subst this
      have : v = .arg ⟨none, ⟨spanSince eoi s t, lt.value⟩⟩ := by
        cases hlv : lt.value <;> simp [literalEntry, hlv] at hl <;> rw [hl]
      subst this
      refine ⟨.arg ⟨none, lt⟩, ⟨trivial, h5⟩, h6, ?_⟩
      simp only [entryValue, Val.value, Cst.tyValue, spf, Cst.tyText, List.length_nil, Nat.add_zero]
      rw [← e1, ← hs]
    | some x =>
      obtain ⟨w, h7, h8, rfl⟩ := optValue_sound e1 h2
      cases lt with
      | str sl =>
        simp [literalEntry, Lit.value] at hl
        refine ⟨.prop (.str sl) w, ⟨h5, h7⟩, h6.trans h8, ?_⟩
        rw [← hl]
        simp only [entryValue, spf, PropName.text, PropName.value]
        simp only [Lit.text] at e1
        rw [← e1, ← hs]
        rfl
      | null => simp [literalEntry, Lit.value] at hl
      | bool b => simp [literalEntry, Lit.value] at hl
      | num m =>
        cases m with
        | dec sg d ds fr ex =>
          simp only [Lit.value, Num.value] at hl
          split at hl <;> simp [literalEntry] at hl
        | radix sg r d ds => simp [literalEntry, Lit.value, Num.value] at hl
  rcases ok_choice_cons.1 h with h | ⟨_, h⟩
  · obtain ⟨⟨a, o⟩, hh, rfl⟩ := ok_pmap.1 h; clear h
    obtain ⟨h1, h2⟩ := ok_validate.1 hh
    cases o with
    | none => simp [identEntryErrs] at h2
    | some x =>
      obtain ⟨t1, h1, h3⟩ := ok_seq.1 h1
      simp only at h1 h3
      obtain ⟨nm, h1', rfl⟩ := ok_spanned.1 h1; replace h1 := h1'
      obtain ⟨h4, h5, h6⟩ := bareIdent_sound h1
      have e1 := h5.drop hs
      obtain ⟨w, h7, h8, rfl⟩ := optValue_sound e1 h3
      refine ⟨.prop (.bare nm) w, ⟨⟨h4, ?_, ?_⟩, h7⟩, h5.trans h8, ?_⟩
      · -- a name that begins with a keyword would have been read as that keyword
        intro k hk hp
        obtain ⟨rest, hr⟩ := hp
        cases rest with
        | nil => exact h4.2 (by rw [← hr]; simpa using hk)
        | cons c rest =>
          have hcs : chars s = k ++ (c :: rest ++ chars t1) := by rw [h5.chars, ← hr]; simp
          obtain ⟨l, t2, h9, h10, h11⟩ := keyword_prefix_of_literal (eoi := eoi) hk ⟨_, hcs.symm⟩
          have hc2 : chars t2 = c :: rest ++ chars t1 := by
            have := h10.chars; rw [hcs] at this; exact (List.append_cancel_left this).symm
          have hcid := identShape_tail hk h4.1 hr.symm
          have hne : (chars t2).head? ≠ some '=' := by
            rw [hc2]
            simp only [List.cons_append, List.head?_cons, ne_eq, Option.some.injEq]
            rintro rfl
            exact hcid.2.1 (by decide)
          have : Ok (tryMap literalEntry (seq (spanned literal) optValue)) eoi s
              (.arg ⟨none, ⟨spanSince eoi s t2, l⟩⟩) t2 := by
            refine ok_tryMap.2 ⟨(⟨spanSince eoi s t2, l⟩, none), ok_seq.2 ⟨t2, ok_spanned.2 ⟨l, h9, rfl⟩,
              fails_value_not hne⟩, ?_⟩
            rcases h11 with rfl | ⟨b, rfl⟩ <;> rfl
          exact this.not_fails hf
      · intro hh
        apply hb
        rw [h5.chars]
        obtain ⟨w, rfl⟩ := head_eq_some.1 hh
        rfl
      · simp only [identEntry, entryValue, spf, PropName.text, PropName.value]
        rw [← e1, ← hs]
  rcases ok_choice_cons.1 h with h | ⟨_, h⟩
  · obtain ⟨a, hh, rfl⟩ := ok_pmap.1 h; clear h
    obtain ⟨w, _, h1, h2, rfl⟩ := typeNameValue_sound hs hh
    exact ⟨.arg w, h1, h2, rfl⟩
  · simp at h

theorem append_cons_eq {a b x y : Str} {c d : Char} (h : a ++ c :: x = b ++ d :: y)
    (hc : c ∉ b) (hd : d ∉ a) : c = d := by
  induction a generalizing b with
  | nil =>
    cases b with
    | nil => simpa using (List.cons.inj h).1
    | cons e b => exact absurd (by simp [(List.cons.inj h).1]) hc
  | cons e a ih =>
    cases b with
    | nil => exact absurd (by simp [(List.cons.inj h).1]) hd
    | cons e' b =>
      exact ih (List.cons.inj h).2 (fun h => hc (by simp [h])) (fun h => hd (by simp [h]))

theorem identShape_mem {v : Str} (hv : Cst.IdentShape v) {c : Char} (hc : c ∈ v) :
    Cst.IdentChar c ∨ c = '!' := by
  match v, hv with
  | [d], hv =>
    simp at hc; subst hc
    rcases hv with rfl | rfl | h
    · left; rw [← isIdChar_iff]; decide
    · left; rw [← isIdChar_iff]; decide
    · exact h.1
  | d :: e :: rest, ⟨h, hr⟩ =>
    simp at hc
    rcases h with ⟨h1, h2⟩ | ⟨_, _, h3, h4⟩
    · rcases hc with rfl | rfl | hc
      · left; rw [← isIdChar_iff]; rcases h1 with rfl | rfl <;> decide
      · exact h2.1
      · exact Or.inl (hr c hc)
    · rcases hc with rfl | rfl | hc
      · exact h3.1
      · exact Or.inl h4
      · exact Or.inl (hr c hc)

theorem identShape_not_mem {v : Str} (hv : Cst.IdentShape v) {c : Char} (hc : c ∈ Cst.punct) : c ∉ v := by
  intro h
  rcases identShape_mem hv h with h | rfl
  · exact h.2.1 hc
  · revert hc; decide

theorem identShape_ne_nil {v : Str} (hv : Cst.IdentShape v) : v ≠ [] := by
  rintro rfl; exact hv

theorem identEnd_eq {f : Str} : IdentEnd ('=' :: f) := by
  intro c hc
  simp at hc; subst hc
  refine ⟨fun h => h.2.1 (by decide), by decide⟩

/-- A bare property name does not begin a literal. -/
theorem failsC_literal_prop {eoi : Sp O} {s} {v f : Str} (hv : Cst.BareIdent v)
    (hk : ∀ k ∈ Cst.keywords, ¬ k <+: v) (hs : chars s = v ++ '=' :: f) : FailsC literal eoi s := by
  refine failsC_literal ?_ ?_ ?_ ?_
  · intro h
    rw [hs] at h
    rcases head_append h with h | ⟨h, _⟩
    · obtain ⟨w, rfl⟩ := head_eq_some.1 h
      exact identShape_not_mem hv.1 (c := '"') (by decide) (by simp)
    · exact identShape_ne_nil hv.1 h
  · rintro ⟨n, w, hw⟩
    rw [hs] at hw
    have : '=' = '"' := by
      refine append_cons_eq (a := v) (b := 'r' :: List.replicate n '#') (x := f) (y := w) ?_ ?_ ?_
      · rw [← hw]; simp
      · simp
      · exact identShape_not_mem hv.1 (by decide)
    revert this; decide
  · rintro k hkm ⟨w, hw⟩
    rw [hs] at hw
    rcases List.append_eq_append_iff.1 hw with ⟨a, h1, h2⟩ | ⟨a, h1, h2⟩
    · exact hk k hkm ⟨a, h1.symm⟩
    · cases a with
      | nil => exact hk k hkm ⟨[], by rw [h1]; simp⟩
      | cons c a =>
        have : c = '=' := by simpa using (List.cons.inj h2).1.symm
        subst this
        have : '=' ∈ k := by rw [h1]; simp
        revert this hkm
        simp only [Cst.keywords, List.mem_cons, List.not_mem_nil, or_false]
        rintro (rfl | rfl | rfl) <;> decide
  · rw [hs]
    exact noNum_ident hv.1 identEnd_eq

theorem EndTok.not_eq {s : Str} (h : EndTok s) : s.head? ≠ some '=' := by
  intro hc; have := h _ hc; revert this; decide

theorem propOrArgInner_complete {eoi : Sp O} {all s t} {n : Nat} {e : Entry} (hs : s = all.drop n)
    (he : e.Ok) (hT : Takes s e.text t) (hend : EndTok (chars t)) :
    Ok propOrArgInner eoi s (entryValue (spf eoi all) n e) t := by
  unfold propOrArgInner
  cases e with
  | arg v =>
    by_cases hty : v.ty.isSome
    · have h := typeNameValue_complete (eoi := eoi) hs he hty hT hend
      have hh : (chars s).head? = some '(' := by
        rw [hT.chars]
        obtain ⟨ty, l⟩ := v
        cases ty with
        | none => simp at hty
        | some nm => simp [Entry.text, Val.text, Cst.tyText]
      refine ok_choice_cons.2 (Or.inr ⟨?_, ok_choice_cons.2 (Or.inr ⟨?_, ok_choice_cons.2 (Or.inl
        (ok_pmap.2 ⟨_, h, rfl⟩))⟩)⟩)
      · refine (failsC_tryMap_of (failsC_seq_left (failsC_spanned.2 (failsC_literal ?_ ?_ ?_ ?_)))).fails
        · rw [hh]; decide
        · intro h; rw [rawStart_head h] at hh; revert hh; decide
        · intro k hk
          simp only [Cst.keywords, List.mem_cons, List.not_mem_nil, or_false] at hk
          rcases hk with rfl | rfl | rfl
          · exact not_prefix_head (c := 't') rfl hh (by decide)
          · exact not_prefix_head (c := 'f') rfl hh (by decide)
          · exact not_prefix_head (c := 'n') rfl hh (by decide)
        · intro c rest hc
          rw [hc] at hh
          injection hh with hh; subst hh
          exact ⟨by decide, by simp⟩
      · rw [fails_pmap, fails_validate]
        refine fails_seq_left (fails_spanned.2 (failsC_bareIdent ?_).fails)
        intro c hc
        rw [hc] at hh
        injection hh with hh; subst hh
        rw [← isIdSansDig_iff]; decide
    · obtain ⟨ty, l⟩ := v
      cases ty with
      | some nm => simp at hty
      | none =>
        have hT' : Takes s l.text t := hT
        have e1 := hT'.drop hs
        refine ok_choice_cons.2 (Or.inl (ok_tryMap.2 ⟨(⟨spanSince eoi s t, l.value⟩, none),
          ok_seq.2 ⟨t, ok_spanned.2 ⟨_, literal_complete he.2 hT' (Or.inl hend.numEnd'), rfl⟩,
            fails_value_not hend.not_eq⟩, ?_⟩))
        simp only [entryValue, Val.value, Cst.tyValue, spf, Cst.tyText, List.length_nil, Nat.add_zero]
        rw [← e1, ← hs]
        cases l.value <;> rfl
  | prop nm v =>
    obtain ⟨hnm, hv⟩ := he
    obtain ⟨t1, h1, h2⟩ := takes_append.1 hT
    have e1 := h1.drop hs
    have h3 := optValue_complete (eoi := eoi) e1 hv h2 hend
    cases nm with
    | bare nm =>
      refine ok_choice_cons.2 (Or.inr ⟨?_, ok_choice_cons.2 (Or.inl (ok_pmap.2
        ⟨(⟨spanSince eoi s t1, nm⟩, _), ok_validate.2 ⟨ok_seq.2 ⟨t1, ok_spanned.2
          ⟨nm, bareIdent_complete hnm.1 h1 ?_, rfl⟩, h3⟩, rfl⟩, ?_⟩))⟩)
      · refine (failsC_tryMap_of (failsC_seq_left (failsC_spanned.2
          (failsC_literal_prop hnm.1 hnm.2.1 (f := v.text ++ chars t) ?_)))).fails
        rw [h1.chars, h2.chars]; simp [PropName.text]
      · rw [h2.chars]; exact identEnd_eq
      · simp only [identEntry, entryValue, spf, PropName.value]
        rw [← e1, ← hs]
    | str sl =>
      refine ok_choice_cons.2 (Or.inl (ok_tryMap.2 ⟨(⟨spanSince eoi s t1, .string sl.value⟩, _),
        ok_seq.2 ⟨t1, ok_spanned.2 ⟨_, literal_complete (l := .str sl) hnm h1 (Or.inr ⟨sl, rfl⟩), rfl⟩,
          h3⟩, ?_⟩))
      simp only [literalEntry, entryValue, spf, PropName.value]
      rw [← e1, ← hs]

/-- The first character of an entry. -/
theorem entry_head {e : Entry} (he : e.Ok) : ∃ c rest, e.text = c :: rest ∧
    (c = '(' ∨ c = '"' ∨ Cst.IdentStart c ∨ c ∈ Cst.decDigits) ∧ c ≠ '\ufeff' := by
  have hlit : ∀ l : Lit, l.Ok → ∃ c rest, l.text = c :: rest ∧
    (c = '(' ∨ c = '"' ∨ Cst.IdentStart c ∨ c ∈ Cst.decDigits) ∧ c ≠ '\ufeff' := by
    intro l hl
    obtain ⟨c, rest, h1, h2⟩ := lit_head hl
    have h3 : c ≠ '\ufeff' := by rintro rfl; revert h2; decide
    refine ⟨c, rest, h1, ?_, h3⟩
    rcases h2 with rfl | rfl | rfl | rfl | rfl | rfl | rfl | h
    · simp
    all_goals first
      | exact Or.inr (Or.inr (Or.inr h))
      | (right; right; left; rw [← isIdSansDig_iff]; decide)
  cases e with
  | arg v =>
    obtain ⟨ty, l⟩ := v
    cases ty with
    | none => exact hlit l he.2
    | some nm => exact ⟨'(', _, rfl, by simp, by decide⟩
  | prop nm v =>
    cases nm with
    | bare nm =>
      obtain ⟨⟨h1, _, h2⟩, _⟩ := he
      cases nm with
      | nil => exact absurd h1.1 id
      | cons c rest =>
        refine ⟨c, _, rfl, ?_, by simpa using h2⟩
        right; right; left
        refine ⟨identShape_mem h1.1 (by simp), ?_⟩
        cases rest with
        | nil => rcases h1.1 with rfl | rfl | h
                 · decide
                 · decide
                 · exact h.2
        | cons d rest =>
          rcases h1.1.1 with ⟨rfl | rfl, _⟩ | ⟨_, _, h, _⟩
          · decide
          · decide
          · exact h.2
    | str sl =>
      obtain ⟨c, rest, h1, h2⟩ := hlit (.str sl) he.1
      refine ⟨c, rest ++ '=' :: v.text, ?_, h2⟩
      simp only [Entry.text, PropName.text]
      simp only [Lit.text] at h1
      rw [h1]; rfl

/-- Characters that cannot begin space, a comment or a separator. -/
def Solid (c : Char) : Prop :=
  c ∉ Cst.wsChars ∧ c ∉ Cst.newlineChars ∧ c ≠ '/' ∧ c ≠ '\\' ∧ c ≠ '{' ∧ c ≠ '}' ∧ c ≠ ';' ∧ c ≠ '='

theorem identStart_solid {c : Char} (h : Cst.IdentStart c) (hf : c ≠ '\ufeff') : Solid c := by
  rcases h.1 with h1 | rfl
  · obtain ⟨h1, h2, h3, h4⟩ := h1
    refine ⟨?_, h4, ?_, ?_, ?_, ?_, ?_, ?_⟩
    · simp only [Cst.wsChars, List.mem_append, not_or, List.mem_cons, List.not_mem_nil, not_false_eq_true,
        and_true]
      refine ⟨⟨?_, ?_, hf⟩, h3⟩
      · rintro rfl; revert h1; decide
      · rintro rfl; revert h1; decide
    all_goals (rintro rfl; exact h2 (by decide))
  · unfold Solid; decide

theorem entry_solid {e : Entry} (he : e.Ok) : ∃ c rest, e.text = c :: rest ∧ Solid c := by
  obtain ⟨c, rest, h1, h2, h3⟩ := entry_head he
  refine ⟨c, rest, h1, ?_⟩
  rcases h2 with rfl | rfl | h | h
  · unfold Solid; decide
  · unfold Solid; decide
  · exact identStart_solid h h3
  · have : ∀ c ∈ Cst.decDigits, Solid c := by unfold Solid; decide
    exact this c h

theorem Solid.noSpace {c : Char} {f : Str} (h : Solid c) : NoSpace (c :: f) :=
  ⟨noWs_lit h.1 h.2.2.1, by simpa using h.2.2.2.1⟩

/-- A character at which no entry can begin. -/
theorem fails_propOrArgInner {eoi : Sp O} {s}
    (h : ∀ c, (chars s).head? = some c → ¬ Cst.IdentStart c ∧ c ∉ Cst.decDigits ∧ c ≠ '"' ∧ c ≠ '(') :
    FailsC propOrArgInner eoi s := by
  have hn : NoName (chars s) := fun c hc => ⟨(h c hc).1, (h c hc).2.1, (h c hc).2.2.1⟩
  have hlit : FailsC literal eoi s := by
    refine failsC_literal (fun hc => (h _ hc).2.2.1 rfl) (noName_noRaw hn) ?_ (noName_noNum hn)
    rintro k hk ⟨w, hw⟩
    have hkk : ∃ c, k.head? = some c ∧ Cst.IdentStart c := by
      simp only [Cst.keywords, List.mem_cons, List.not_mem_nil, or_false] at hk
      rcases hk with rfl | rfl | rfl
      · exact ⟨'t', rfl, by rw [← isIdSansDig_iff]; decide⟩
      · exact ⟨'f', rfl, by rw [← isIdSansDig_iff]; decide⟩
      · exact ⟨'n', rfl, by rw [← isIdSansDig_iff]; decide⟩
    obtain ⟨c, h1, h2⟩ := hkk
    obtain ⟨k', rfl⟩ := head_eq_some.1 h1
    exact (h c (by rw [← hw]; rfl)).1 h2
  unfold propOrArgInner
  rw [failsC_choice]
  intro p hp
  simp only [List.mem_cons, List.not_mem_nil, or_false] at hp
  rcases hp with rfl | rfl | rfl
  · exact (failsC_tryMap_of (failsC_seq_left (failsC_spanned.2 hlit))).fails
  · rw [fails_pmap, fails_validate]
    exact fails_seq_left (fails_spanned.2 (failsC_bareIdent (fun c hc => (h c hc).1)).fails)
  · rw [fails_pmap]; unfold typeNameValue; rw [fails_pmap]
    exact fails_seq_left (fails_spanned.2 (failsC_typeName (fun hc => (h _ hc).2.2.2 rfl)).fails)

/-! ### Entries with the space before them -/

/-- The meaning of an item at position `n`. -/
def itemValue {S : Type} (f : Nat → Nat → S) (n : Nat) (i : Item) : PropOrArg S :=
  match i.dash with
  | none => entryValue f (n + (Cst.spacesText i.before ++ Cst.dashText i.dash).length) i.entry
  | some _ => .ignore

theorem spaceEntry_sound {eoi : Sp O} {all s v t} {n : Nat} (hs : s = all.drop n)
    (h : Ok spaceEntry eoi s v t) :
    ∃ i : Item, i.Ok false (chars t) ∧ Takes s i.text t ∧ v = itemValue (spf eoi all) n i := by
  unfold spaceEntry at h
  obtain ⟨_, t1, h1, h2⟩ := ok_ignoreThen.1 h
  obtain ⟨l, h3, h4, h5, h6⟩ := nodeSpaces1_sound h1
  have e1 := h5.drop hs
  rcases ok_orP.1 h2 with h2 | ⟨_, h2⟩
  · obtain ⟨x, hh, rfl⟩ := ok_pmap.1 h2; clear h2
    obtain ⟨_, t2, h7, h8⟩ := ok_ignoreThen.1 hh
    obtain ⟨_, t3, h9, h10⟩ := ok_ignoreThen.1 h7
    rw [ok_beginComment] at h9
    obtain ⟨l', h11, h12, h13⟩ := nodeSpaces_sound h10
    have e3 := h9.drop e1
    have e2 := h12.drop e3
    obtain ⟨e, h14, h15, rfl⟩ := propOrArgInner_sound e2 (fails_nodeSpace_feff h13) h8
    refine ⟨⟨l, some l', e⟩, ⟨h3, ?_, ?_, h14⟩, ?_, rfl⟩
    · simp only [Cst.dashText]
      rw [h9.chars, h12.chars, h15.chars] at h4
      simpa using h4
    · rw [h15.chars] at h11
      exact h11
    · have := h5.trans (h9.trans (h12.trans h15))
      simpa [Item.text, Cst.dashText] using this
  · obtain ⟨e, h14, h15, rfl⟩ := propOrArgInner_sound e1 (fails_nodeSpace_feff h6) h2
    refine ⟨⟨l, none, e⟩, ⟨h3, ?_, trivial, h14⟩, ?_, ?_⟩
    · rw [h15.chars] at h4
      simpa [Cst.dashText] using h4
    · have := h5.trans h15
      simpa [Item.text, Cst.dashText] using this
    · simp [itemValue, Cst.dashText]

theorem item_complete {eoi : Sp O} {all s t} {n : Nat} {i : Item} (hs : s = all.drop n)
    (hi : i.Ok true (chars t)) (hT : Takes s i.text t) (hend : EndTok (chars t)) :
    Ok spaceEntry eoi s (itemValue (spf eoi all) n i) t := by
  obtain ⟨l, d, e⟩ := i
  obtain ⟨h1, h2, h3, h4⟩ := hi
  simp only at h1 h2 h3 h4
  obtain ⟨c, rest, hc, hsol⟩ := entry_solid h4
  unfold spaceEntry
  cases d with
  | none =>
    have hT' : Takes s (Cst.spacesText l ++ e.text) t := by simpa [Item.text, Cst.dashText] using hT
    obtain ⟨t1, h5, h6⟩ := takes_append.1 hT'
    have hct : chars t1 = c :: (rest ++ chars t) := by rw [h6.chars, hc]; rfl
    have e1 := h5.drop hs
    obtain ⟨as, h7⟩ := ok_nodeSpaces1 (eoi := eoi) (l := l) (s := s) (t := t1)
      (by rw [h6.chars]; simpa [Cst.dashText] using h2) h1 h5
      (failsC_nodeSpace (by rw [hct]; exact hsol.noSpace)).fails
    refine ok_ignoreThen.2 ⟨as, t1, h7, ok_orP_right ?_ ?_⟩
    · rw [fails_pmap]
      refine fails_ignoreThen_left (fails_ignoreThen_left (failsC_beginComment ?_).fails)
      rw [hct]
      exact not_prefix_head (c := '/') rfl rfl (fun h => hsol.2.2.1 h.symm)
    · have := propOrArgInner_complete (eoi := eoi) e1 h4 h6 hend
      simpa [itemValue, Cst.dashText] using this
  | some l' =>
    have hT' : Takes s (Cst.spacesText l ++ (['/', '-'] ++ (Cst.spacesText l' ++ e.text))) t := by
      simpa [Item.text, Cst.dashText] using hT
    obtain ⟨t1, h5, hT'⟩ := takes_append.1 hT'
    obtain ⟨t2, h6, hT'⟩ := takes_append.1 hT'
    obtain ⟨t3, h7, h8⟩ := takes_append.1 hT'
    have hct : chars t3 = c :: (rest ++ chars t) := by rw [h8.chars, hc]; rfl
    have e3 := h7.drop (h6.drop (h5.drop hs))
    have hct1 : chars t1 = '/' :: '-' :: chars t2 := by rw [h6.chars]; rfl
    obtain ⟨as, h9⟩ := ok_nodeSpaces1 (eoi := eoi) (l := l) (s := s) (t := t1)
      (by rw [hct1, h7.chars, h8.chars]; simpa [Cst.dashText] using h2) h1 h5
      (failsC_nodeSpace (by rw [hct1]; exact ⟨noWs_slash (by decide), by simp⟩)).fails
    obtain ⟨as', h10⟩ := ok_nodeSpaces (eoi := eoi) (l := l') (s := t2) (t := t3)
      (by rw [h8.chars]; exact h3) h7
      (failsC_nodeSpace (by rw [hct]; exact hsol.noSpace)).fails
    refine ok_ignoreThen.2 ⟨as, t1, h9, ok_orP_left (ok_pmap.2 ⟨_, ok_ignoreThen.2 ⟨as', t3,
      ok_ignoreThen.2 ⟨(), t2, ok_beginComment.2 h6, h10⟩,
      propOrArgInner_complete (eoi := eoi) e3 h4 h8 hend⟩, rfl⟩)⟩

/-- The meaning of a list of items. -/
def itemsValue {S : Type} (f : Nat → Nat → S) : Nat → List Item → List (PropOrArg S)
  | _, [] => []
  | n, i :: l => itemValue f n i :: itemsValue f (n + i.text.length) l

theorem collectItems_eq {S : Type} (f : Nat → Nat → S) (l : List Item) (n : Nat)
    (args : List (Value S)) (props : List (Spanned Str S × Value S)) :
    collectItems (itemsValue f n l) (args, props) =
      (args ++ Cst.itemsArgs f n l,
       (Cst.itemsProps f n l).foldl (fun m kv => propInsert kv.1 kv.2 m) props) := by
  induction l generalizing n args props with
  | nil => simp [itemsValue, collectItems, Cst.itemsArgs, Cst.itemsProps]
  | cons i l ih =>
    obtain ⟨b, d, e⟩ := i
    cases d with
    | some d' =>
      simp only [itemsValue, itemValue, collectItems, Cst.itemsArgs, Cst.itemsProps]
      rw [ih]
    | none =>
      cases e with
      | arg v =>
        simp only [itemsValue, itemValue, entryValue, collectItems, Cst.itemsArgs, Cst.itemsProps]
        rw [ih]
        simp
      | prop nm v =>
        simp only [itemsValue, itemValue, entryValue, collectItems, Cst.itemsArgs, Cst.itemsProps]
        rw [ih]
        simp

theorem reps_spaceEntry_sound {eoi : Sp O} {all s vs t} (h : Reps spaceEntry eoi s vs t) :
    ∀ {n : Nat}, s = all.drop n →
    ∃ l : List Item, Cst.ItemsOk false (chars t) l ∧ Takes s (Cst.itemsText l) t ∧
      vs = itemsValue (spf eoi all) n l := by
  induction h with
  | nil => intro n _; exact ⟨[], trivial, .nil, rfl⟩
  | cons h1 _ _ ih =>
    intro n hs
    obtain ⟨i, h2, h3, rfl⟩ := spaceEntry_sound hs h1
    obtain ⟨l, h4, h5, rfl⟩ := ih (h3.drop hs)
    refine ⟨i :: l, ⟨?_, h4⟩, h3.trans h5, rfl⟩
    rw [← h5.chars]
    exact h2

theorem space_head {x : Cst.Space} {f : Str} {b} (h : x.Ok b f) :
    ∃ c rest, x.text = c :: rest ∧ c ∈ endChars := by
  cases x with
  | ws w =>
    cases w with
    | char c => exact ⟨c, [], rfl, by simp only [endChars, List.mem_append]; exact Or.inl (Or.inl h)⟩
    | block b => exact ⟨'/', _, rfl, by decide⟩
  | esc l e => exact ⟨'\\', _, rfl, by decide⟩

theorem endTok_spaces {l : List Cst.Space} {f : Str} {b} (h : Cst.SpacesOk b f l) (hf : EndTok f) :
    EndTok (Cst.spacesText l ++ f) := by
  cases l with
  | nil => exact hf
  | cons x l =>
    obtain ⟨c, rest, h1, h2⟩ := space_head h.1
    intro c' hc'
    simp only [Cst.spacesText, List.flatMap_cons, h1] at hc'
    simp at hc'
    subst hc'
    exact h2

theorem endTok_items {l : List Item} {f : Str} {b} (h : Cst.ItemsOk b f l) (hf : EndTok f) :
    EndTok (Cst.itemsText l ++ f) := by
  cases l with
  | nil => exact hf
  | cons x l =>
    obtain ⟨⟨h1, h2, _⟩, _⟩ := h
    obtain ⟨sp, d, e⟩ := x
    cases sp with
    | nil => exact absurd rfl h1
    | cons y ys =>
      obtain ⟨c, rest, h3, h4⟩ := space_head h2.1
      intro c' hc'
      simp only [Cst.itemsText, List.flatMap_cons, Item.text, Cst.spacesText, h3] at hc'
      simp at hc'
      subst hc'
      exact h4

theorem reps_spaceEntry_complete {eoi : Sp O} {all s t} {l : List Item} {n : Nat} (hs : s = all.drop n)
    (hl : Cst.ItemsOk true (chars t) l) (hT : Takes s (Cst.itemsText l) t) (hend : EndTok (chars t)) :
    Reps spaceEntry eoi s (itemsValue (spf eoi all) n l) t := by
  induction l generalizing s n with
  | nil => have := takes_nil.1 hT; subst this; exact .nil _
  | cons i l ih =>
    obtain ⟨s1, h1, h2⟩ := (takes_append (a := i.text) (b := Cst.itemsText l)).1 hT
    obtain ⟨hi, hl⟩ := hl
    have h := item_complete (eoi := eoi) hs (by rw [h2.chars]; exact hi) h1
      (by rw [h2.chars]; exact endTok_items hl hend)
    exact .cons h (eats_spaceEntry.consumes.ok h) (ih (h1.drop hs) hl h2)

end

end Knuffel
