import Verif.Theory.Space
/-!
# String literals: the parser against the specification
-/

set_option linter.unusedSimpArgs false
set_option linter.unusedSectionVars false

namespace Knuffel

open Cst (StrChar StrLit)

variable {O α β γ : Type}

/-- At most the maximal number of elements. -/
theorem repeatedB_le_max {p : P O α} {mn m : Nat} {eoi : Sp O} {s as t}
    (h : Ok (repeatedB mn (some m) p) eoi s as t) : as.length ≤ m := by
  obtain ⟨_, ⟨alt, h8⟩, _⟩ := h
  have key : ∀ fuel (outs : List α) errs alt0 pan (s' : List (Tok O)) as' alt',
      outs.length ≤ m → (repGo p mn (some m) eoi fuel outs errs alt0 pan s').out
        = .ok (as', alt') → as'.length ≤ m := by
    intro fuel
    induction fuel with
    | zero => intro outs errs alt0 pan s' as' alt' ho h; simp [repGo] at h; rw [← h.1]; exact ho
    | succ fuel ih =>
      intro outs errs alt0 pan s' as' alt' ho h
      rw [repGo] at h
      split at h
      · simp at h; rw [← h.1]; exact ho
      · rename_i hne
        have hne' : outs.length ≠ m := by intro he; exact hne (by rw [he])
        dsimp only at h
        split at h
        · split at h
          · exact ih _ _ _ _ _ _ _ (by simp; omega) h
          · simp at h; rw [← h.1]; simp; omega
        · split at h
          · simp at h
          · simp at h; rw [← h.1]; exact ho
  exact key (s.length + 1) [] [] none false s as alt (Nat.zero_le m) h8

theorem reps_just {c : Char} {eoi : Sp O} {s as t} :
    Reps (just c) eoi s as t ↔ as = List.replicate as.length c ∧ Takes s as t := by
  constructor
  · intro h
    induction h with
    | nil => exact ⟨rfl, .nil⟩
    | cons h1 _ _ ih =>
      obtain ⟨hT, rfl⟩ := ok_just_takes.1 h1
      refine ⟨?_, hT.trans ih.2⟩
      simp only [List.length_cons, List.replicate_succ]
      rw [← ih.1]
  · rintro ⟨ha, hT⟩
    induction as generalizing s with
    | nil => have := takes_nil.1 hT; subst this; exact .nil _
    | cons a as ih =>
      obtain ⟨sp, s1, rfl, hT'⟩ := takes_cons.1 hT
      simp only [List.length_cons, List.replicate_succ, List.cons.injEq] at ha
      exact .cons (ok_just.2 ⟨sp, by rw [ha.1], ha.1⟩) (by simp) (ih ha.2 hT')

/-! ### Raw strings -/

/-- The parser of the end of a raw string. -/
def rawEnd (n : Nat) : P O Unit := ignoreThen (just '"') (ignored (repeatedB n (some n) (just '#')))

theorem ok_rawEnd {n : Nat} {eoi : Sp O} {s u t} :
    Ok (rawEnd n) eoi s u t ↔ Takes s (Cst.rawClose n) t := by
  unfold rawEnd Cst.rawClose
  rw [ok_ignoreThen]
  constructor
  · rintro ⟨_, t1, h1, h2⟩
    obtain ⟨h1', rfl⟩ := ok_just_takes.1 h1
    obtain ⟨as, h2⟩ := ok_ignored.1 h2
    obtain ⟨h3, h4⟩ := ok_repeatedB eats_just.consumes h2
    obtain ⟨h5, h6⟩ := reps_just.1 h3
    have hlen : as.length = n := by
      rcases h4 with h4 | ⟨h4, h7⟩
      · simpa using h4.symm
      · have := repeatedB_le_max h2
        omega
    rw [h5, hlen] at h6
    exact h1'.trans h6
  · intro h
    obtain ⟨sp, s1, rfl, h1⟩ := takes_cons.1 h
    refine ⟨'"', s1, ok_just.2 ⟨sp, rfl, rfl⟩, ok_ignored.2 ⟨List.replicate n '#', ?_⟩⟩
    refine ok_repeatedB_of (reps_just.2 ⟨by simp, h1⟩) (by simp) (Or.inl (by simp))

theorem fails_rawEnd {n : Nat} {eoi : Sp O} {s} :
    Fails (rawEnd n) eoi s ↔ ¬ Cst.rawClose n <+: chars s := by
  constructor
  · rintro h ⟨b, hb⟩
    obtain ⟨t, hT, _⟩ := takes_of_chars hb.symm
    exact ((ok_rawEnd (u := ())).2 hT).not_fails h
  · intro h
    unfold rawEnd
    by_cases h1 : (chars s).head? = some '"'
    · obtain ⟨sp, s1, rfl⟩ := toks_of_head h1
      refine fails_ignoreThen_right (ok_just.2 ⟨sp, rfl, rfl⟩) ?_
      rw [fails_ignored]
      -- the run of hashes is too short
      have hr : ∃ as t, Ok (repeated (filter (fun x => x == '#'))) eoi s1 as t := by
        obtain ⟨t, ht⟩ : ∃ t, Takes s1 (chars (s1.takeWhile (fun x => x.1 == '#'))) t :=
          ⟨s1.dropWhile (fun x => x.1 == '#'), s1.takeWhile (fun x => x.1 == '#'),
            by simp [List.takeWhile_append_dropWhile], rfl⟩
        obtain ⟨pre, h2, h3⟩ := ht
        have ht : t = s1.dropWhile (fun x => x.1 == '#') := by
          have h4 : pre.length = (s1.takeWhile (fun x => x.1 == '#')).length := by
            simpa using congrArg List.length h3
          have h5 := List.takeWhile_append_dropWhile (p := fun (x : Tok O) => x.1 == '#') (l := s1)
          rw [← h5] at h2
          exact (List.append_inj_right h2 h4.symm).symm
        refine ⟨_, _, ok_repeated_filter.2 ⟨⟨pre, h2, h3⟩, ?_, ?_⟩⟩
        · intro c hc
          obtain ⟨x, hx, rfl⟩ := List.mem_map.1 hc
          have : ∀ (l : List (Tok O)), x ∈ l.takeWhile (fun x => x.1 == '#') → (x.1 == '#') = true := by
            intro l
            induction l with
            | nil => simp
            | cons y l ih =>
              rw [List.takeWhile_cons]
              split
              · rintro hx
                rcases List.mem_cons.1 hx with rfl | hx
                · assumption
                · exact ih hx
              · simp
          exact this _ hx
        · rw [ht]
          intro c hc
          have : ∀ (l : List (Tok O)), (chars (l.dropWhile (fun x => x.1 == '#'))).head? = some c →
              (c == '#') = false := by
            intro l
            induction l with
            | nil => simp
            | cons y l ih =>
              rw [List.dropWhile_cons]
              split
              · exact ih
              · rename_i hy
                intro hc
                simp at hc
                subst hc
                simpa using hy
          exact this _ hc
      obtain ⟨as, t, hr⟩ := hr
      obtain ⟨hT, hall, hend⟩ := ok_repeated_filter.1 hr
      have has : as = List.replicate as.length '#' :=
        List.eq_replicate_of_mem (fun c hc => by simpa using hall c hc)
      have hlt : as.length < n := by
        rcases Nat.lt_or_ge as.length n with h2 | h2
        · exact h2
        · exfalso
          apply h
          refine ⟨List.replicate (as.length - n) '#' ++ chars t, ?_⟩
          simp only [chars_cons, hT.chars, Cst.rawClose, List.cons_append]
          rw [has, ← List.append_assoc]
          simp [List.replicate_append_replicate]
          omega
      refine fails_repeatedB_of (reps_just.2 ⟨has, hT⟩) (by simpa using hlt) hlt ?_
      rw [fails_just_head]
      intro hc
      simpa using hend _ hc
    · exact fails_ignoreThen_left (fails_just_head.2 h1)

theorem rawClose_prefix {n : Nat} {w rest : Str} (hw : w ≠ [])
    (h : Cst.rawClose n <+: w ++ Cst.rawClose n ++ rest) : Cst.rawClose n <+: w := by
  obtain ⟨b, hb⟩ := h
  rcases Nat.lt_or_ge w.length (Cst.rawClose n).length with h1 | h1
  · exfalso
    have h2 := congrArg (fun l => l[w.length]?) hb
    simp only [List.append_assoc] at h2
    rw [List.getElem?_append_left h1, List.getElem?_append_right (Nat.le_refl _)] at h2
    simp only [Nat.sub_self] at h2
    have hw' : 0 < w.length := List.length_pos_iff.2 hw
    simp only [Cst.rawClose, List.length_cons, List.length_replicate] at h1
    obtain ⟨k, hk⟩ : ∃ k, w.length = k + 1 := ⟨w.length - 1, by omega⟩
    rw [hk] at h2
    simp only [Cst.rawClose, List.getElem?_cons_succ, List.cons_append, List.getElem?_cons_zero] at h2
    rw [List.getElem?_replicate] at h2
    split at h2
    · simp at h2
    · omega
  · rw [List.append_assoc] at hb
    have h2 := List.append_inj_left (s₁ := Cst.rawClose n) (t₁ := b)
      (s₂ := w.take (Cst.rawClose n).length)
      (t₂ := w.drop (Cst.rawClose n).length ++ (Cst.rawClose n ++ rest)) (by
        rw [hb, ← List.append_assoc (List.take _ _), List.take_append_drop]) (by simp; omega)
    rw [h2]
    exact List.take_prefix _ _

section
variable [Offset O]

theorem ok_rawString {eoi : Sp O} {s v t} :
    Ok rawString eoi s v t ↔
      ∃ n, (StrLit.raw n v).Ok ∧ Takes s (StrLit.raw n v).text t := by
  unfold rawString
  rw [ok_pmap]
  constructor
  · rintro ⟨⟨body, u⟩, h, rfl⟩
    obtain ⟨n, t1, h1, h2⟩ := ok_bind.1 h
    rw [ok_mapErrWithSpan] at h2
    obtain ⟨t2, _, h3, h4⟩ := ok_thenIgnore.1 h1
    obtain ⟨h4', -⟩ := ok_just_takes.1 h4
    obtain ⟨_, t3, h5, h6⟩ := ok_ignoreThen.1 h3
    obtain ⟨h5', rfl⟩ := ok_just_takes.1 h5
    obtain ⟨as, h6', rfl⟩ := ok_pmap.1 h6
    rw [ok_repeated eats_just.consumes, reps_just] at h6'
    obtain ⟨pre, mid, rfl, hbody, h7, h8⟩ := ok_takeUntil.1 h2
    have h7' := ok_rawEnd.1 h7
    refine ⟨as.length, ?_, ?_⟩
    · rintro ⟨x, y, hxy⟩
      simp only at hxy
      rw [hbody] at hxy
      have hxy' : chars pre = x ++ (Cst.rawClose as.length ++ y) := by rw [← hxy]; simp
      obtain ⟨p, q, rfl, hp, hq⟩ := chars_eq_append.1 hxy'
      cases q with
      | nil => simp [Cst.rawClose] at hq
      | cons z q =>
        have := fails_rawEnd.1 (h8 p z q rfl)
        apply this
        refine ⟨y ++ chars mid, ?_⟩
        rw [chars_append, hq]; simp
    · have hT : Takes (pre ++ mid) body mid := ⟨pre, rfl, hbody.symm⟩
      have h9 : Takes t3 (List.replicate as.length '#') t2 := by
        have := h6'.1.2
        rwa [h6'.1.1] at this
      have := h5'.trans (h9.trans (h4'.trans (hT.trans h7')))
      simpa [StrLit.text] using this
  · rintro ⟨n, hok, hT⟩
    have hT' : Takes s (['r'] ++ (List.replicate n '#' ++ (['"'] ++ (v ++ Cst.rawClose n)))) t := by
      simpa [StrLit.text] using hT
    obtain ⟨t1, h1, hT'⟩ := takes_append.1 hT'
    obtain ⟨t2, h2, hT'⟩ := takes_append.1 hT'
    obtain ⟨t3, h3, hT'⟩ := takes_append.1 hT'
    obtain ⟨t4, h4, h5⟩ := takes_append.1 hT'
    refine ⟨(v, ()), ok_bind.2 ⟨n, t3, ok_thenIgnore.2 ⟨t2, '"', ok_ignoreThen.2 ⟨'r', t1,
      ok_just_takes.2 ⟨h1, rfl⟩, ?_⟩, ok_just_takes.2 ⟨h3, rfl⟩⟩, ?_⟩, rfl⟩
    · refine ok_pmap.2 ⟨List.replicate n '#', ?_, by simp⟩
      rw [ok_repeated eats_just.consumes, reps_just, fails_just_head]
      refine ⟨⟨by simp, h2⟩, ?_⟩
      rw [h3.chars]; simp
    · rw [ok_mapErrWithSpan]
      obtain ⟨pre, rfl, rfl⟩ := h4
      refine ok_takeUntil.2 ⟨pre, t4, rfl, rfl, ok_rawEnd.2 h5, ?_⟩
      rintro a x c rfl
      refine fails_rawEnd.2 ?_
      intro hp
      rw [chars_append, h5.chars, ← List.append_assoc] at hp
      have := rawClose_prefix (by simp) hp
      apply hok
      obtain ⟨b, hb⟩ := this
      exact ⟨chars a, b, by rw [chars_append, ← hb]; simp⟩

/-- The text begins like a raw string. -/
def RawStart (s : Str) : Prop := ∃ n, 'r' :: List.replicate n '#' ++ ['"'] <+: s

theorem failsC_rawString {eoi : Sp O} {s} (h : ¬ RawStart (chars s)) : FailsC rawString eoi s := by
  unfold rawString
  rw [failsC_pmap]
  apply failsC_bind_left
  by_cases h1 : (chars s).head? = some 'r'
  · obtain ⟨sp, s1, rfl⟩ := toks_of_head h1
    -- the run of hashes
    have hrun : ∀ (s1 : List (Tok O)), ∃ n t, Takes s1 (List.replicate n '#') t ∧
        (chars t).head? ≠ some '#' := by
      intro s1
      induction s1 with
      | nil => exact ⟨0, [], .nil, by simp⟩
      | cons x s1 ih =>
        obtain ⟨c, sp⟩ := x
        by_cases hc : c = '#'
        · subst hc
          obtain ⟨n, t, h1, h2⟩ := ih
          exact ⟨n + 1, t, .cons h1, h2⟩
        · exact ⟨0, _, .nil, by simpa using hc⟩
    obtain ⟨n, t, h2, h3⟩ := hrun s1
    refine failsC_thenIgnore_right (t := t) (a := n) (ok_ignoreThen.2 ⟨'r', s1,
      ok_just.2 ⟨sp, rfl, rfl⟩, ok_pmap.2 ⟨List.replicate n '#', ?_, by simp⟩⟩) ?_
    · rw [ok_repeated eats_just.consumes, reps_just, fails_just_head]
      exact ⟨⟨by simp, h2⟩, h3⟩
    · rw [failsC_just_head]
      intro h4
      obtain ⟨w, hw⟩ := head_eq_some.1 h4
      exact h ⟨n, w, by simp [h2.chars, hw]⟩
  · exact failsC_thenIgnore_left (failsC_ignoreThen_left (failsC_just_head.2 h1))

end

/-! ### Escapes -/

theorem isDigit16_iff {c : Char} : isDigit 16 c = true ↔ c ∈ Cst.hexDigits.map Prod.fst := by
  simp only [isDigit, digitVal, inRange, Cst.hexDigits, List.map_cons, List.map_nil, List.mem_cons,
    List.not_mem_nil, char_eq_iff, Bool.and_eq_true, decide_eq_true_eq]
  simp only [Char.reduceToNat, or_false]
  split
  · rename_i h
    split at h
    · injection h with h; subst h; simp; omega
    · split at h
      · injection h with h; subst h; simp; omega
      · split at h
        · injection h with h; subst h; simp; omega
        · simp at h
  · rename_i h
    split at h
    · simp at h
    · split at h
      · simp at h
      · split at h
        · simp at h
        · simp; omega

theorem hexVal_eq {c : Char} (h : c ∈ Cst.hexDigits.map Prod.fst) :
    (digitVal 16 c).getD 0 = Cst.hexVal c := by
  have : ∀ c ∈ Cst.hexDigits.map Prod.fst, (digitVal 16 c).getD 0 = Cst.hexVal c := by decide
  exact this c h

theorem digitsVal_eq {s : Str} (h : ∀ c ∈ s, c ∈ Cst.hexDigits.map Prod.fst) :
    digitsVal 16 s = Cst.hexNumber s := by
  have key : ∀ (s : Str) (n : Nat), (∀ c ∈ s, c ∈ Cst.hexDigits.map Prod.fst) →
      s.foldl (fun acc c => acc * 16 + (digitVal 16 c).getD 0) n =
      s.foldl (fun n c => 16 * n + Cst.hexVal c) n := by
    intro s
    induction s with
    | nil => intros; rfl
    | cons c s ih =>
      intro n h
      simp only [List.foldl_cons]
      rw [hexVal_eq (h c (by simp)), Nat.mul_comm n 16]
      exact ih _ (fun c hc => h c (by simp [hc]))
  exact key s 0 h

theorem charOfNat_eq {n : Nat} {c : Char} : charOfNat? n = some c ↔
    (n < 0xD800 ∨ (0xDFFF < n ∧ n < 0x110000)) ∧ c = Char.ofNat n := by
  unfold charOfNat?
  by_cases h : n.isValidChar
  · simp only [h, ↓reduceIte, Option.some.injEq]
    have : (n < 0xD800 ∨ (0xDFFF < n ∧ n < 0x110000)) := h
    simp [this, eq_comm]
  · simp only [h, ↓reduceIte]
    have : ¬ (n < 0xD800 ∨ (0xDFFF < n ∧ n < 0x110000)) := h
    simp [this]

theorem escSimple_ok {sp : Sp O} {c v : Char} :
    escSimple sp c = .ok v ↔ c ∈ Cst.escapes.map Prod.fst ∧ v = (Cst.escapes.lookup c).getD c := by
  unfold escSimple
  by_cases h1 : c = '"'
  · subst h1; simp [Cst.escapes, eq_comm]
  by_cases h2 : c = '\\'
  · subst h2; simp [Cst.escapes, eq_comm, List.lookup]
  by_cases h3 : c = '/'
  · subst h3; simp [Cst.escapes, eq_comm, List.lookup]
  by_cases h4 : c = 'b'
  · subst h4; simp [Cst.escapes, eq_comm, List.lookup]
  by_cases h5 : c = 'f'
  · subst h5; simp [Cst.escapes, eq_comm, List.lookup]
  by_cases h6 : c = 'n'
  · subst h6; simp [Cst.escapes, eq_comm, List.lookup]
  by_cases h7 : c = 'r'
  · subst h7; simp [Cst.escapes, eq_comm, List.lookup]
  by_cases h8 : c = 't'
  · subst h8; simp [Cst.escapes, eq_comm, List.lookup]
  simp [Cst.escapes, h1, h2, h3, h4, h5, h6, h7, h8]

theorem hexDigit_ok {sp : Sp O} {c v : Char} :
    hexDigit sp c = .ok v ↔ c ∈ Cst.hexDigits.map Prod.fst ∧ v = c := by
  unfold hexDigit
  rw [← isDigit16_iff]
  by_cases h : isDigit 16 c = true
  · simp only [h, ↓reduceIte, Except.ok.injEq, true_and]; exact eq_comm
  · simp [h]

theorem reps_hexDigit {eoi : Sp O} {s as t} :
    Reps (filterMap hexDigit) eoi s as t ↔ Takes s as t ∧ ∀ c ∈ as, c ∈ Cst.hexDigits.map Prod.fst := by
  constructor
  · intro h
    induction h with
    | nil => exact ⟨.nil, by simp⟩
    | cons h1 _ _ ih =>
      obtain ⟨c, sp, rfl, h3⟩ := ok_filterMap.1 h1
      obtain ⟨h4, rfl⟩ := hexDigit_ok.1 h3
      exact ⟨.cons ih.1, List.forall_mem_cons.2 ⟨h4, ih.2⟩⟩
  · rintro ⟨hT, hf⟩
    induction as generalizing s with
    | nil => have := takes_nil.1 hT; subst this; exact .nil _
    | cons a as ih =>
      obtain ⟨sp, s1, rfl, hT'⟩ := takes_cons.1 hT
      exact .cons (ok_filterMap.2 ⟨a, sp, rfl, hexDigit_ok.2 ⟨hf a (by simp), rfl⟩⟩) (by simp)
        (ih hT' (fun c hc => hf c (by simp [hc])))

theorem eats_hexDigit : Eats 1 (filterMap hexDigit : P O Char) := eats_filterMap

section
variable [Offset O]

theorem ok_escChar {eoi : Sp O} {s v t} : Ok escChar eoi s v t ↔
    ∃ c : StrChar, c.Ok ∧ v = c.value ∧ ∃ w, c.text = '\\' :: w ∧ Takes s w t ∧
      ∀ x, c ≠ .plain x := by
  unfold escChar
  constructor
  · intro h
    rcases ok_orP.1 h with h | ⟨_, h⟩
    · obtain ⟨c, sp, rfl, h2⟩ := ok_filterMap.1 h
      obtain ⟨h3, rfl⟩ := escSimple_ok.1 h2
      exact ⟨.esc c, h3, rfl, [c], rfl, .single, by simp⟩
    · obtain ⟨_, t1, h1, h2⟩ := ok_ignoreThen.1 h
      obtain ⟨h1', rfl⟩ := ok_just_takes.1 h1
      rw [ok_recoverSkipUntil] at h2
      obtain ⟨hex, h3, h4⟩ := ok_tryMap.1 h2
      obtain ⟨_, t2, _, t3, h5, h6, h7⟩ := ok_delimitedBy.1 h3
      obtain ⟨h5', rfl⟩ := ok_just_takes.1 h5
      obtain ⟨h7', rfl⟩ := ok_just_takes.1 h7
      obtain ⟨h8, h9⟩ := ok_repeatedB eats_hexDigit.consumes h6
      obtain ⟨h10, h11⟩ := reps_hexDigit.1 h8
      unfold hexToChar at h4
      rw [digitsVal_eq h11] at h4
      cases hc : charOfNat? (Cst.hexNumber hex) with
      | none => rw [hc] at h4; simp at h4
      | some c =>
        rw [hc] at h4
        simp at h4
        subst h4
        obtain ⟨h12, rfl⟩ := charOfNat_eq.1 hc
        refine ⟨.unicode hex, ⟨?_, ?_, h11, h12⟩, rfl, 'u' :: '{' :: hex ++ ['}'], rfl, ?_, by simp⟩
        · rcases h9 with h9 | h9
          · simp at h9; omega
          · exact h9.1
        · exact repeatedB_le_max h6
        · have := h1'.trans (h5'.trans (h10.trans h7'))
          simpa using this
  · rintro ⟨c, hok, rfl, w, hw, hT, hp⟩
    cases c with
    | plain x => exact absurd rfl (hp x)
    | esc c =>
      simp [StrChar.text] at hw
      subst hw
      obtain ⟨sp, s1, rfl, h1⟩ := takes_cons.1 hT
      have := takes_nil.1 h1; subst this
      exact ok_orP_left (ok_filterMap.2 ⟨c, sp, rfl, escSimple_ok.2 ⟨hok, rfl⟩⟩)
    | unicode hex =>
      simp only [StrChar.text, List.cons_append, List.cons.injEq, true_and] at hw
      subst hw
      obtain ⟨sp, s1, rfl, h1⟩ := takes_cons.1 hT
      obtain ⟨sp2, s2, rfl, h2⟩ := takes_cons.1 h1
      obtain ⟨s3, h3, h4⟩ := takes_append.1 h2
      obtain ⟨hl1, hl6, hhex, hval⟩ := hok
      refine ok_orP_right ?_ (ok_ignoreThen.2 ⟨'u', _, ok_just.2 ⟨sp, rfl, rfl⟩,
        ok_recoverSkipUntil.2 (ok_tryMap.2 ⟨hex, ok_delimitedBy.2 ⟨'{', s2, '}', s3,
          ok_just.2 ⟨sp2, rfl, rfl⟩, ?_, ok_just_takes.2 ⟨h4, rfl⟩⟩, ?_⟩)⟩)
      · rw [fails_filterMap]
        rintro c sp' s' heq
        injection heq with h5 h6
        injection h5 with h5 h7
        subst h5 h7
        exact ⟨_, rfl⟩
      · refine ok_repeatedB_of (reps_hexDigit.2 ⟨h3, hhex⟩) (by simpa using hl6) (Or.inr ⟨hl1, ?_⟩)
        rw [fails_filterMap]
        rintro c sp' s' rfl
        have := h4.chars
        simp at this
        obtain ⟨rfl, _⟩ := this
        exact ⟨_, rfl⟩
      · unfold hexToChar
        rw [digitsVal_eq hhex, (charOfNat_eq (c := Char.ofNat (Cst.hexNumber hex))).2 ⟨hval, rfl⟩]
        rfl

theorem ok_strChar {eoi : Sp O} {s v t} : Ok strChar eoi s v t ↔
    ∃ c : StrChar, c.Ok ∧ v = c.value ∧ Takes s c.text t := by
  unfold strChar
  constructor
  · intro h
    rcases ok_orP.1 h with h | ⟨_, h⟩
    · obtain ⟨hT, hf⟩ := ok_filter_takes.1 h
      exact ⟨.plain v, by simpa [StrChar.Ok] using hf, rfl, hT⟩
    · obtain ⟨_, t1, h1, h2⟩ := ok_ignoreThen.1 h
      obtain ⟨h1', rfl⟩ := ok_just_takes.1 h1
      obtain ⟨c, h3, h4, w, h5, h6, _⟩ := ok_escChar.1 h2
      exact ⟨c, h3, h4, by rw [h5]; exact h1'.trans h6⟩
  · rintro ⟨c, hok, rfl, hT⟩
    have esc : (∀ x, c ≠ .plain x) → ∀ w, c.text = '\\' :: w →
        Ok (orP (filter (fun c => c != '"' && c != '\\')) (ignoreThen (just '\\') escChar)) eoi s
          c.value t := by
      intro hp w hw
      rw [hw] at hT
      obtain ⟨sp, s1, rfl, h1⟩ := takes_cons.1 hT
      refine ok_orP_right ?_ (ok_ignoreThen.2 ⟨'\\', s1, ok_just.2 ⟨sp, rfl, rfl⟩,
        ok_escChar.2 ⟨c, hok, rfl, w, hw, h1, hp⟩⟩)
      rw [fails_filter_head]
      simp
    cases c with
    | plain x =>
      refine ok_orP_left (ok_filter_takes.2 ⟨hT, ?_⟩)
      simpa [StrChar.Ok, StrChar.value] using hok
    | esc c => exact esc (by simp) _ rfl
    | unicode h => exact esc (by simp) _ rfl

theorem reps_strChar {eoi : Sp O} {s as t} : Reps strChar eoi s as t ↔
    ∃ l : List StrChar, (∀ c ∈ l, c.Ok) ∧ as = l.map StrChar.value ∧
      Takes s (l.flatMap StrChar.text) t := by
  constructor
  · intro h
    induction h with
    | nil => exact ⟨[], by simp, rfl, .nil⟩
    | cons h1 _ _ ih =>
      obtain ⟨c, h3, rfl, hT⟩ := ok_strChar.1 h1
      obtain ⟨l, h4, rfl, hT'⟩ := ih
      exact ⟨c :: l, List.forall_mem_cons.2 ⟨h3, h4⟩, rfl, hT.trans hT'⟩
  · rintro ⟨l, h1, rfl, hT⟩
    induction l generalizing s with
    | nil => have := takes_nil.1 hT; subst this; exact .nil _
    | cons c l ih =>
      obtain ⟨s1, h2, h3⟩ := (takes_append (a := c.text)).1 hT
      refine .cons (ok_strChar.2 ⟨c, h1 c (by simp), rfl, h2⟩) ?_
        (ih (fun c hc => h1 c (by simp [hc])) h3)
      have := h2.length
      cases c <;> simp [StrChar.text] at this <;> omega

theorem ok_escapedString {eoi : Sp O} {s v t} : Ok escapedString eoi s v t ↔
    ∃ l : List StrChar, (∀ c ∈ l, c.Ok) ∧ v = l.map StrChar.value ∧ Takes s (Cst.quotedText l) t := by
  unfold escapedString
  constructor
  · intro h
    obtain ⟨_, t1, h1, h2⟩ := ok_ignoreThen.1 h
    obtain ⟨h1', rfl⟩ := ok_just_takes.1 h1
    rw [ok_mapErrWithSpan] at h2
    obtain ⟨t2, _, h3, h4⟩ := ok_thenIgnore.1 h2
    obtain ⟨h4', rfl⟩ := ok_just_takes.1 h4
    rw [ok_repeated eats_strChar.consumes] at h3
    obtain ⟨l, h5, rfl, h6⟩ := reps_strChar.1 h3.1
    refine ⟨l, h5, rfl, ?_⟩
    have := h1'.trans (h6.trans h4')
    simpa [Cst.quotedText] using this
  · rintro ⟨l, h1, rfl, hT⟩
    obtain ⟨sp, s1, rfl, h2⟩ := takes_cons.1 hT
    obtain ⟨s2, h3, h4⟩ := takes_append.1 h2
    refine ok_ignoreThen.2 ⟨'"', s1, ok_just.2 ⟨sp, rfl, rfl⟩, ok_mapErrWithSpan.2
      (ok_thenIgnore.2 ⟨s2, '"', ?_, ok_just_takes.2 ⟨h4, rfl⟩⟩)⟩
    rw [ok_repeated eats_strChar.consumes]
    refine ⟨reps_strChar.2 ⟨l, h1, rfl, h3⟩, ?_⟩
    unfold strChar
    rw [fails_orP]
    refine ⟨?_, fails_ignoreThen_left ?_⟩
    · rw [fails_filter_head, h4.chars]; simp
    · rw [fails_just_head, h4.chars]; simp

theorem failsC_escapedString {eoi : Sp O} {s} (h : (chars s).head? ≠ some '"') :
    FailsC escapedString eoi s :=
  failsC_ignoreThen_left (failsC_just_head.2 h)

theorem rawStart_head {s : Str} (h : RawStart s) : s.head? = some 'r' := by
  obtain ⟨n, w, rfl⟩ := h
  rfl

theorem failsC_string {eoi : Sp O} {s} (h1 : (chars s).head? ≠ some '"') (h2 : ¬ RawStart (chars s)) :
    FailsC string eoi s :=
  failsC_orP (failsC_rawString h2) (failsC_escapedString h1)

theorem ok_string {eoi : Sp O} {s v t} : Ok string eoi s v t ↔
    ∃ l : StrLit, l.Ok ∧ v = l.value ∧ Takes s l.text t := by
  unfold string
  constructor
  · intro h
    rcases ok_orP.1 h with h | ⟨_, h⟩
    · obtain ⟨n, h1, h2⟩ := ok_rawString.1 h
      exact ⟨.raw n v, h1, rfl, h2⟩
    · obtain ⟨l, h1, rfl, h2⟩ := ok_escapedString.1 h
      exact ⟨.quoted l, h1, rfl, h2⟩
  · rintro ⟨l, hok, rfl, hT⟩
    cases l with
    | raw n b => exact ok_orP_left (ok_rawString.2 ⟨n, hok, hT⟩)
    | quoted l =>
      refine ok_orP_right (failsC_rawString ?_).fails (ok_escapedString.2 ⟨l, hok, rfl, hT⟩)
      intro h
      have := rawStart_head h
      rw [hT.chars] at this
      simp [StrLit.text, Cst.quotedText] at this

end

end Knuffel
