import Verif.Theory.Extend
import Verif.Theory.NoPanicNode
/-!
# Errors after complete nodes

If a text begins with complete legal nodes and a newline, the parser ends with the same errors
as if it were started after the newline.
-/

set_option linter.unusedSectionVars false
set_option linter.unusedSimpArgs false

namespace Knuffel
open Cst

variable {O α β : Type}

section
variable [Offset O]

/-! ### Lines before a newline -/

theorem reps_ws_cons' {p : P O Unit} {eoi : Sp O} (hp : ∀ s t, WsRun s t → Ok p eoi s () t)
    {c : Char} {sp : Sp O} {s as t} (hc : c ∈ Cst.wsChars) (h : Reps p eoi s as t)
    (hf : ∀ c, (chars t).head? = some c → c ∉ Cst.wsChars) : ∃ as', Reps p eoi ((c, sp) :: s) as' t := by
  by_cases h2 : ∃ e, (chars s).head? = some e ∧ e ∈ Cst.wsChars
  · obtain ⟨e, he, hmem⟩ := h2
    obtain ⟨u, hu⟩ := wsRun_exists hmem he
    cases h with
    | nil => exact absurd hmem (hf e he)
    | @cons _ a s1 as' _ ho hlt hr =>
      obtain ⟨_, rfl⟩ := ho.unique (hp _ _ hu)
      obtain ⟨str, h3, h4, h5, h6⟩ := hu
      refine ⟨() :: as', .cons (hp _ _ ⟨c :: str, by simp, by simpa [hc] using h4, .cons h5, h6⟩) ?_ hr⟩
      simp; omega
  · refine ⟨() :: as, .cons (hp _ _ ⟨[c], by simp, by simpa using hc, .single, ?_⟩) (by simp) h⟩
    intro e he hmem
    exact h2 ⟨e, he, hmem⟩

/-- Legal lines up to a character that is no white space. -/
theorem reps_lines_to {eoi : Sp O} {l : List Line} {s t} (hl : LinesOk true (chars t) l)
    (hT : Takes s (linesText l) t) (hf : ∀ c, (chars t).head? = some c → c ∉ Cst.wsChars) :
    ∃ as, Reps lineSpace eoi s as t := by
  induction l generalizing s with
  | nil => have := takes_nil.1 hT; subst this; exact ⟨[], .nil _⟩
  | cons w l ih =>
    obtain ⟨s1, h1, h2⟩ := (takes_append (a := w.text) (b := linesText l)).1 hT
    obtain ⟨hw, hl⟩ := hl
    obtain ⟨as, has⟩ := ih hl h2
    rw [← h2.chars] at hw
    have hlen := h1.length
    cases w with
    | newline n =>
      refine ⟨() :: as, .cons (ok_orP_left (ok_orP_left (ok_newline.2 ⟨n, h1, hw⟩))) ?_ has⟩
      have : 0 < n.text.length := by cases n <;> decide
      simp only [Line.text] at hlen
      omega
    | ws w =>
      cases w with
      | char c =>
        obtain ⟨sp, s2, rfl, h3⟩ := takes_cons.1 h1
        have := takes_nil.1 h3; subst this
        exact reps_ws_cons' (fun _ _ h => ok_lineSpace_run h) hw has hf
      | block b =>
        refine ⟨() :: as, .cons (ok_orP_left (ok_orP_right (fails_newline ?_).fails
          (ok_ws_block hw h1))) ?_ has⟩
        · rw [h1.chars]; simp [Line.text, Ws.text, newlineChars]
        · simp [Line.text, Ws.text] at hlen
          omega
    | comment c =>
      have hc : chars s = '/' :: '/' :: (c.body ++ stopText c.stop ++ chars s1) := by
        rw [h1.chars]; simp [Line.text, LineComment.text]
      refine ⟨() :: as, .cons (ok_orP_right (fails_orP.2 ⟨(fails_newline ?_).fails,
        (failsC_ws ?_).fails⟩) (ok_comment.2 ⟨c, h1, hw⟩)) ?_ has⟩
      · rw [hc]; simp [newlineChars]
      · rw [hc]; exact noWs_slash (by decide)
      · simp [Line.text, LineComment.text] at hlen
        omega

/-! ### Alternatives that are behind -/

theorem Loc.max_le (a b : Loc O) : (a.max b).rem ≤ a.rem ∧ (a.max b).rem ≤ b.rem := by
  rcases Loc.max_rem a b with ⟨h1, h2⟩ | ⟨h1, h2⟩
  · omega
  · rw [h1]; omega

theorem mergeAlts_behind {n : Nat} {a : Option (Loc O)} {e : Loc O} (ha : LB (n + 1) a) (he : e.rem ≤ n) :
    mergeAlts a (some e) = some e :=
  (mergeAlts_far (a := e) (o := a) (ha.mono (by omega))).2.1

/-- Two alternatives are the same, or both are behind the place where `n` tokens remain. -/
def SameAlt (n : Nat) (a b : Option (Loc O)) : Prop := a = b ∨ LB (n + 1) a ∧ LB (n + 1) b

theorem SameAlt.merge {n : Nat} {a b : Option (Loc O)} (h : SameAlt n a b) (c : Option (Loc O)) :
    SameAlt n (mergeAlts a c) (mergeAlts b c) := by
  rcases h with rfl | ⟨h1, h2⟩
  · exact Or.inl rfl
  · cases c with
    | none =>
      right
      constructor
      · cases a <;> simpa [mergeAlts] using h1
      · cases b <;> simpa [mergeAlts] using h2
    | some e =>
      by_cases he : e.rem ≤ n
      · left; rw [mergeAlts_behind h1 he, mergeAlts_behind h2 he]
      · right
        exact ⟨mergeAlts_lb h1 (lb_some.2 (by omega)), mergeAlts_lb h2 (lb_some.2 (by omega))⟩

theorem SameAlt.meet {n : Nat} {a b : Option (Loc O)} (h : SameAlt n a b) {e : Loc O} (he : e.rem ≤ n) :
    mergeAlts a (some e) = mergeAlts b (some e) := by
  rcases h with rfl | ⟨h1, h2⟩
  · rfl
  · rw [mergeAlts_behind h1 he, mergeAlts_behind h2 he]

/-! ### Repetitions from a later place -/

/-- The repetition goes through the places reached by the items. -/
theorem repGo_through {p : P O α} (ht : Tight p) {eoi : Sp O} {s as t} (h : Reps p eoi s as t) :
    ∀ {fuel outs alt pan}, s.length < fuel → LB s.length alt →
    ∃ fuel' outs' alt' pan', t.length < fuel' ∧ LB t.length alt' ∧
      repGo p 0 none eoi fuel outs [] alt pan s = repGo p 0 none eoi fuel' outs' [] alt' pan' t := by
  induction h with
  | nil s => intro fuel outs alt pan hf hl; exact ⟨fuel, outs, alt, pan, hf, hl, rfl⟩
  | @cons s a t as u h1 h2 _ ih =>
    intro fuel outs alt pan hf hl
    obtain ⟨fuel, rfl⟩ : ∃ k, fuel = k + 1 := ⟨fuel - 1, by omega⟩
    obtain ⟨g1, ⟨aalt, g2⟩, g3⟩ := h1
    have hta := ht eoi s a aalt g2
    rw [g3] at hta
    obtain ⟨f', o', a', p', k1, k2, k3⟩ := ih (fuel := fuel) (outs := outs ++ [a]) (alt := mergeAlts alt aalt)
      (pan := pan || (p eoi s).panicked || clashAlts alt aalt) (by omega)
      (mergeAlts_lb (hl.mono (by omega)) (by simpa using hta))
    refine ⟨f', o', a', p', k1, k2, ?_⟩
    rw [← k3, repGo]
    simp [g1, g2, g3, h2]

/-- A repetition that is continued and one that is started at the same place, the alternative of
the first being behind. -/
theorem repGo_same {p : P O α} (hq : Quiet p) (hc : Consumes p) {eoi : Sp O} {n : Nat}
    (hn : ∀ s e, s.length ≤ n → (p eoi s).out = .error e → e.rem ≤ n) : ∀ {f1 f2 o1 o2 alt1 alt2 pan1 pan2 s},
    s.length < f1 → s.length < f2 → s.length ≤ n → SameAlt n alt1 alt2 →
    ∃ as1 as2 e, e.rem ≤ n ∧ (repGo p 0 none eoi f1 o1 [] alt1 pan1 s).out = .ok (as1, some e) ∧
      (repGo p 0 none eoi f2 o2 [] alt2 pan2 s).out = .ok (as2, some e) ∧
      (repGo p 0 none eoi f1 o1 [] alt1 pan1 s).rest = (repGo p 0 none eoi f2 o2 [] alt2 pan2 s).rest := by
  intro f1
  induction f1 with
  | zero => intro _ _ _ _ _ _ _ _ h; omega
  | succ f1 ih =>
    intro f2 o1 o2 alt1 alt2 pan1 pan2 s h1 h2 hs ha
    obtain ⟨f2, rfl⟩ : ∃ k, f2 = k + 1 := ⟨f2 - 1, by omega⟩
    rw [repGo, repGo]
    have he := hq eoi s
    cases ho : (p eoi s).out with
    | error e =>
      simp only [reduceCtorEq, if_false, he, ho, Nat.not_lt_zero, List.head?_nil]
      have hm : mergeAlts (some e) none = some e := rfl
      rw [hm, ha.meet (hn s e hs ho)]
      have hle := hn s e hs ho
      obtain ⟨e', he', hle'⟩ : ∃ e', mergeAlts alt2 (some e) = some e' ∧ e'.rem ≤ n := by
        cases alt2 with
        | none => exact ⟨e, rfl, hle⟩
        | some b => exact ⟨_, rfl, Nat.le_trans (Loc.max_le e b).1 hle⟩
      rw [he']
      exact ⟨_, _, _, hle', rfl, rfl, trivial⟩
    | ok x =>
      obtain ⟨a, aalt⟩ := x
      have hlt := hc eoi s _ ho
      simp only [reduceCtorEq, if_false, he, ho, hlt, if_true, List.append_nil]
      exact ih (by omega) (by omega) (by omega) (ha.merge aalt)

/-! ### The lines before a newline and after it -/

/-- A failure is not before the start. -/
def Within (p : P O α) : Prop := ∀ eoi s e, (p eoi s).out = .error e → e.rem ≤ s.length

theorem within_just (c) : Within (just c : P O Char) := by
  intro eoi s e h
  unfold just at h
  split at h
  · split at h
    · simp [pok] at h
    · simp [pfail] at h; subst h; simp
  · simp [pfail] at h; subst h; simp

theorem within_mapErr {f} {p : P O α} (h : Within p) : Within (mapErr f p) := by
  intro eoi s e he
  obtain ⟨e0, h1, h2⟩ := mapErr_error_inv he
  have := h eoi s e0 h1
  omega

theorem within_pmap {f : α → β} {p : P O α} (h : Within p) : Within (pmap f p) :=
  fun eoi s e he => h eoi s e (pmap_error.1 he)

theorem within_orP_left {p q : P O α} (h : Within p) : Within (orP p q) := by
  intro eoi s e he
  obtain ⟨e1, e2, h1, h2, h3⟩ := orP_error_inv he
  have := h eoi s e1 h1
  have h4 := Loc.max_le e1 e2
  have h5 := Loc.max_le e2 e1
  rcases h3 with rfl | rfl <;> omega

theorem within_orP_right {p q : P O α} (h : Within q) : Within (orP p q) := by
  intro eoi s e he
  obtain ⟨e1, e2, h1, h2, h3⟩ := orP_error_inv he
  have := h eoi s e2 h2
  have h4 := Loc.max_le e1 e2
  have h5 := Loc.max_le e2 e1
  rcases h3 with rfl | rfl <;> omega

theorem within_newline : Within (newline : P O Unit) :=
  within_mapErr (within_pmap (within_orP_right (within_just _)))

theorem within_lineSpace : Within (lineSpace : P O Unit) := within_orP_left (within_orP_left within_newline)

/-- A line feed as a line. -/
theorem lineSpace_lf {eoi sp : Sp O} {t : List (Tok O)} : ∃ alt, LB (t.length + 1) alt ∧
    lineSpace eoi (('\n', sp) :: t) = ⟨false, [], .ok ((), alt), t⟩ := by
  have h1 : ∃ e : PErr O, ignoreThen (orNot (just '\r')) (just '\n') eoi (('\n', sp) :: t) =
      ⟨false, [], .ok ('\n', some ⟨t.length + 1, e⟩), t⟩ := by
    exact ⟨_, rfl⟩
  obtain ⟨e, h1⟩ := h1
  refine ⟨some ⟨t.length + 1, e⟩, lb_some.2 (Nat.le_refl _), ?_⟩
  have left : ∀ {p q : P O Char}, p eoi (('\n', sp) :: t) = ⟨false, [], .ok ('\n', some ⟨t.length + 1, e⟩), t⟩ →
      orP p q eoi (('\n', sp) :: t) = ⟨false, [], .ok ('\n', some ⟨t.length + 1, e⟩), t⟩ := by
    intro p q h
    simp [orP, h, PRes.clean]
  have h2 : newline eoi (('\n', sp) :: t) = ⟨false, [], .ok ((), some ⟨t.length + 1, e⟩), t⟩ := by
    simp only [newline, mapErr, ignored, pmap]
    rw [left (left (left (left (left h1))))]
  have left' : ∀ {p q : P O Unit}, p eoi (('\n', sp) :: t) = ⟨false, [], .ok ((), some ⟨t.length + 1, e⟩), t⟩ →
      orP p q eoi (('\n', sp) :: t) = ⟨false, [], .ok ((), some ⟨t.length + 1, e⟩), t⟩ := by
    intro p q h
    simp [orP, h, PRes.clean]
  exact left' (left' h2)

/-- Lines before a line feed, the line feed, and what follows: the end and the alternative are those
of the lines after the line feed. -/
theorem lines_lf_after {eoi : Sp O} {l : List Line} {s t : List (Tok O)} (hl : LinesOk true ('\n' :: chars t) l)
    (hT : Takes s (linesText l ++ ['\n']) t) :
    ∃ as1 as2 e u, e.rem ≤ t.length ∧ repeated lineSpace eoi s = ⟨false, [], .ok (as1, some e), u⟩ ∧
      repeated lineSpace eoi t = ⟨false, [], .ok (as2, some e), u⟩ := by
  obtain ⟨t0, g1, g2⟩ := takes_append.1 hT
  obtain ⟨sp, t1, rfl, g3⟩ := takes_cons.1 g2
  have := takes_nil.1 g3; subst this
  obtain ⟨as, hr⟩ := reps_lines_to (eoi := eoi) (l := l) (s := s) (t := ('\n', sp) :: t1) hl g1
    (by intro c hc; simp [chars] at hc; subst hc; decide)
  obtain ⟨f1, o1, a1, p1, k1, k2, k3⟩ := repGo_through tight_lineSpace hr (fuel := s.length + 1) (outs := [])
    (alt := none) (pan := false) (by omega) lb_none
  obtain ⟨alt, m1, m2⟩ := lineSpace_lf (eoi := eoi) (sp := sp) (t := t1)
  obtain ⟨f1, rfl⟩ : ∃ k, f1 = k + 1 := ⟨f1 - 1, by omega⟩
  have k4 : repGo lineSpace 0 none eoi (f1 + 1) o1 [] a1 p1 (('\n', sp) :: t1) =
      repGo lineSpace 0 none eoi f1 (o1 ++ [()]) [] (mergeAlts a1 alt) (p1 || false || clashAlts a1 alt) t1 := by
    rw [repGo]
    simp only [reduceCtorEq, if_false, m2, List.length_cons, Nat.lt_succ_self, if_true, List.append_nil]
  rw [k4] at k3
  simp only [List.length_cons] at k1 k2
  obtain ⟨as1, as2, e, n0, n1, n2, n3⟩ := repGo_same (n := t1.length) quiet_lineSpace eats_lineSpace.consumes
    (fun s e hs he => Nat.le_trans (within_lineSpace eoi s e he) hs) (f1 := f1) (f2 := t1.length + 1)
    (o1 := o1 ++ [()]) (o2 := []) (alt1 := mergeAlts a1 alt) (alt2 := none)
    (pan1 := p1 || false || clashAlts a1 alt) (pan2 := false) (s := t1) (by omega) (by omega) (Nat.le_refl _)
    (Or.inr ⟨mergeAlts_lb k2 m1, lb_none⟩)
  obtain ⟨b1, c1, u1, l1, -⟩ := lines_spec eoi s
  obtain ⟨b2, c2, u2, l2, -⟩ := lines_spec eoi t1
  have r1 : (repeated lineSpace eoi s).out = .ok (as1, some e) := by
    show (repGo lineSpace 0 none eoi (s.length + 1) [] [] none false s).out = _
    rw [k3]; exact n1
  have r2 : (repeated lineSpace eoi t1).out = .ok (as2, some e) := n2
  have r3 : (repeated lineSpace eoi s).rest = (repeated lineSpace eoi t1).rest := by
    show (repGo lineSpace 0 none eoi (s.length + 1) [] [] none false s).rest = _
    rw [k3]; exact n3
  rw [l1] at r1 r3
  rw [l2] at r2 r3
  simp only [Except.ok.injEq, Prod.mk.injEq] at r1 r2 r3
  refine ⟨as1, as2, e, u2, n0, ?_, ?_⟩
  · rw [l1, r1.1, r1.2, r3]
  · rw [l2, r2.1, r2.2]

/-! ### Merging with itself -/

theorem setInsert_mem {l : List TokenFormat} (hl : SetSorted l) {t : TokenFormat} (ht : t ∈ l) : setInsert t l = l := by
  induction l with
  | nil => simp at ht
  | cons x l ih =>
    unfold setInsert
    obtain ⟨h1, h2⟩ := List.pairwise_cons.1 hl
    by_cases hx : t = x
    · simp [hx]
    · have hm : t ∈ l := by simpa [hx] using ht
      have hlt : t.lt x = false := by
        cases hb : t.lt x with
        | false => rfl
        | true =>
          have := TokenFormat.lt_trans (h1 t hm) hb
          rw [TokenFormat.lt_irrefl] at this
          cases this
      simp [hx, hlt, ih h2 hm]

theorem setExtend_sub {l m : List TokenFormat} (hl : SetSorted l) (hm : ∀ t ∈ m, t ∈ l) : setExtend l m = l := by
  unfold setExtend
  induction m with
  | nil => rfl
  | cons t m ih =>
    rw [List.foldl_cons, setInsert_mem hl (hm t (by simp))]
    exact ih (fun t ht => hm t (by simp [ht]))

theorem merge_self {eoi : Sp O} {e : PErr O} (h : (selfRel eoi).er e e) : (e.merge e).getD e = e := by
  cases e with
  | unexpected l s f ex =>
    simp only [Rel.er] at h
    simp only [PErr.merge, Option.getD_some]
    rw [setExtend_sub h.2.2.2.2.1 (fun _ h => h)]
  | _ => rfl

theorem Loc.max_self {eoi : Sp O} {e : Loc O} (h : (selfRel eoi).er e.err e.err) : e.max e = e := by
  have h2 := merge_self h
  obtain ⟨rem, e⟩ := e
  simp only [Loc.max, Nat.lt_irrefl, if_false]
  simp only at h2
  cases hm : e.merge e with
  | none => rfl
  | some e' => rw [hm] at h2; simp at h2; rw [h2]

/-- The alternative of lines, merged with itself. -/
theorem lines_alt_self {eoi : Sp O} {s as alt} (h : (repeated lineSpace eoi s).out = .ok (as, alt)) :
    mergeAlts alt alt = alt := by
  have hr := Rel.sim_repeated (R := selfRel eoi) (k := s.length + 1) Rel.sim_lineSpace s s rfl (by omega)
  cases alt with
  | none => rfl
  | some e =>
    rcases hr.out with ⟨a, b, alt1, alt2, g1, g2, g3, g4⟩ | ⟨e, e', g1, g2, g3⟩
    · have h' : (repeated lineSpace (selfRel eoi).eoi s).out = .ok (as, some e) := h
      have h'' : (repeated lineSpace (selfRel eoi).eoi' s).out = .ok (as, some e) := h
      rw [h'] at g1
      rw [h''] at g2
      injection g1 with g1; injection g1 with _ g1
      injection g2 with g2; injection g2 with _ g2
      subst g1 g2
      show some (e.max e) = some e
      rw [Loc.max_self g4.2]
    · rw [show (repeated lineSpace (selfRel eoi).eoi s).out = .ok (as, some _) from h] at g1
      simp at g1

/-! ### Lists of nodes -/

/-- The end of a separated list: the trailing delimiter and the last error. -/
def sepEnd (delim : P O β) (eoi : Sp O) (x : List α × List (Loc O) × Option (Loc O) × Bool × List (Tok O) × Option (Loc O)) :
    List α × List (Loc O) × Option (Loc O) × List (Tok O) :=
  (x.1, x.2.1, mergeAlts (sepDelim delim eoi x.2.2.1 x.2.2.2.2.1).1 x.2.2.2.2.2, (sepDelim delim eoi x.2.2.1 x.2.2.2.2.1).2.2)

/-- The loop gives the same with other bounds and other items before. -/
theorem sepGo_outs {item : P O α} {eoi : Sp O} (hi : Eats 1 item) : ∀ {f1 f2 o1 o2 errs alt pan1 pan2 s},
    s.length < f1 → s.length < f2 →
    ∃ vs errs' alt' u, sepEnd (repeated lineSpace) eoi (sepGo item (repeated lineSpace) eoi f1 o1 errs alt pan1 s) = (o1 ++ vs, errs', alt', u) ∧
      sepEnd (repeated lineSpace) eoi (sepGo item (repeated lineSpace) eoi f2 o2 errs alt pan2 s) = (o2 ++ vs, errs', alt', u) := by
  intro f1
  induction f1 with
  | zero => intro _ _ _ _ _ _ _ _ h; omega
  | succ f1 ih =>
    intro f2 o1 o2 errs alt pan1 pan2 s h1 h2
    obtain ⟨f2, rfl⟩ : ∃ k, f2 = k + 1 := ⟨f2 - 1, by omega⟩
    obtain ⟨as, dalt, t, d1, _, _, d4⟩ := lines_spec eoi s
    rw [sepGo, sepGo]
    simp only [d1]
    cases ho : (item eoi t).out with
    | error e =>
      simp only [ho]
      exact ⟨[], errs ++ [] ++ (item eoi t).errs, mergeAlts (sepDelim (repeated lineSpace) eoi (mergeAlts alt dalt) s).1 (some e),
        (sepDelim (repeated lineSpace) eoi (mergeAlts alt dalt) s).2.2, by simp only [List.append_nil, sepEnd],
        by simp only [List.append_nil, sepEnd]⟩
    | ok x =>
      have hlt := hi eoi t x ho
      have hlt' : (item eoi t).rest.length < s.length := by omega
      simp only [ho, hlt', if_true]
      obtain ⟨vs, errs', alt', u, k1, k2⟩ := ih (f2 := f2) (o1 := o1 ++ [x.1]) (o2 := o2 ++ [x.1]) (errs := errs ++ [] ++ (item eoi t).errs)
        (alt := mergeAlts (mergeAlts alt dalt) x.2)
        (pan1 := pan1 || false || (item eoi t).panicked || clashAlts alt dalt || clashAlts (mergeAlts alt dalt) x.2)
        (pan2 := pan2 || false || (item eoi t).panicked || clashAlts alt dalt || clashAlts (mergeAlts alt dalt) x.2)
        (s := (item eoi t).rest) (by omega) (by omega)
      exact ⟨x.1 :: vs, errs', alt', u, by rw [k1]; simp, by rw [k2]; simp⟩

/-- A separated list is the loop with nothing before. -/
theorem separatedBy_go {item : P O α} (hi : Eats 1 item) (eoi : Sp O) (s : List (Tok O)) :
    ∃ pan vs errs alt u, separatedBy item (repeated lineSpace) eoi s = ⟨pan, errs, .ok (vs, alt), u⟩ ∧
      sepEnd (repeated lineSpace) eoi (sepGo item (repeated lineSpace) eoi (s.length + 1) [] [] none false s) = (vs, errs, alt, u) := by
  obtain ⟨as, dalt, t, d1, _, _, d4⟩ := lines_spec eoi s
  have hself := lines_alt_self (as := as) (alt := dalt) (by rw [d1])
  have hm : mergeAlts none dalt = dalt := by cases dalt <;> rfl
  have hd : ∀ alt, sepDelim (repeated lineSpace) eoi alt s = (mergeAlts alt dalt, clashAlts alt dalt, t) := by
    intro alt; simp [sepDelim, d1, mergeAltsL, clashAltsL]
  rw [sepGo]
  simp only [separatedBy, hd, d1]
  cases ho : (item eoi t).out with
  | error e =>
    simp only [ho, sepEnd, hd, hm, hself]
    exact ⟨_, _, _, _, _, rfl, by simp⟩
  | ok x =>
    have hlt := hi eoi t x ho
    have hlt' : (item eoi t).rest.length < s.length := by omega
    simp only [ho, hlt', if_true]
    obtain ⟨vs, errs', alt', u, k1, k2⟩ := sepGo_outs (eoi := eoi) hi (f1 := (item eoi t).rest.length + 1) (f2 := s.length) (o1 := [x.1]) (o2 := [] ++ [x.1])
      (errs := (item eoi t).errs) (alt := mergeAlts (mergeAlts none dalt) x.2)
      (pan1 := clashAlts none dalt || (item eoi t).panicked || clashAlts (mergeAlts none dalt) x.2)
      (pan2 := false || false || (item eoi t).panicked || clashAlts none dalt || clashAlts (mergeAlts none dalt) x.2)
      (s := (item eoi t).rest) (by omega) (by omega)
    simp only [List.nil_append, List.append_nil] at k2 ⊢
    rw [k2]
    unfold sepEnd at k1
    simp only [Prod.mk.injEq] at k1
    obtain ⟨m1, m2, m3, m4⟩ := k1
    rw [m1, m2, m3, m4]
    exact ⟨_, _, _, _, _, rfl, rfl⟩

/-- The loop on legal nodes and a line feed gives the items of the nodes and then what the loop gives
after the line feed. -/
theorem sepGo_body {eoi : Sp O} (b : BodyC) {n : Nat} {s t : List (Tok O)} (hn : s.length ≤ n)
    (hok : b.Ok true ('\n' :: chars t)) (hT : Takes s (b.text ++ ['\n']) t) :
    ∀ {fuel outs alt pan}, s.length < fuel → LB s.length alt → ∃ ws vs errs alt' u,
      sepEnd (repeated lineSpace) eoi (sepGo (nodeItem (nodesRec n)) (repeated lineSpace) eoi fuel outs [] alt pan s) =
        (outs ++ ws ++ vs, errs, alt', u) ∧
      sepEnd (repeated lineSpace) eoi (sepGo (nodeItem (nodesRec n)) (repeated lineSpace) eoi (t.length + 1) [] [] none false t) =
        (vs, errs, alt', u) := by
  have hle := hT.length
  simp only [List.length_append, List.length_cons, List.length_nil] at hle
  match b with
  | .nil lines =>
    intro fuel outs alt pan hf hl
    obtain ⟨fuel, rfl⟩ : ∃ k, fuel = k + 1 := ⟨fuel - 1, by omega⟩
    obtain ⟨as1, as2, e, u, h0, h1, h2⟩ := lines_lf_after (eoi := eoi) (l := lines) (s := s) (t := t)
      (by simpa [BodyC.Ok] using hok) (by simpa [BodyC.text] using hT)
    have hm := mergeAlts_behind (n := t.length) (a := alt) (e := e) (hl.mono (by omega)) h0
    have hm0 : mergeAlts none (some e) = some e := rfl
    have hlu : u.length ≤ t.length := by
      obtain ⟨_, _, u', l1, _, _, l4⟩ := lines_spec eoi t
      rw [h2] at l1; injection l1 with _ _ _ l1; subst l1; exact l4
    rw [sepGo, sepGo]
    simp only [h1, h2, hm, hm0]
    cases ho : (nodeItem (nodesRec n) eoi u).out with
    | error e1 =>
      simp only [sepEnd, sepDelim, h1, h2, mergeAltsL, List.foldl_nil]
      exact ⟨[], [], _, _, _, by simp, rfl⟩
    | ok x =>
      have hlt := eats_nodeItem (suf_nodesRec n) eoi u x ho
      have hlt1 : (nodeItem (nodesRec n) eoi u).rest.length < s.length := by omega
      have hlt2 : (nodeItem (nodesRec n) eoi u).rest.length < t.length := by omega
      simp only [hlt1, hlt2, if_true]
      obtain ⟨vs, errs', alt', w, k1, k2⟩ := sepGo_outs (eoi := eoi) (eats_nodeItem (suf_nodesRec n)) (f1 := fuel) (f2 := t.length)
        (o1 := outs ++ [x.1]) (o2 := [] ++ [x.1])
        (errs := [] ++ [] ++ (nodeItem (nodesRec n) eoi u).errs) (alt := mergeAlts (some e) x.2)
        (pan1 := pan || false || (nodeItem (nodesRec n) eoi u).panicked || clashAlts alt (some e) || clashAlts (some e) x.2)
        (pan2 := false || false || (nodeItem (nodesRec n) eoi u).panicked || clashAlts none (some e) || clashAlts (some e) x.2)
        (s := (nodeItem (nodesRec n) eoi u).rest) (by omega) (by omega)
      exact ⟨[], x.1 :: vs, errs', alt', w, by rw [k1]; simp, by rw [k2]; simp⟩
  | .cons lines d c rest =>
    intro fuel outs alt pan hf hl
    obtain ⟨fuel, rfl⟩ : ∃ k, fuel = k + 1 := ⟨fuel - 1, by omega⟩
    obtain ⟨h1, h2, h3, h4⟩ := hok
    have hT' : Takes s (Cst.linesText lines ++ (Cst.dashText d ++ (c.text ++ (rest.text ++ ['\n'])))) t := by
      simpa [BodyC.text] using hT
    obtain ⟨t1, g1, hT'⟩ := takes_append.1 hT'
    obtain ⟨t2, g2, hT'⟩ := takes_append.1 hT'
    obtain ⟨t3, g3, g4⟩ := takes_append.1 hT'
    have e1 := g1.drop (all := s) (n := 0) rfl
    have e2 := g2.drop e1
    have e3 := g3.drop e2
    have hc3 : chars t3 = rest.text ++ '\n' :: chars t := by have := g4.chars; simpa using this
    have hc2 : chars t2 = c.text ++ rest.text ++ '\n' :: chars t := by rw [g3.chars, hc3]; simp
    have hc1 : chars t1 = Cst.dashText d ++ c.text ++ rest.text ++ '\n' :: chars t := by
      rw [g2.chars, hc2]; simp
    have h3' : c.Ok true (chars t3) := by rw [hc3]; exact h3
    obtain ⟨x, w, hx, hsol⟩ := node_solid h3'
    have hc2' : chars t2 = x :: (w ++ rest.text ++ '\n' :: chars t) := by rw [hc2, hx]; simp
    have hdash : d = none → ¬ ['/', '-'] <+: chars t1 := by
      rintro rfl
      have := takes_nil.1 g2; subst this
      rw [hc2']
      exact not_prefix_head (c := '/') rfl rfl (fun h => hsol.2.2.1 h.symm)
    have hnl : NoLine (chars t1) := by
      cases d with
      | none =>
        have := takes_nil.1 g2; subst this
        rw [hc2']
        refine ⟨noWs_lit hsol.1 hsol.2.2.1, ?_, ?_⟩
        · intro c' hc'; simp at hc'; subst hc'; exact hsol.2.1
        · exact not_prefix_head (c := '/') rfl rfl (fun h => hsol.2.2.1 h.symm)
      | some l =>
        rw [hc1]
        refine ⟨noWs_slash (by decide), ?_, ?_⟩
        · intro c' hc'; simp [Cst.dashText] at hc'; subst hc'; decide
        · rintro ⟨y, hy⟩; simp [Cst.dashText] at hy
    obtain ⟨as, p1⟩ := ok_lines (eoi := eoi) (l := lines) (s := s) (t := t1) (by rw [hc1]; exact h1) g1
      (failsC_lineSpace hnl).fails
    obtain ⟨y, p2, hy⟩ := ok_dash (eoi := eoi) (d := d) (s := t1) (t := t2)
      (by rw [hc2]; exact h2) g2 (by rw [hc2']; exact hsol.noSpace) hdash
    have hlen1 : t1.length ≤ s.length := by have := g1.length; omega
    have hlen2 : t2.length ≤ n := by
      have := g1.length; have := g2.length
      omega
    have p3 := node_complete (eoi := eoi) (all := s) c hlen2 e2 h3' g3
    have hlen3 : t3.length < t1.length := by
      have := g2.length; have := g3.length
      rw [hx] at this
      simp at this
      omega
    have hlen3' : t3.length < s.length := by omega
    have p4 : Ok (nodeItem (nodesRec n)) eoi t1 (y, c.value (spf eoi s) (0 + (Cst.linesText lines).length + (Cst.dashText d).length)) t3 :=
      ok_seq.2 ⟨t2, p2, p3⟩
    have hspec := nodeItem_spec (suf_nodesRec n) (eoi := eoi) (s := t1)
      (fun w1 hw => nodesRec_spec n (by omega))
    obtain ⟨q1, ⟨ialt, q2⟩, q3⟩ := p4
    obtain ⟨as', dalt, u', d1, _, d3, _⟩ := lines_spec eoi s
    obtain ⟨_, ⟨dalt', r2⟩, r3⟩ := p1
    rw [d1] at r2 r3
    obtain rfl : u' = t1 := r3
    obtain ⟨_, i2, i3⟩ := hspec.ok _ _ q2
    rw [q3] at i2
    have hd := d3 i3
    rw [sepGo]
    simp only [d1, q1, q2, q3, hlen3', if_true]
    obtain ⟨ws, vs, errs, alt', u, k1, k2⟩ := sepGo_body (eoi := eoi) rest (n := n) (by omega) h4 g4
      (fuel := fuel) (outs := outs ++ [(y, c.value (spf eoi s) (0 + (Cst.linesText lines).length + (Cst.dashText d).length))])
      (alt := mergeAlts (mergeAlts alt dalt) ialt)
      (pan := pan || false || (nodeItem (nodesRec n) eoi u').panicked || clashAlts alt dalt || clashAlts (mergeAlts alt dalt) ialt)
      (by omega)
      (mergeAlts_lb (mergeAlts_lb (hl.mono (by omega)) (hd.mono (by omega))) i2)
    exact ⟨(y, c.value (spf eoi s) (0 + (Cst.linesText lines).length + (Cst.dashText d).length)) :: ws, vs, errs, alt', u,
      by simpa using k1, k2⟩

theorem self_er {eoi : Sp O} {a b : PErr O} (h : (selfRel eoi).er a b) : a = b := by
  cases a <;> cases b <;> simp only [Rel.er] at h
  · obtain ⟨rfl, h, rfl, rfl, _⟩ := h; cases h; rfl
  · obtain ⟨rfl, h, rfl, h', rfl, rfl⟩ := h; cases h; cases h'; rfl
  · obtain ⟨rfl, h, rfl⟩ := h; cases h; rfl
  · obtain ⟨rfl, h, rfl, rfl⟩ := h; cases h; rfl

theorem self_loc {eoi : Sp O} {a b : Loc O} (h : (selfRel eoi).loc a b) : a = b := by
  obtain ⟨r, e⟩ := a
  obtain ⟨r', e'⟩ := b
  obtain ⟨h1, h2⟩ := h
  simp only at h1 h2
  rw [h1, self_er h2]

/-- The nodes on legal nodes and a line feed: the errors are those after the line feed. -/
theorem nodes_body {eoi : Sp O} (b : BodyC) {s t : List (Tok O)}
    (hok : b.Ok true ('\n' :: chars t)) (hT : Takes s (b.text ++ ['\n']) t) :
    ∃ p1 p2 v1 v2 errs alt u, nodes eoi s = ⟨p1, errs, .ok (v1, alt), u⟩ ∧ nodes eoi t = ⟨p2, errs, .ok (v2, alt), u⟩ := by
  have hle := hT.length
  simp only [List.length_append, List.length_cons, List.length_nil] at hle
  obtain ⟨pan1, vs1, errs1, alt1, u1, a1, a2⟩ := separatedBy_go (eats_nodeItem (suf_nodesRec s.length)) eoi s
  obtain ⟨pan2, vs2, errs2, alt2, u2, b1, b2⟩ := separatedBy_go (eats_nodeItem (suf_nodesRec s.length)) eoi t
  obtain ⟨ws, vs, errs, alt', u, k1, k2⟩ := sepGo_body (eoi := eoi) b (Nat.le_refl s.length) hok hT
    (fuel := s.length + 1) (outs := []) (alt := none) (pan := false) (by omega) (by intro e he; cases he)
  rw [a2] at k1
  rw [b2] at k2
  simp only [Prod.mk.injEq] at k1 k2
  obtain ⟨_, rfl, rfl, rfl⟩ := k1
  obtain ⟨_, rfl, rfl, rfl⟩ := k2
  have hr := Rel.sim_nodesRec (R := selfRel eoi) (s.length + 1) (t.length + 1) (t.length + 1) (by omega) (by omega) t t rfl (by omega)
  have hs : nodesRec (s.length + 1) eoi s = ⟨pan1, errs2, .ok (keepNodes vs1, alt2), u2⟩ := by
    rw [nodesRec]; simp only [pmap, a1]
  have ht : nodesRec (s.length + 1) eoi t = ⟨pan2, errs2, .ok (keepNodes vs2, alt2), u2⟩ := by
    rw [nodesRec]; simp only [pmap, b1]
  have ht' : nodesRec (s.length + 1) (selfRel eoi).eoi t = ⟨pan2, errs2, .ok (keepNodes vs2, alt2), u2⟩ := ht
  rw [ht'] at hr
  have h1 := hr.errs
  have h2 := hr.rest
  refine ⟨pan1, (nodes eoi t).panicked, keepNodes vs1, ?_⟩
  rcases hr.out with ⟨a, c, x, y, g1, g2, g3, g4⟩ | ⟨e, e', g1, g2, g3⟩
  · injection g1 with g1
    injection g1 with _ g1
    subst g1
    have hy : y = alt2 := by
      cases alt2 <;> cases y <;> simp only [ORel] at g4
      · rfl
      · rw [self_loc g4]
    subst hy
    refine ⟨c, errs2, y, u2, hs, ?_⟩
    have e1 : errs2 = (nodes eoi t).errs := (h1.mono fun _ _ h => self_loc h).eq
    have e2 : u2 = (nodes eoi t).rest := h2
    have e3 : (nodes eoi t).out = .ok (c, y) := g2
    cases hn : nodes eoi t with
    | mk p e o r => rw [hn] at e1 e2 e3; simp only at e1 e2 e3; rw [e1, e2, e3]
  · cases g1

/-- The outcome of a run, the errors only. -/
def errorsOf (r : Option (Except (List (PErr O)) α)) : Option (List (PErr O)) :=
  match r with
  | some (.error es) => some es
  | _ => none

/-- The document on legal nodes and a line feed: the errors are those after the line feed. -/
theorem document_after {eoi : Sp O} (b : BodyC) {s t : List (Tok O)}
    (hok : b.Ok true ('\n' :: chars t)) (hT : Takes s (b.text ++ ['\n']) t) :
    errorsOf (runParser document eoi s) = errorsOf (runParser document eoi t) := by
  obtain ⟨p1, p2, v1, v2, errs, alt, u, h1, h2⟩ := nodes_body (eoi := eoi) b hok hT
  unfold runParser
  simp only [document_np, Bool.false_eq_true, if_false]
  unfold document thenIgnore bind pmap
  simp only [h1, h2]
  cases he : (endP eoi u).out <;> simp only [he]
  cases hb : (errs ++ (endP eoi u).errs).isEmpty <;> simp [errorsOf]

end
end Knuffel
