import Verif.Theory.After
import Verif.Theory.Open
import Verif.Theory.Strict
/-!
# What is left open

How the parser comes to its diagnostic when something is left open at the end of the text: the
error at the end of the text is the furthest one and wins against all others.
-/

set_option linter.unusedSectionVars false
set_option linter.unusedSimpArgs false

namespace Knuffel
open Cst

variable {O α β γ : Type}

section
variable [Offset O]

/-! ### Merging with the error at the end -/

/-- An error that reports something left open. -/
def PErr.open? : PErr O → Bool
  | .unclosed .. => true
  | _ => false

/-- The error at the end of the text, or one before the end. -/
def Good (X : PErr O) (o : Option (Loc O)) : Prop := o = some ⟨0, X⟩ ∨ LB 1 o

theorem Loc.max_open {X : PErr O} (hX : X.open? = true) : (⟨0, X⟩ : Loc O).max ⟨0, X⟩ = ⟨0, X⟩ := by
  cases X <;> simp [PErr.open?] at hX
  simp [Loc.max, PErr.merge]

theorem good_left {X : PErr O} (hX : X.open? = true) {o : Option (Loc O)} (h : Good X o) :
    mergeAlts (some ⟨0, X⟩) o = some ⟨0, X⟩ := by
  rcases h with rfl | h
  · show some (Loc.max _ _) = _
    rw [Loc.max_open hX]
  · exact (mergeAlts_far (a := ⟨0, X⟩) h).1

theorem good_right {X : PErr O} (hX : X.open? = true) {o : Option (Loc O)} (h : Good X o) :
    mergeAlts o (some ⟨0, X⟩) = some ⟨0, X⟩ := by
  rcases h with rfl | h
  · show some (Loc.max _ _) = _
    rw [Loc.max_open hX]
  · exact (mergeAlts_far (a := ⟨0, X⟩) h).2.1

theorem good_maxO {X : PErr O} (hX : X.open? = true) {o : Option (Loc O)} (h : Good X o) :
    (⟨0, X⟩ : Loc O).maxO o = ⟨0, X⟩ := by
  rcases h with rfl | h
  · exact Loc.max_open hX
  · exact (maxO_far (a := ⟨0, X⟩) h).1

theorem maxO_hit {X : PErr O} (hX : X.open? = true) {e : Loc O} (h : Good X (some e)) :
    e.maxO (some ⟨0, X⟩) = ⟨0, X⟩ := by
  rcases h with h | h
  · injection h with h; subst h; exact Loc.max_open hX
  · exact (Loc.max_far (a := ⟨0, X⟩) (b := e) (lb_some.1 h)).2.1

/-- The parser fails with the error at the end of the text. -/
def Hits (X : PErr O) (p : P O α) (eoi : Sp O) (s : List (Tok O)) : Prop :=
  (p eoi s).errs = [] ∧ (p eoi s).out = .error ⟨0, X⟩

/-- The parser fails before the end of the text. -/
def Far (p : P O α) (eoi : Sp O) (s : List (Tok O)) : Prop :=
  (p eoi s).errs = [] ∧ ∃ e, (p eoi s).out = .error e ∧ 1 ≤ e.rem

/-- The parser succeeds with the error at the end of the text as the alternative. -/
def HitAlt (X : PErr O) (p : P O α) (eoi : Sp O) (s : List (Tok O)) (a : α) (t : List (Tok O)) : Prop :=
  (p eoi s).errs = [] ∧ (p eoi s).out = .ok (a, some ⟨0, X⟩) ∧ (p eoi s).rest = t

/-- The parser succeeds with an alternative before the end of the text. -/
def FarAlt (p : P O α) (eoi : Sp O) (s : List (Tok O)) (a : α) (t : List (Tok O)) : Prop :=
  (p eoi s).errs = [] ∧ (∃ alt, (p eoi s).out = .ok (a, alt) ∧ LB 1 alt) ∧ (p eoi s).rest = t

variable {X : PErr O} {eoi : Sp O} {s t : List (Tok O)}

theorem far_of {p : P O α} (hq : (p eoi s).errs = []) (hf : Fails p eoi s) (hn : ∀ e, (p eoi s).out = .error e → 1 ≤ e.rem) :
    Far p eoi s := by
  obtain ⟨e, he⟩ := hf
  exact ⟨hq, e, he, hn e he⟩

theorem far_at {p : P O α} (hq : FailQuiet p) (hf : Fails p eoi s) (hn : At p eoi s) (hs : 1 ≤ s.length) : Far p eoi s := by
  obtain ⟨e, he⟩ := hf
  exact ⟨hq eoi s e he, e, he, Nat.le_trans hs (hn e he)⟩

theorem far_at1 {p : P O α} (hq : FailQuiet p) (hf : Fails p eoi s) (hn : At1 p eoi s) (hs : 2 ≤ s.length) : Far p eoi s := by
  obtain ⟨e, he⟩ := hf
  exact ⟨hq eoi s e he, e, he, by have := hn e he; omega⟩

theorem hits_pmap {f : α → β} {p : P O α} (h : Hits X p eoi s) : Hits X (pmap f p) eoi s := by
  obtain ⟨h1, h2⟩ := h
  simp [Hits, pmap, h1, h2]

theorem hits_spanned {p : P O α} (h : Hits X p eoi s) : Hits X (spanned p) eoi s := by
  obtain ⟨h1, h2⟩ := h
  simp [Hits, spanned, mapWithSpan, h1, h2]

theorem hits_mapErr {f} {p : P O α} (hf : f X = X) (h : Hits X p eoi s) : Hits X (mapErr f p) eoi s := by
  obtain ⟨h1, h2⟩ := h
  simp [Hits, mapErr, h1, h2, hf]

theorem hits_tryMap {f : α → Sp O → Except (PErr O) β} {p : P O α} (h : Hits X p eoi s) : Hits X (tryMap f p) eoi s := by
  obtain ⟨h1, h2⟩ := h
  simp [Hits, tryMap, h1, h2]

theorem hits_bind_left {p : P O α} {f : α → P O β} (h : Hits X p eoi s) : Hits X (bind p f) eoi s := by
  obtain ⟨h1, h2⟩ := h
  simp [Hits, bind, h1, h2]

/-- The second parser fails at the end. -/
theorem hits_bind {p : P O α} {f : α → P O β} {a alt} (hX : X.open? = true) (h1 : (p eoi s).errs = []) (h2 : (p eoi s).out = .ok (a, alt))
    (h3 : Good X alt) (h4 : Hits X (f a) eoi (p eoi s).rest) : Hits X (bind p f) eoi s := by
  obtain ⟨h5, h6⟩ := h4
  simp only [Hits, bind, h1, h2, h5, h6]
  exact ⟨rfl, by rw [good_maxO hX h3]⟩

/-- The first parser has the alternative, the second fails. -/
theorem hits_bind_alt {p : P O α} {f : α → P O β} {a t} (hX : X.open? = true) (h1 : HitAlt X p eoi s a t)
    (h2 : (f a eoi t).errs = []) {e} (h3 : (f a eoi t).out = .error e) (h4 : Good X (some e)) : Hits X (bind p f) eoi s := by
  obtain ⟨g1, g2, rfl⟩ := h1
  simp only [Hits, bind, g1, g2, h2, h3]
  exact ⟨rfl, by rw [maxO_hit hX h4]⟩

/-- Both succeed, one of them with the alternative. -/
theorem hitAlt_bind {p : P O α} {f : α → P O β} {a alt1 b alt2 u} (h1 : (p eoi s).errs = []) (h2 : (p eoi s).out = .ok (a, alt1))
    (h3 : (f a eoi (p eoi s).rest).errs = []) (h4 : (f a eoi (p eoi s).rest).out = .ok (b, alt2))
    (h5 : (f a eoi (p eoi s).rest).rest = u) (hm : mergeAlts alt1 alt2 = some ⟨0, X⟩) : HitAlt X (bind p f) eoi s b u := by
  simp [HitAlt, bind, h1, h2, h3, h4, h5, hm]

theorem farAlt_bind {p : P O α} {f : α → P O β} {a b t u} (h1 : FarAlt p eoi s a t)
    (h3 : FarAlt (f a) eoi t b u) : FarAlt (bind p f) eoi s b u := by
  obtain ⟨g1, ⟨alt1, g2, g3⟩, rfl⟩ := h1
  obtain ⟨k1, ⟨alt2, k2, k3⟩, k4⟩ := h3
  simp only [FarAlt, bind, g1, g2, k1, k2, k4]
  exact ⟨rfl, ⟨_, rfl, mergeAlts_lb g3 k3⟩, trivial⟩

theorem hits_orP_left {p q : P O α} (h1 : Hits X p eoi s) (h2 : Far q eoi s) : Hits X (orP p q) eoi s := by
  obtain ⟨g1, g2⟩ := h1
  obtain ⟨k1, e, k2, k3⟩ := h2
  obtain ⟨m1, m2, -⟩ := Loc.max_far (a := (⟨0, X⟩ : Loc O)) (b := e) k3
  rcases orP_error g2 k2 with h | h <;> simp [Hits, h, g1, k1, m1, m2]

theorem hits_orP_right {p q : P O α} (h1 : Far p eoi s) (h2 : Hits X q eoi s) : Hits X (orP p q) eoi s := by
  obtain ⟨g1, g2⟩ := h2
  obtain ⟨k1, e, k2, k3⟩ := h1
  obtain ⟨m1, m2, -⟩ := Loc.max_far (a := (⟨0, X⟩ : Loc O)) (b := e) k3
  rcases orP_error k2 g2 with h | h <;> simp [Hits, h, g1, k1, m1, m2]

/-- One of the alternatives fails at the end, the others before. -/
theorem hits_choiceGo (hX : X.open? = true) {ps : List (P O α)} : ∀ {alt pan}, (∀ p ∈ ps, Hits X p eoi s ∨ Far p eoi s) → Good X alt →
    (alt = some ⟨0, X⟩ ∨ ∃ p ∈ ps, Hits X p eoi s) → Hits X (choiceGo alt pan ps) eoi s := by
  induction ps with
  | nil =>
    intro alt pan _ _ h
    rcases h with rfl | ⟨p, hp, _⟩
    · exact ⟨rfl, rfl⟩
    · cases hp
  | cons p ps ih =>
    intro alt pan hall hg h
    have hp := hall p (by simp)
    have hps : ∀ q ∈ ps, Hits X q eoi s ∨ Far q eoi s := fun q hq => hall q (by simp [hq])
    rcases hp with ⟨g1, g2⟩ | ⟨g1, e, g2, g3⟩
    · have hm := good_right hX hg
      have := ih (pan := pan || (p eoi s).panicked || clashAlts alt (some ⟨0, X⟩)) (alt := some ⟨0, X⟩) hps (Or.inl rfl) (Or.inl rfl)
      simpa only [Hits, choiceGo, g2, hm] using this
    · have hm : Good X (mergeAlts alt (some e)) ∧ (alt = some ⟨0, X⟩ → mergeAlts alt (some e) = some ⟨0, X⟩) := by
        refine ⟨?_, ?_⟩
        · rcases hg with rfl | hg
          · exact Or.inl (good_left hX (Or.inr (lb_some.2 g3)))
          · exact Or.inr (mergeAlts_lb hg (lb_some.2 g3))
        · rintro rfl; exact good_left hX (Or.inr (lb_some.2 g3))
      have := ih (pan := pan || (p eoi s).panicked || clashAlts alt (some e)) (alt := mergeAlts alt (some e)) hps hm.1 (by
        rcases h with h | ⟨q, hq, hh⟩
        · exact Or.inl (hm.2 h)
        · simp only [List.mem_cons] at hq
          rcases hq with rfl | hq
          · rw [hh.2] at g2; injection g2 with g2; subst g2; simp at g3
          · exact Or.inr ⟨q, hq, hh⟩)
      simpa only [Hits, choiceGo, g2] using this

theorem hits_choice (hX : X.open? = true) {ps : List (P O α)} (h1 : ∀ p ∈ ps, Hits X p eoi s ∨ Far p eoi s)
    (h2 : ∃ p ∈ ps, Hits X p eoi s) : Hits X (choice ps) eoi s := hits_choiceGo hX h1 (Or.inr lb_none) (Or.inr h2)

theorem hitAlt_orNot {p : P O α} (h : Hits X p eoi s) : HitAlt X (orNot p) eoi s none s := by
  obtain ⟨h1, h2⟩ := h
  simp [HitAlt, orNot, h1, h2]

theorem farAlt_orNot {p : P O α} (h : Far p eoi s) : FarAlt (orNot p) eoi s none s := by
  obtain ⟨h1, e, h2, h3⟩ := h
  simp [FarAlt, orNot, h1, h2, lb_some, h3]

/-- A repetition that ends with a failure at the end of the text. -/
theorem rep_hit {p : P O α} (ht : Tight p) {as : List α} (h : Reps p eoi s as t) (hp : Hits X p eoi t) (hl : 1 ≤ t.length) :
    ∃ as, HitAlt X (repeated p) eoi s as t := by
  obtain ⟨f, o, a, pan, k1, k2, k3⟩ := repGo_through ht h (fuel := s.length + 1) (outs := []) (alt := none) (pan := false) (by omega) lb_none
  obtain ⟨f, rfl⟩ : ∃ k, f = k + 1 := ⟨f - 1, by omega⟩
  refine ⟨o, ?_⟩
  have : repeated p eoi s = repGo p 0 none eoi (f + 1) o [] a pan t := k3
  obtain ⟨g1, g2⟩ := hp
  have hm : mergeAlts a (some ⟨0, X⟩) = some ⟨0, X⟩ := (mergeAlts_far (a := ⟨0, X⟩) (k2.mono hl)).2.1
  rw [HitAlt, this, repGo]
  simp only [reduceCtorEq, if_false, g1, g2, Nat.not_lt_zero, List.head?_nil]
  have hm0 : mergeAlts (some (⟨0, X⟩ : Loc O)) none = some ⟨0, X⟩ := rfl
  simp only [hm0, hm]
  exact ⟨trivial, trivial, trivial⟩


/-- A repetition that ends with a failure before the end of the text. -/
theorem rep_far {p : P O α} (ht : Tight p) {as : List α} (h : Reps p eoi s as t) (hp : Far p eoi t) (hl : 1 ≤ t.length) :
    ∃ as, FarAlt (repeated p) eoi s as t := by
  obtain ⟨f, o, a, pan, k1, k2, k3⟩ := repGo_through ht h (fuel := s.length + 1) (outs := []) (alt := none) (pan := false) (by omega) lb_none
  obtain ⟨f, rfl⟩ : ∃ k, f = k + 1 := ⟨f - 1, by omega⟩
  refine ⟨o, ?_⟩
  have : repeated p eoi s = repGo p 0 none eoi (f + 1) o [] a pan t := k3
  obtain ⟨g1, e, g2, g3⟩ := hp
  rw [FarAlt, this, repGo]
  simp only [reduceCtorEq, if_false, g1, g2, Nat.not_lt_zero, List.head?_nil]
  have hm0 : mergeAlts (some e) none = some e := rfl
  rw [hm0]
  exact ⟨trivial, ⟨_, rfl, mergeAlts_lb (k2.mono hl) (lb_some.2 g3)⟩, trivial⟩

/-! ### Space -/

/-- No space begins here, and this is noticed before the end. -/
theorem far_nodeSpace (h : NoSpace (chars s)) (hl : (chars s).head? ≠ some '/' ∧ 1 ≤ s.length ∨ 2 ≤ s.length) : Far nodeSpace eoi s := by
  have hf := (failsC_nodeSpace (eoi := eoi) h).fails
  rcases hl with ⟨h1, h2⟩ | h2
  · exact far_at quiet_nodeSpace.failQuiet hf (at_orP (at_ws h1) (at_escLine h.2)) h2
  · exact far_at1 quiet_nodeSpace.failQuiet hf (at1_nodeSpace ⟨h.2, h.1.2⟩) h2

theorem far_lineSpace (h : NoLine (chars s)) (hr : (chars s).head? ≠ some '\r')
    (hl : (chars s).head? ≠ some '/' ∧ 1 ≤ s.length ∨ 2 ≤ s.length) : Far lineSpace eoi s := by
  have hf := (failsC_lineSpace (eoi := eoi) h).fails
  rcases hl with ⟨h1, h2⟩ | h2
  · exact far_at quiet_lineSpace.failQuiet hf (at_orP (at_orP (at_newline hr) (at_ws h1)) (at_comment h1)) h2
  · exact far_at1 quiet_lineSpace.failQuiet hf (at1_orP (at1_orP (at_newline hr).at1 (at1_ws h.1.2)) (near_comment.at1 _ _)) h2

theorem far_nodeSpaces {l : List Cst.Space} (hl : SpacesOk true (chars t) l) (hT : Takes s (spacesText l) t) (hf : Far nodeSpace eoi t)
    (h1 : 1 ≤ t.length) : ∃ as, FarAlt (repeated nodeSpace) eoi s as t := by
  obtain ⟨e, he⟩ := hf.2
  obtain ⟨as, _, hr⟩ := reps_nodeSpace_complete hl hT ⟨e, he.1⟩
  exact rep_far tight_nodeSpace hr hf h1

theorem far_lines {l : List Line} (hl : LinesOk true (chars t) l) (hT : Takes s (linesText l) t) (hf : Far lineSpace eoi t)
    (hw : ∀ c, (chars t).head? = some c → c ∉ Cst.wsChars) (h1 : 1 ≤ t.length) : ∃ as, FarAlt (repeated lineSpace) eoi s as t := by
  obtain ⟨as, hr⟩ := reps_lines_to (eoi := eoi) hl hT hw
  exact rep_far tight_lineSpace hr hf h1

theorem hit_nodeSpaces {l : List Cst.Space} (hl : SpacesOk true (chars t) l) (hT : Takes s (spacesText l) t) (hf : Hits X nodeSpace eoi t)
    (h1 : 1 ≤ t.length) : ∃ as, HitAlt X (repeated nodeSpace) eoi s as t := by
  obtain ⟨as, _, hr⟩ := reps_nodeSpace_complete hl hT ⟨_, hf.2⟩
  exact rep_hit tight_nodeSpace hr hf h1

theorem hit_lines {l : List Line} (hl : LinesOk true (chars t) l) (hT : Takes s (linesText l) t) (hf : Hits X lineSpace eoi t)
    (hw : ∀ c, (chars t).head? = some c → c ∉ Cst.wsChars) (h1 : 1 ≤ t.length) : ∃ as, HitAlt X (repeated lineSpace) eoi s as t := by
  obtain ⟨as, hr⟩ := reps_lines_to (eoi := eoi) hl hT hw
  exact rep_hit tight_lineSpace hr hf h1

theorem begun {c : Char} {s : List (Tok O)} (hT : Takes s ['/', c] t) :
    (beginComment c eoi s).errs = [] ∧ (beginComment c eoi s).out = .ok ((), none) ∧ (beginComment c eoi s).rest = t := by
  obtain ⟨sp, s1, rfl, h1⟩ := takes_cons.1 hT
  obtain ⟨sp', s2, rfl, h2⟩ := takes_cons.1 h1
  have := takes_nil.1 h2; subst this
  simp [beginComment, ignoreThen, ignored, bind, pmap, mapErr, just, pok, mergeAlts]

/-- The optional slashdash. -/
theorem far_dash {d : Option (List Cst.Space)} (hd : DashOk true (chars t) d) (hT : Takes s (dashText d) t) (hf : Far nodeSpace eoi t)
    (h1 : 1 ≤ t.length) (hdash : d = none → (chars s).head? ≠ some '/') :
    ∃ x, FarAlt (orNot (thenIgnore (beginComment '-') (repeated nodeSpace))) eoi s x t ∧ x.isSome = d.isSome := by
  cases d with
  | none =>
    have := takes_nil.1 hT; subst this
    refine ⟨none, farAlt_orNot ?_, rfl⟩
    have hn : Fails (beginComment '-') eoi s := (failsC_beginComment (fun ⟨w, hw⟩ => hdash rfl (by rw [← hw]; rfl))).fails
    exact far_at (quiet_thenIgnore (quiet_beginComment _) (quiet_repeated quiet_nodeSpace)).failQuiet
      (fails_thenIgnore_left hn) (at_thenIgnore hn (at_beginComment (hdash rfl))) h1
  | some l =>
    obtain ⟨s1, g1, g2⟩ := takes_append.1 (show Takes s (['/', '-'] ++ spacesText l) t from hT)
    obtain ⟨as, k1, ⟨alt, k2, k3⟩, k4⟩ := far_nodeSpaces (eoi := eoi) hd g2 hf h1
    obtain ⟨b1, b2, b3⟩ := begun (eoi := eoi) g1
    refine ⟨some (), ?_, rfl⟩
    have : FarAlt (thenIgnore (beginComment '-') (repeated nodeSpace)) eoi s () t := by
      refine farAlt_bind (t := s1) ⟨b1, ⟨none, b2, lb_none⟩, b3⟩ ?_
      simp only [FarAlt, pmap, k1, k2, k4]
      exact ⟨trivial, ⟨_, rfl, k3⟩, trivial⟩
    obtain ⟨m1, ⟨a, m2, m3⟩, m4⟩ := this
    simp only [FarAlt, orNot, m1, m2, m4]
    exact ⟨trivial, ⟨_, rfl, m3⟩, trivial⟩

theorem hit_dash {l : List Cst.Space} (hd : SpacesOk true (chars t) l) (hT : Takes s (dashText (some l)) t) (hf : Hits X nodeSpace eoi t)
    (h1 : 1 ≤ t.length) : HitAlt X (orNot (thenIgnore (beginComment '-') (repeated nodeSpace))) eoi s (some ()) t := by
  obtain ⟨s1, g1, g2⟩ := takes_append.1 (show Takes s (['/', '-'] ++ spacesText l) t from hT)
  obtain ⟨as, k1, k2, k4⟩ := hit_nodeSpaces (eoi := eoi) hd g2 hf h1
  obtain ⟨b1, b2, b3⟩ := begun (eoi := eoi) g1
  simp [HitAlt, orNot, thenIgnore, bind, pmap, b1, b2, b3, k1, k2, k4, mergeAlts]


/-! ### Nodes -/

theorem good_merge (hX : X.open? = true) {a b : Option (Loc O)} (ha : Good X a) (hb : Good X b) : Good X (mergeAlts a b) := by
  rcases ha with rfl | ha
  · exact Or.inl (good_left hX hb)
  · rcases hb with rfl | hb
    · exact Or.inl (good_right hX (Or.inr ha))
    · exact Or.inr (mergeAlts_lb ha hb)

theorem hit_merge (hX : X.open? = true) {a b : Option (Loc O)} (ha : Good X a) (hb : Good X b) (h : a = some ⟨0, X⟩ ∨ b = some ⟨0, X⟩) :
    mergeAlts a b = some ⟨0, X⟩ := by
  rcases h with rfl | rfl
  · exact good_left hX hb
  · exact good_right hX ha

/-- A node whose name has been read. -/
theorem node_hit (hX : X.open? = true) {inner : P O (List (SpannedNode (Sp O)))} {a halt R as ialt T o calt e}
    (h1 : (header eoi s).errs = []) (h2 : (header eoi s).out = .ok (a, halt)) (h3 : (header eoi s).rest = R) (h4 : 2 ≤ R.length)
    (i1 : (repeated spaceEntry eoi R).errs = []) (i2 : (repeated spaceEntry eoi R).out = .ok (as, ialt)) (i3 : (repeated spaceEntry eoi R).rest = T)
    (c1 : (optChildren inner eoi T).errs = []) (c2 : (optChildren inner eoi T).out = .ok (o, calt)) (c3 : (optChildren inner eoi T).rest = T)
    (t1 : (seq (repeated nodeSpace) nodeTerminator eoi T).errs = []) (t2 : (seq (repeated nodeSpace) nodeTerminator eoi T).out = .error e)
    (gi : Good X ialt) (gc : Good X calt) (ge : Good X (some e)) (hit : ialt = some ⟨0, X⟩ ∨ calt = some ⟨0, X⟩ ∨ e = ⟨0, X⟩) :
    Hits X (node inner) eoi s := by
  have hlb := (header_ok_alt h2).1
  rw [h3] at hlb
  have gh : Good X halt := Or.inr (hlb.mono (by omega))
  obtain ⟨pan1, hh⟩ : ∃ pan, header eoi s = ⟨pan, [], .ok (a, halt), R⟩ := by
    cases hv : header eoi s; rw [hv] at h1 h2 h3; simp only at h1 h2 h3; rw [h1, h2, h3]; exact ⟨_, rfl⟩
  obtain ⟨pan2, hi⟩ : ∃ pan, repeated spaceEntry eoi R = ⟨pan, [], .ok (as, ialt), T⟩ := by
    cases hv : repeated spaceEntry eoi R; rw [hv] at i1 i2 i3; simp only at i1 i2 i3; rw [i1, i2, i3]; exact ⟨_, rfl⟩
  obtain ⟨pan3, hc⟩ : ∃ pan, optChildren inner eoi T = ⟨pan, [], .ok (o, calt), T⟩ := by
    cases hv : optChildren inner eoi T; rw [hv] at c1 c2 c3; simp only at c1 c2 c3; rw [c1, c2, c3]; exact ⟨_, rfl⟩
  have g1 := good_merge hX gh gi
  have g2 := good_merge hX g1 gc
  obtain ⟨pan4, b1⟩ : ∃ pan, seq header (repeated spaceEntry) eoi s = ⟨pan, [], .ok ((a, as), mergeAlts halt ialt), T⟩ := by
    simp only [seq, bind, pmap, hh, hi, List.append_nil]
    exact ⟨_, rfl⟩
  have b2 : (seq (seq header (repeated spaceEntry)) (optChildren inner) eoi s).errs = [] ∧
      (seq (seq header (repeated spaceEntry)) (optChildren inner) eoi s).out = .ok (((a, as), o), mergeAlts (mergeAlts halt ialt) calt) ∧
      (seq (seq header (repeated spaceEntry)) (optChildren inner) eoi s).rest = T := by
    rw [seq, bind, b1]
    simp only [pmap, hc, List.append_nil]
    exact ⟨trivial, trivial, trivial⟩
  refine hits_pmap ?_
  have key : Hits X (bind (seq (seq header (repeated spaceEntry)) (optChildren inner)) (fun a => pmap (fun _ => a) (seq (repeated nodeSpace) nodeTerminator))) eoi s := by
    obtain ⟨m1, m2, m3⟩ := b2
    simp only [Hits, bind, m1, m2, m3, pmap, t1, t2, List.append_nil]
    refine ⟨trivial, ?_⟩
    congr 1
    rcases ge with ge | ge
    · injection ge with ge; subst ge; exact good_maxO hX g2
    · have hh : mergeAlts (mergeAlts halt ialt) calt = some ⟨0, X⟩ := by
        rcases hit with rfl | rfl | rfl
        · exact hit_merge hX g1 gc (Or.inl (hit_merge hX gh gi (Or.inr rfl)))
        · exact hit_merge hX g1 gc (Or.inr rfl)
        · exact absurd (lb_some.1 ge) (by simp)
      rw [hh]; exact maxO_hit hX (Or.inr ge)
  exact key

/-- A node after an optional slashdash. -/
theorem nodeItem_hit (hX : X.open? = true) {inner : P O (List (SpannedNode (Sp O)))} {x}
    (h1 : FarAlt (orNot (thenIgnore (beginComment '-') (repeated nodeSpace))) eoi s x t) (h2 : Hits X (node inner) eoi t) :
    Hits X (nodeItem inner) eoi s := by
  obtain ⟨g1, ⟨alt, g2, g3⟩, rfl⟩ := h1
  exact hits_bind hX g1 g2 (Or.inr g3) (hits_pmap (hits_spanned h2))

/-- The nodes end with the error at the end of the text. -/
def HitN (X : PErr O) (n : Nat) (eoi : Sp O) (s : List (Tok O)) : Prop :=
  ∃ p v u, u ≠ [] ∧ (chars u).head? ≠ some '}' ∧ nodesRec (n + 1) eoi s = ⟨p, [], .ok (v, some ⟨0, X⟩), u⟩

/-- The first node fails. -/
theorem hitN_first {n : Nat} {as dalt e}
    (h1 : (repeated lineSpace eoi s).out = .ok (as, dalt)) (h2 : (repeated lineSpace eoi s).rest = t)
    (h3 : (nodeItem (nodesRec n) eoi t).errs = []) (h4 : (nodeItem (nodesRec n) eoi t).out = .error e)
    (hm : mergeAlts dalt (some e) = some ⟨0, X⟩) (ht : t ≠ []) (hb : (chars t).head? ≠ some '}') : HitN X n eoi s := by
  obtain ⟨as', dalt', t', d1, _, _, _⟩ := lines_spec eoi s
  rw [d1] at h1 h2
  injection h1 with h1; injection h1 with e1 e2; subst e1 e2
  simp only at h2; subst h2
  have hself := lines_alt_self (as := as') (alt := dalt') (by rw [d1])
  have hm0 : mergeAlts none dalt' = dalt' := by cases dalt' <;> rfl
  obtain ⟨pan, vs, errs, alt, u, k1, k2⟩ := separatedBy_go (eats_nodeItem (suf_nodesRec n)) eoi s
  rw [sepGo] at k2
  simp only [d1, h3, h4, sepEnd, sepDelim, mergeAltsL, List.foldl_nil, List.append_nil, hm0, hself, hm, Prod.mk.injEq] at k2
  obtain ⟨rfl, rfl, rfl, rfl⟩ := k2
  exact ⟨_, _, t', ht, hb, by rw [nodesRec, pmap, k1]⟩

/-- The loop of a separated list with alternatives that differ before the end only. -/
theorem sepGo_alike {item : P O α} (hi : Eats 1 item) : ∀ {f1 f2 o1 o2 errs alt1 alt2 pan1 pan2 s},
    s.length < f1 → s.length < f2 → SameAlt 0 alt1 alt2 →
    ∃ vs1 vs2 errs' alt1' alt2' u, SameAlt 0 alt1' alt2' ∧
      sepEnd (repeated lineSpace) eoi (sepGo item (repeated lineSpace) eoi f1 o1 errs alt1 pan1 s) = (vs1, errs', alt1', u) ∧
      sepEnd (repeated lineSpace) eoi (sepGo item (repeated lineSpace) eoi f2 o2 errs alt2 pan2 s) = (vs2, errs', alt2', u) := by
  intro f1
  induction f1 with
  | zero => intro _ _ _ _ _ _ _ _ _ h; omega
  | succ f1 ih =>
    intro f2 o1 o2 errs alt1 alt2 pan1 pan2 s h1 h2 ha
    obtain ⟨f2, rfl⟩ : ∃ k, f2 = k + 1 := ⟨f2 - 1, by omega⟩
    obtain ⟨as, dalt, t, d1, _, _, d4⟩ := lines_spec eoi s
    rw [sepGo, sepGo]
    simp only [d1]
    cases ho : (item eoi t).out with
    | error e =>
      simp only [ho, sepEnd, sepDelim, d1, mergeAltsL, List.foldl_nil]
      exact ⟨_, _, _, _, _, _, ((ha.merge dalt).merge dalt).merge (some e), rfl, rfl⟩
    | ok x =>
      have hlt := hi eoi t x ho
      have hlt' : (item eoi t).rest.length < s.length := by omega
      simp only [ho, hlt', if_true]
      exact ih (by omega) (by omega) ((ha.merge dalt).merge x.2)

/-- A complete node, and the nodes after it. -/
theorem hitN_after {n : Nat} {lines : List Line} {d : Option (List Cst.Space)} {c : NodeC} {s1 s2 s3 : List (Tok O)} (hn : s.length ≤ n)
    (g1 : Takes s (linesText lines) s1) (hl : LinesOk true (chars s1) lines) (g2 : Takes s1 (dashText d) s2) (hd : DashOk true (chars s2) d)
    (g3 : Takes s2 c.text s3) (hc : c.Ok true (chars s3)) (h : HitN X n eoi s3) : HitN X n eoi s := by
  obtain ⟨x, w, hx, hsol⟩ := node_solid hc
  have c2 : chars s2 = x :: (w ++ chars s3) := by rw [g3.chars, hx]; simp
  have hdash : d = none → ¬ ['/', '-'] <+: chars s1 := by
    rintro rfl
    have := takes_nil.1 g2; subst this
    rw [c2]
    exact not_prefix_head (c := '/') rfl rfl (fun h => hsol.2.2.1 h.symm)
  have hnl : NoLine (chars s1) := by
    cases d with
    | none =>
      have := takes_nil.1 g2; subst this
      rw [c2]
      refine ⟨noWs_lit hsol.1 hsol.2.2.1, ?_, ?_⟩
      · intro c' hc'; simp at hc'; subst hc'; exact hsol.2.1
      · exact not_prefix_head (c := '/') rfl rfl (fun h => hsol.2.2.1 h.symm)
    | some l =>
      rw [g2.chars]
      refine ⟨noWs_slash (by decide), ?_, ?_⟩
      · intro c' hc'; simp [Cst.dashText] at hc'; subst hc'; decide
      · rintro ⟨y, hy⟩; simp [Cst.dashText] at hy
  obtain ⟨as, p1⟩ := ok_lines (eoi := eoi) hl g1 (failsC_lineSpace hnl).fails
  obtain ⟨y, p2, hy⟩ := ok_dash (eoi := eoi) (d := d) hd g2 (by rw [c2]; exact hsol.noSpace) hdash
  have l1 := g1.length; have l2 := g2.length; have l3 := g3.length
  rw [hx] at l3; simp at l3
  have p3 := node_complete (eoi := eoi) (all := s2) (k := 0) (n := n) c (by omega) (by simp) hc g3
  have p4 : Ok (nodeItem (nodesRec n)) eoi s1 (y, c.value (spf eoi s2) 0) s3 := ok_seq.2 ⟨s2, p2, p3⟩
  obtain ⟨q1, ⟨ialt, q2⟩, q3⟩ := p4
  have hspec := nodeItem_spec (suf_nodesRec n) (eoi := eoi) (s := s1) (fun w1 hw => nodesRec_spec n (by omega))
  obtain ⟨as', dalt, u', d1, _, d3, _⟩ := lines_spec eoi s
  obtain ⟨_, ⟨dalt', r2⟩, r3⟩ := p1
  rw [d1] at r2 r3
  obtain rfl : u' = s1 := r3
  obtain ⟨_, i2, i3⟩ := hspec.ok _ _ q2
  rw [q3] at i2
  have hdl := d3 i3
  obtain ⟨pp, v, u, hu, hub, hN⟩ := h
  have h3 : 1 ≤ s3.length := by
    have := (suf_nodesRec (n + 1) eoi s3).length_le
    rw [hN] at this
    have : u.length ≠ 0 := by simpa using hu
    simp only at *
    omega
  obtain ⟨pan1, vs1, errs1, alt1, u1, a1, a2⟩ := separatedBy_go (eats_nodeItem (suf_nodesRec n)) eoi s
  obtain ⟨pan2, vs2, errs2, alt2, u2, b1, b2⟩ := separatedBy_go (eats_nodeItem (suf_nodesRec n)) eoi s3
  rw [nodesRec, pmap, b1] at hN
  simp only [PRes.mk.injEq, Except.ok.injEq, Prod.mk.injEq] at hN
  obtain ⟨-, rfl, ⟨-, rfl⟩, rfl⟩ := hN
  have hlt : s3.length < s.length := by omega
  rw [sepGo] at a2
  simp only [d1, q1, q2, q3, hlt, if_true, List.append_nil] at a2
  obtain ⟨vs1', vs2', errs', x1, x2, u', hs, k1, k2⟩ := sepGo_alike (eoi := eoi) (eats_nodeItem (suf_nodesRec n)) (f1 := s.length) (f2 := s3.length + 1)
    (o1 := [] ++ [(y, c.value (spf eoi s2) 0)]) (o2 := []) (errs := [])
    (alt1 := mergeAlts (mergeAlts none dalt) ialt) (alt2 := none)
    (pan1 := false || false || (nodeItem (nodesRec n) eoi u').panicked || clashAlts none dalt || clashAlts (mergeAlts none dalt) ialt)
    (pan2 := false) (s := s3) (by omega) (by omega)
    (Or.inr ⟨mergeAlts_lb (mergeAlts_lb lb_none (hdl.mono (by omega))) (i2.mono (by omega)), lb_none⟩)
  rw [b2] at k2
  have k1' := a2.symm.trans k1
  simp only [Prod.mk.injEq] at k1' k2
  obtain ⟨rfl, rfl, rfl, rfl⟩ := k1'
  obtain ⟨-, rfl, rfl, rfl⟩ := k2
  rcases hs with rfl | ⟨-, hs⟩
  · exact ⟨_, _, _, hu, hub, by rw [nodesRec, pmap, a1]⟩
  · exact absurd (lb_some.1 hs) (by simp)


/-! ### At least once -/

theorem repGo_min {p : P O α} : ∀ {fuel outs errs alt pan s}, 1 ≤ outs.length →
    repGo p 1 none eoi fuel outs errs alt pan s = repGo p 0 none eoi fuel outs errs alt pan s := by
  intro fuel
  induction fuel with
  | zero => intros; rfl
  | succ fuel ih =>
    intro outs errs alt pan s h
    rw [repGo, repGo]
    cases ho : (p eoi s).out with
    | error e =>
      have h1 : ¬ outs.length < 1 := by omega
      simp only [reduceCtorEq, if_false, ho, h1, Nat.not_lt_zero]
    | ok x =>
      obtain ⟨a, aalt⟩ := x
      simp only [reduceCtorEq, if_false, ho]
      split
      · exact ih (by simp)
      · rfl

theorem rep1_eq {p : P O α} {as : List α} (h : Reps p eoi s as t) (hne : as ≠ []) : repeatedB 1 none p eoi s = repeated p eoi s := by
  cases h with
  | nil => exact absurd rfl hne
  | cons h1 h2 _ =>
    obtain ⟨g1, ⟨alt, g2⟩, rfl⟩ := h1
    show repGo p 1 none eoi (s.length + 1) [] [] none false s = repGo p 0 none eoi (s.length + 1) [] [] none false s
    rw [repGo, repGo]
    simp only [reduceCtorEq, if_false, g1, g2, h2, if_true]
    exact repGo_min (by simp)

theorem far_nodeSpaces1 {l : List Cst.Space} (hl : SpacesOk true (chars t) l) (hne : l ≠ []) (hT : Takes s (spacesText l) t)
    (hf : Far nodeSpace eoi t) (h1 : 1 ≤ t.length) : ∃ as, FarAlt (repeatedB 1 none nodeSpace) eoi s as t := by
  obtain ⟨e, he⟩ := hf.2
  obtain ⟨as, ha, hr⟩ := reps_nodeSpace_complete hl hT ⟨e, he.1⟩
  obtain ⟨as', h⟩ := rep_far tight_nodeSpace hr hf h1
  exact ⟨as', by rw [FarAlt, rep1_eq hr (ha hne)]; exact h⟩

theorem hit_nodeSpaces1 {l : List Cst.Space} (hl : SpacesOk true (chars t) l) (hne : l ≠ []) (hT : Takes s (spacesText l) t)
    (hf : Hits X nodeSpace eoi t) (h1 : 1 ≤ t.length) : ∃ as, HitAlt X (repeatedB 1 none nodeSpace) eoi s as t := by
  obtain ⟨as, ha, hr⟩ := reps_nodeSpace_complete hl hT ⟨_, hf.2⟩
  obtain ⟨as', h⟩ := rep_hit tight_nodeSpace hr hf h1
  exact ⟨as', by rw [HitAlt, rep1_eq hr (ha hne)]; exact h⟩

/-! ### The beginning of a node -/

/-- The type and the name of a node. -/
theorem ok_header {ty : Option Name} {nm : Name} {t1 t2 : List (Tok O)} (hty : TyOk ty) (hnm : nm.Ok)
    (g1 : Takes s (tyText ty) t1) (g2 : Takes t1 nm.text t2) (hend : EndTok (chars t2)) (hne : NameEndOk (chars t2) nm) :
    ∃ v, Ok header eoi s v t2 := by
  have p1 : ∃ x', Ok (orNot (spanned typeName)) eoi s x' t1 := by
    cases ty with
    | none =>
      have := takes_nil.1 g1; subst this
      refine ⟨none, ok_orNot.2 (Or.inr ⟨rfl, rfl, fails_spanned.2 (failsC_typeName ?_).fails⟩)⟩
      intro hh
      rw [g2.chars] at hh
      cases nm with
      | quoted l => simp [Name.text, quotedText] at hh
      | bare v =>
        rcases head_append hh with hh | ⟨hh, _⟩
        · obtain ⟨w, hw⟩ := head_eq_some.1 hh
          simp only [Name.text] at hw
          subst hw
          exact identShape_not_mem hnm.1 (c := '(') (by decide) (by simp)
        · exact identShape_ne_nil hnm.1 hh
    | some m => exact ⟨_, ok_orNot.2 (Or.inl ⟨_, rfl, ok_spanned.2 ⟨_, typeName_complete hty g1, rfl⟩⟩)⟩
  obtain ⟨x', p1⟩ := p1
  have hname : IdentEnd (chars t2) ∨ ∃ l, nm = .quoted l := by
    cases nm with
    | quoted l => exact Or.inr ⟨l, rfl⟩
    | bare v => exact Or.inl (identEnd_of_endTok hend hne)
  exact ⟨(x', ⟨spanSince eoi t1 t2, nm.value⟩), ok_seq.2 ⟨t1, p1, ok_spanned.2 ⟨_, ident_complete hnm g2 hname, rfl⟩⟩⟩

theorem endTok_ne {c : Char} {f : Str} (h : EndTok f) (hc : c ∉ sepChars) : f.head? ≠ some c := fun hh => hc (h c hh)

/-- The loop on complete entries. -/
theorem items_through {l : List Item} {u : List (Tok O)} : ∀ {s : List (Tok O)}, Takes s (itemsText l) u →
    ItemsOk true (chars u) l → EndTok (chars u) → 2 ≤ u.length → ∀ {fuel outs alt pan}, s.length < fuel → LB 1 alt →
    ∃ fuel' outs' alt' pan', u.length < fuel' ∧ LB 1 alt' ∧
      repGo spaceEntry 0 none eoi fuel outs [] alt pan s = repGo spaceEntry 0 none eoi fuel' outs' [] alt' pan' u := by
  induction l with
  | nil =>
    intro s hT _ _ _ fuel outs alt pan hf hl
    have := takes_nil.1 hT; subst this
    exact ⟨_, _, _, _, hf, hl, rfl⟩
  | cons i l ih =>
    intro s hT hl hend hu fuel outs alt pan hf ha
    have hT' : Takes s (i.text ++ itemsText l) u := by simpa [itemsText] using hT
    obtain ⟨s1, g1, g2⟩ := takes_append.1 hT'
    obtain ⟨o1, o2⟩ := hl
    have hend1 : EndTok (chars s1) := by rw [g2.chars]; exact endTok_items o2 hend
    have hok := item_complete (eoi := eoi) (all := s) (n := 0) (by simp) (show i.Ok true (chars s1) by rw [g2.chars]; exact o1) g1 hend1
    obtain ⟨k1, ⟨aalt, k2⟩, k3⟩ := hok
    have hsp := (spaceEntry_spec eoi s).okT _ _ k2 (by rw [k3]; exact endTok_ne hend1 (by decide))
    have hlt : s1.length < s.length := by
      have := eats_spaceEntry.consumes eoi s _ k2
      rwa [k3] at this
    have hu1 : u.length ≤ s1.length := by have := g2.length; omega
    rw [k3] at hsp
    obtain ⟨fuel, rfl⟩ : ∃ k, fuel = k + 1 := ⟨fuel - 1, by omega⟩
    obtain ⟨f', o', a', p', m1, m2, m3⟩ := ih g2 o2 hend hu (fuel := fuel) (outs := outs ++ [itemValue (spf eoi s) 0 i])
      (alt := mergeAlts alt aalt) (pan := pan || (spaceEntry eoi s).panicked || clashAlts alt aalt) (by omega)
      (mergeAlts_lb ha (hsp.mono (by omega)))
    refine ⟨f', o', a', p', m1, m2, ?_⟩
    rw [← m3, repGo]
    simp [k1, k2, k3, hlt]

theorem items_hit {l : List Item} {u : List (Tok O)} (hT : Takes s (itemsText l) u)
    (hl : ItemsOk true (chars u) l) (hend : EndTok (chars u)) (hu : 2 ≤ u.length) (h : Hits X spaceEntry eoi u) :
    ∃ as, HitAlt X (repeated spaceEntry) eoi s as u := by
  obtain ⟨f, o, a, pan, k1, k2, k3⟩ := items_through (eoi := eoi) hT hl hend hu (fuel := s.length + 1) (outs := []) (alt := none) (pan := false) (by omega) lb_none
  obtain ⟨f, rfl⟩ : ∃ k, f = k + 1 := ⟨f - 1, by omega⟩
  refine ⟨o, ?_⟩
  have : repeated spaceEntry eoi s = repGo spaceEntry 0 none eoi (f + 1) o [] a pan u := k3
  obtain ⟨g1, g2⟩ := h
  have hm : mergeAlts a (some ⟨0, X⟩) = some ⟨0, X⟩ := (mergeAlts_far (a := ⟨0, X⟩) k2).2.1
  rw [HitAlt, this, repGo]
  simp only [reduceCtorEq, if_false, g1, g2, Nat.not_lt_zero, List.head?_nil]
  have hm0 : mergeAlts (some (⟨0, X⟩ : Loc O)) none = some ⟨0, X⟩ := rfl
  simp only [hm0, hm]
  exact ⟨trivial, trivial, trivial⟩

theorem items_far {l : List Item} {u : List (Tok O)} (hT : Takes s (itemsText l) u)
    (hl : ItemsOk true (chars u) l) (hend : EndTok (chars u)) (hu : 2 ≤ u.length) (h : Far spaceEntry eoi u) :
    ∃ as, FarAlt (repeated spaceEntry) eoi s as u := by
  obtain ⟨f, o, a, pan, k1, k2, k3⟩ := items_through (eoi := eoi) hT hl hend hu (fuel := s.length + 1) (outs := []) (alt := none) (pan := false) (by omega) lb_none
  obtain ⟨f, rfl⟩ : ∃ k, f = k + 1 := ⟨f - 1, by omega⟩
  refine ⟨o, ?_⟩
  have : repeated spaceEntry eoi s = repGo spaceEntry 0 none eoi (f + 1) o [] a pan u := k3
  obtain ⟨g1, e, g2, g3⟩ := h
  rw [FarAlt, this, repGo]
  simp only [reduceCtorEq, if_false, g1, g2, Nat.not_lt_zero, List.head?_nil]
  have hm0 : mergeAlts (some e) none = some e := rfl
  rw [hm0]
  exact ⟨trivial, ⟨_, rfl, mergeAlts_lb k2 (lb_some.2 g3)⟩, trivial⟩

/-- A node fails at the end of the text, after lines and an optional slashdash. -/
theorem hitN_node (hX : X.open? = true) {n : Nat} {lines : List Line} {d : Option (List Cst.Space)} {s1 s2 : List (Tok O)}
    (g1 : Takes s (linesText lines) s1) (hl : LinesOk true (chars s1) lines) (g2 : Takes s1 (dashText d) s2) (hd : DashOk true (chars s2) d)
    (hs : ∃ c r, chars s2 = c :: r ∧ Solid c) (h : Hits X (node (nodesRec n)) eoi s2) : HitN X n eoi s := by
  obtain ⟨x, w, c2, hsol⟩ := hs
  have l2 : 1 ≤ s2.length := by
    have : (chars s2).length = w.length + 1 := by rw [c2]; rfl
    simp [chars] at this; omega
  have hf2 : Far nodeSpace eoi s2 := far_nodeSpace (by rw [c2]; exact hsol.noSpace) (Or.inl ⟨by rw [c2]; simpa using hsol.2.2.1, l2⟩)
  have hhead : (chars s1).head? = some '/' ∧ 2 ≤ s1.length ∨ ∃ c, (chars s1).head? = some c ∧ Solid c ∧ d = none := by
    cases d with
    | none =>
      have := takes_nil.1 g2; subst this
      exact Or.inr ⟨x, by rw [c2]; rfl, hsol, rfl⟩
    | some l =>
      left
      refine ⟨by rw [g2.chars]; rfl, ?_⟩
      have := g2.length
      simp [dashText] at this
      omega
  have hdash : d = none → (chars s1).head? ≠ some '/' := by
    rintro rfl
    have := takes_nil.1 g2; subst this
    rw [c2]; simpa using hsol.2.2.1
  have hnl : NoLine (chars s1) := by
    cases d with
    | none =>
      have := takes_nil.1 g2; subst this
      rw [c2]
      refine ⟨noWs_lit hsol.1 hsol.2.2.1, ?_, ?_⟩
      · intro c' hc'; simp at hc'; subst hc'; exact hsol.2.1
      · exact not_prefix_head (c := '/') rfl rfl (fun h => hsol.2.2.1 h.symm)
    | some l =>
      rw [g2.chars]
      refine ⟨noWs_slash (by decide), ?_, ?_⟩
      · intro c' hc'; simp [Cst.dashText] at hc'; subst hc'; decide
      · rintro ⟨y, hy⟩; simp [Cst.dashText] at hy
  have l1 : 1 ≤ s1.length := by have := g2.length; omega
  have hfl : Far lineSpace eoi s1 := by
    refine far_lineSpace hnl (fun hc => hnl.2.1 _ hc (by decide)) ?_
    rcases hhead with ⟨_, h⟩ | ⟨c, h1, h2, _⟩
    · exact Or.inr h
    · exact Or.inl ⟨by rw [h1]; simpa using h2.2.2.1, l1⟩
  obtain ⟨as, k1, ⟨alt, k2, k3⟩, k4⟩ := far_lines (eoi := eoi) hl g1 hfl hnl.1.1 l1
  obtain ⟨y, m1, _⟩ := far_dash (eoi := eoi) hd g2 hf2 l2 hdash
  obtain ⟨q1, q2⟩ := nodeItem_hit hX m1 h
  refine hitN_first k2 k4 q1 q2 (good_right hX (Or.inr k3)) (by rintro rfl; simp at l1) ?_
  rcases hhead with ⟨h, _⟩ | ⟨c, h1, h2, _⟩
  · rw [h]; simp
  · rw [h1]; simpa using h2.2.2.2.2.2.1


theorem fails_of_quiet {p : P O α} (hq : Quiet p) (h : ∀ a t, ¬ Ok p eoi s a t) : Fails p eoi s := by
  cases ho : (p eoi s).out with
  | error e => exact ⟨e, ho⟩
  | ok x => exact absurd ⟨hq eoi s, ⟨x.2, ho⟩, rfl⟩ (h x.1 _)

/-- The terminator does not come, which is noticed before the end. -/
theorem far_term {l : List Cst.Space} (hl : SpacesOk true (chars t) l) (hT : Takes s (spacesText l) t) (hf : Far nodeSpace eoi t)
    (h1 : 1 ≤ t.length) (ht : Far nodeTerminator eoi t) : Far (seq (repeated nodeSpace) nodeTerminator) eoi s := by
  obtain ⟨as, k1, ⟨alt, k2, k3⟩, k4⟩ := far_nodeSpaces (eoi := eoi) hl hT hf h1
  obtain ⟨m1, e, m2, m3⟩ := ht
  simp only [Far, seq, bind, k1, k2, k4, pmap, m1, m2]
  exact ⟨rfl, _, rfl, maxO_lb m3 k3⟩

theorem hit_term (hX : X.open? = true) {l : List Cst.Space} (hl : SpacesOk true (chars t) l) (hT : Takes s (spacesText l) t) (hf : Hits X nodeSpace eoi t)
    (h1 : 1 ≤ t.length) (ht : Far nodeTerminator eoi t) : Hits X (seq (repeated nodeSpace) nodeTerminator) eoi s := by
  obtain ⟨as, k⟩ := hit_nodeSpaces (eoi := eoi) hl hT hf h1
  obtain ⟨m1, e, m2, m3⟩ := ht
  refine hits_bind_alt hX k (e := e) ?_ ?_ (Or.inr (lb_some.2 m3))
  · simp only [pmap, m1]
  · simp only [pmap, m2]

theorem far_terminator (h2 : ∀ a u, ¬ Ok nodeTerminator eoi s a u) (hl : (chars s).head? ≠ some '/' ∧ (chars s).head? ≠ some '\r' ∧ 1 ≤ s.length ∨ 2 ≤ s.length) :
    Far nodeTerminator eoi s := by
  have hf := fails_of_quiet quiet_nodeTerminator h2
  rcases hl with ⟨h3, h5, h4⟩ | h4
  · refine far_at quiet_nodeTerminator.failQuiet hf ?_ h4
    refine at_choice (by simp) ?_
    intro p hp
    simp only [List.mem_cons, List.not_mem_nil, or_false] at hp
    rcases hp with rfl | rfl | rfl | rfl
    · exact at_newline h5
    · exact at_comment h3
    · exact at_pmap ((near_just _).at _ _)
    · exact near_endP.at _ _
  · exact far_at1 quiet_nodeTerminator.failQuiet hf (near_nodeTerminator.at1 _ _) h4

/-! ### Children blocks -/

/-- The space and the slashdash before a children block. -/
theorem far_prefix {sp : List Cst.Space} {d : Option (List Cst.Space)} {s1 s2 : List (Tok O)}
    (g1 : Takes s (spacesText sp) s1) (hl : SpacesOk true (chars s1) sp) (g2 : Takes s1 (dashText d) s2) (hd : DashOk true (chars s2) d)
    (hf1 : Far nodeSpace eoi s1) (hf2 : Far nodeSpace eoi s2) (l2 : 1 ≤ s2.length) (hdash : d = none → (chars s1).head? ≠ some '/') :
    ∃ x, FarAlt (ignoreThen (repeated nodeSpace) (orNot (thenIgnore (beginComment '-') (repeated nodeSpace)))) eoi s x s2 := by
  have l1 : 1 ≤ s1.length := by have := g2.length; omega
  obtain ⟨as, k⟩ := far_nodeSpaces (eoi := eoi) hl g1 hf1 l1
  obtain ⟨x, m, _⟩ := far_dash (eoi := eoi) hd g2 hf2 l2 hdash
  exact ⟨x, farAlt_bind k m⟩

/-- A children block that fails at the end of the text. -/
theorem hitN_block (hX : X.open? = true) {n : Nat} {lines : List Line} {dash : Option (List Cst.Space)} {ty : Option Name} {name : Name}
    {items : List Item} {space : List Cst.Space} {dash' : Option (List Cst.Space)} {s1 s2 s3 s4 s5 s6 s7 : List (Tok O)}
    (g1 : Takes s (linesText lines) s1) (g2 : Takes s1 (dashText dash) s2) (g3 : Takes s2 (tyText ty) s3) (g4 : Takes s3 name.text s4)
    (g5 : Takes s4 (itemsText items) s5) (g6 : Takes s5 (spacesText space) s6) (g7 : Takes s6 (dashText dash') s7)
    (o1 : LinesOk true (chars s1) lines) (o2 : DashOk true (chars s2) dash) (o3 : TyOk ty) (o4 : name.Ok) (o5 : NameStartOk ty name)
    (o6 : NameEndOk (chars s4) name) (o7 : ItemsOk true (chars s5) items) (o9 : SpacesOk true (chars s6) space)
    (o10 : DashOk true (chars s7) dash') {f : Str} (c7 : chars s7 = '{' :: f) (l7 : 2 ≤ s7.length)
    (h : Hits X (bracedNodes (nodesRec n)) eoi s7) : HitN X n eoi s := by
  have c6 : chars s6 = dashText dash' ++ '{' :: f := by rw [g7.chars, c7]
  have e5 : EndTok (chars s5) := by
    rw [g6.chars]
    exact endTok_spaces o9 (by rw [c6]; exact endTok_dash_brace)
  have e4 : EndTok (chars s4) := by rw [g5.chars]; exact endTok_items o7 e5
  have c2 : chars s2 = tyText ty ++ name.text ++ chars s4 := by rw [g3.chars, g4.chars]; simp
  have l6 : 2 ≤ s6.length := by have := g7.length; omega
  have l5 : 2 ≤ s5.length := by have := g6.length; omega
  have l4 : 2 ≤ s4.length := by have := g5.length; omega
  have hn6 : NoSpace (chars s6) := by
    rw [c6]
    cases dash' with
    | none => exact noSpace_brace
    | some l => exact noSpace_dash
  have f6 : Far nodeSpace eoi s6 := far_nodeSpace hn6 (Or.inr l6)
  have f7 : Far nodeSpace eoi s7 := far_nodeSpace (by rw [c7]; exact noSpace_brace) (Or.inr l7)
  obtain ⟨v, q1, ⟨halt, q2⟩, q3⟩ := ok_header (eoi := eoi) o3 o4 g3 g4 e4 o6
  -- no entry
  have p3f : Fails spaceEntry eoi s5 := by
    refine fails_spaceEntry (l := space) o9 g6 hn6 ?_
    cases dash' with
    | none =>
      have := takes_nil.1 g7; subst this
      exact fails_propOrArg_brace c7
    | some l => exact fails_propOrArg_dash g7 o10 c7
  have a6 : afterSp eoi s5 = s6 := by
    obtain ⟨as, _, _, h⟩ := ok_nodeSpaces (eoi := eoi) o9 g6 (failsC_nodeSpace hn6).fails
    exact h
  have hat : EntryAt eoi (afterSp eoi s5) s7 := by
    rw [a6]
    cases dash' with
    | none => exact Or.inl (takes_nil.1 g7).symm
    | some l =>
      right
      refine ⟨⟨spacesText l ++ '{' :: f, by rw [c6]; simp [dashText]⟩, ?_⟩
      obtain ⟨t, k1, k2⟩ := takes_append.1 (show Takes s6 (['/', '-'] ++ spacesText l) s7 from g7)
      have hd : t = s6.drop 2 := by simpa using k1.drop (all := s6) (n := 0) rfl
      obtain ⟨as, _, _, h⟩ := ok_nodeSpaces (eoi := eoi) (l := l) o10 k2 (failsC_nodeSpace (by rw [c7]; exact noSpace_brace)).fails
      rw [← hd]; exact h.symm
  have hstop : Stop s7 := stop_brace (by rw [c7]; rfl)
  have fe : Far spaceEntry eoi s5 := far_of (by
      obtain ⟨e, he⟩ := p3f
      exact failQuiet_spaceEntry eoi s5 e he) p3f (fun e he => by
      have := (spaceEntry_spec eoi s5).stop s7 hat hstop e he
      omega)
  obtain ⟨as, i1, ⟨ialt, i2, i4⟩, i3⟩ := items_far (eoi := eoi) g5 o7 e5 l5 fe
  -- the block
  obtain ⟨x, k1, ⟨palt, k2, k4⟩, k3⟩ := far_prefix (eoi := eoi) g6 o9 g7 o10 f6 f7 (by omega) (by
    rintro rfl
    have := takes_nil.1 g7; subst this
    rw [c7]; simp)
  have hc : HitAlt X (optChildren (nodesRec n)) eoi s5 none s5 := by
    refine hitAlt_orNot (hits_bind hX k1 k2 (Or.inr k4) ?_)
    rw [k3]
    exact hits_pmap (hits_spanned h)
  obtain ⟨c1, c2', c3⟩ := hc
  -- no terminator
  have ft : Far (seq (repeated nodeSpace) nodeTerminator) eoi s5 := by
    refine far_term o9 g6 f6 (by omega) (far_terminator ?_ (Or.inr l6))
    intro a u hu
    exact terminator_stop (d := dash') hu c6 (by decide) (by decide) (by decide)
  obtain ⟨t1, e, t2, t3⟩ := ft
  exact hitN_node hX g1 o1 g2 o2 (by rw [c2]; exact header_solid o4 o5)
    (node_hit hX q1 q2 q3 l4 i1 i2 i3 c1 c2' c3 t1 t2 (Or.inr i4) (Or.inl rfl) (Or.inr (lb_some.2 t3)) (Or.inr (Or.inl rfl)))

theorem bracesErr_open (hX : X.open? = true) {sp : Sp O} : bracesErr X sp = X := by
  cases X <;> simp [PErr.open?] at hX
  simp [bracesErr, PErr.isEoi]

/-- The nodes of a block end with the error at the end of the text. -/
theorem hits_braced (hX : X.open? = true) {n : Nat} (hT : Takes s ['{'] t) (h : HitN X n eoi t) : Hits X (bracedNodes (nodesRec (n + 1))) eoi s := by
  obtain ⟨sp, s1, rfl, h1⟩ := takes_cons.1 hT
  have := takes_nil.1 h1; subst this
  obtain ⟨p, v, u, hu, hb, hN⟩ := h
  obtain ⟨⟨c, spc⟩, u', rfl⟩ : ∃ x y, u = x :: y := by
    cases u with
    | nil => exact absurd rfl hu
    | cons x y => exact ⟨x, y, rfl⟩
  have hne : c ≠ '}' := by simpa [chars] using hb
  have key : Hits X (thenIgnore (nodesRec (n + 1)) (just '}')) eoi s1 := by
    refine hits_bind_alt hX (a := v) (t := (c, spc) :: u') ⟨by rw [hN], by rw [hN], by rw [hN]⟩ (e := ⟨u'.length + 1, .expectedFound spc [some '}'] (some c)⟩)
      (by simp [pmap, just, hne, pfail]) (by simp [pmap, just, hne, pfail]) (Or.inr (lb_some.2 (by simp)))
  have hj : just '{' eoi (('{', sp) :: s1) = pok '{' s1 := by simp [just]
  obtain ⟨m1, m2⟩ := key
  refine hits_bind hX (a := '{') (alt := none) (by rw [hj]; rfl) (by rw [hj]; rfl) (Or.inr lb_none) ?_
  rw [hj]
  simp only [Hits, mapErrWithSpan, pok, m1, m2]
  exact ⟨trivial, by rw [bracesErr_open hX]⟩

/-! ### The walk to the innermost part -/

/-- If the innermost part of a beginning ends with the error at the end of the text, so do the nodes. -/
theorem hitN_walk (hX : X.open? = true) (o : Open) {n : Nat} (hn : s.length ≤ n) (hT : Takes s o.text t) (ho : o.Ok (chars t))
    (h : ∀ m s', s'.length ≤ m → Takes s' (openLeaf o).text t → (openLeaf o).Ok (chars t) → HitN X m eoi s') : HitN X n eoi s := by
  induction o generalizing n s with
  | node lines dash => exact h n s hn hT ho
  | entry lines dash ty name items space dash' key vty => exact h n s hn hT ho
  | inside lines dash ty name items space dash' inner ih =>
    obtain ⟨o1, o2, o3, o4, o5, o6, o7, o9, o10, o11⟩ := ho
    have hT' : Takes s (linesText lines ++ (dashText dash ++ (tyText ty ++ (name.text ++ (itemsText items ++ (spacesText space ++
      (dashText dash' ++ (['{'] ++ inner.text)))))))) t := by simpa [Open.text] using hT
    obtain ⟨s1, g1, hT'⟩ := takes_append.1 hT'
    obtain ⟨s2, g2, hT'⟩ := takes_append.1 hT'
    obtain ⟨s3, g3, hT'⟩ := takes_append.1 hT'
    obtain ⟨s4, g4, hT'⟩ := takes_append.1 hT'
    obtain ⟨s5, g5, hT'⟩ := takes_append.1 hT'
    obtain ⟨s6, g6, hT'⟩ := takes_append.1 hT'
    obtain ⟨s7, g7, g8⟩ := takes_append.1 hT'
    obtain ⟨s8, g9, g10⟩ := takes_append.1 g8
    have c7 : chars s7 = '{' :: inner.text ++ chars t := by rw [g8.chars]; simp
    have c6 : chars s6 = dashText dash' ++ ('{' :: inner.text ++ chars t) := by rw [g7.chars, c7]
    have c5 : chars s5 = spacesText space ++ dashText dash' ++ ('{' :: inner.text ++ chars t) := by
      rw [g6.chars, c6]; simp
    have c4 : chars s4 = itemsText items ++ (spacesText space ++ dashText dash' ++ ('{' :: inner.text ++ chars t)) := by
      rw [g5.chars, c5]
    have c2 : chars s2 = tyText ty ++ name.text ++
        (itemsText items ++ (spacesText space ++ dashText dash' ++ ('{' :: inner.text ++ chars t))) := by
      rw [g3.chars, g4.chars, c4]; simp
    have hlen : s8.length + 1 ≤ n ∧ s7.length = s8.length + 1 := by
      have := g1.length; have := g2.length; have := g3.length; have := g4.length
      have := g5.length; have := g6.length; have := g7.length; have := g9.length
      simp at this
      omega
    obtain ⟨m, rfl⟩ : ∃ m, n = m + 1 := ⟨n - 1, by omega⟩
    have hin := ih (n := m) (s := s8) (by omega) g10 o11 h
    have l8 : 1 ≤ s8.length := by
      obtain ⟨_, _, u, hu, _, hN⟩ := hin
      have := (suf_nodesRec (m + 1) eoi s8).length_le
      rw [hN] at this
      have : u.length ≠ 0 := by simpa using hu
      simp only at *
      omega
    exact hitN_block hX g1 g2 g3 g4 g5 g6 g7 (by rw [g2.chars, c2]; simpa using o1) (by rw [c2]; simpa using o2) o3 o4 o5
      (by rw [c4]; exact o6) (by rw [c5]; exact o7) (by rw [c6]; exact o9) (by rw [c7]; exact o10)
      (f := inner.text ++ chars t) c7 (by omega) (hits_braced hX g9 hin)
  | after lines dash nd rest ih =>
    obtain ⟨o1, o2, o3, o4⟩ := ho
    have hT' : Takes s (linesText lines ++ (dashText dash ++ (nd.text ++ rest.text))) t := by simpa [Open.text] using hT
    obtain ⟨s1, g1, hT'⟩ := takes_append.1 hT'
    obtain ⟨s2, g2, hT'⟩ := takes_append.1 hT'
    obtain ⟨s3, g3, g4⟩ := takes_append.1 hT'
    have c2 : chars s2 = nd.text ++ rest.text ++ chars t := by rw [g3.chars, g4.chars]; simp
    have hl3 : s3.length ≤ n := by
      have := g1.length; have := g2.length; have := g3.length
      omega
    exact hitN_after hn g1 (by rw [g2.chars, c2]; simpa using o1) g2 (by rw [c2]; exact o2) g3 (by rw [g4.chars]; exact o3)
      (ih hl3 g4 o4 h)

/-- The document ends with the error at the end of the text, and nothing else. -/
theorem document_hit (hX : X.open? = true) {s : List (Tok O)} (h : HitN X s.length eoi s) : runParser document eoi s = some (.error [X]) := by
  obtain ⟨p, v, u, hu, _, hN⟩ := h
  have hN' : nodes eoi s = ⟨p, [], .ok (v, some ⟨0, X⟩), u⟩ := hN
  obtain ⟨⟨c, spc⟩, u', rfl⟩ : ∃ x y, u = x :: y := by
    cases u with
    | nil => exact absurd rfl hu
    | cons x y => exact ⟨x, y, rfl⟩
  have hd : Hits X document eoi s := by
    refine hits_pmap (hits_bind_alt hX (a := v) (t := (c, spc) :: u') ⟨by rw [hN'], by rw [hN'], by rw [hN']⟩
      (e := ⟨u'.length + 1, .expectedFound spc [none] (some c)⟩) ?_ ?_ (Or.inr (lb_some.2 (by simp))))
    · simp [pmap, endP, pfail]
    · simp [pmap, endP, pfail]
  obtain ⟨h1, h2⟩ := hd
  simp [runParser, document_np, h1, h2]

end

end Knuffel
