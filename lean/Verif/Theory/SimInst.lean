import Verif.Theory.SimGrammar
import Verif.Theory.Meaning
/-!
# Instances of the relation between two runs
-/

namespace Knuffel

/-! ### Streams mapped by a function on spans -/

section
variable {O O' : Type}

/-- Replace the spans of the tokens. -/
def mapToks (f : Sp O → Sp O') (s : List (Tok O)) : List (Tok O') := s.map (fun t => (t.1, f t.2))

theorem spanSince_map (h : O → O') {eoi : Sp O} {s t : List (Tok O)} :
    spanSince ⟨h eoi.start, h eoi.stop⟩ (mapToks (fun x => ⟨h x.start, h x.stop⟩) s) (mapToks (fun x => ⟨h x.start, h x.stop⟩) t) =
      ⟨h (spanSince eoi s t).start, h (spanSince eoi s t).stop⟩ := by
  unfold spanSince mapToks
  simp only [List.length_map, List.getElem?_map]
  cases s[s.length - t.length - 1]? <;> cases s <;> rfl

theorem mapToks_cons_inv {f : Sp O → Sp O'} {x s s'} (h : s' = mapToks f (x :: s)) :
    ∃ x' t', s' = x' :: t' ∧ x.1 = x'.1 ∧ f x.2 = x'.2 ∧ t' = mapToks f s := ⟨_, _, h, rfl, rfl, rfl⟩

end

/-! ### Line spans and byte spans -/

/-- Line spans to byte spans. -/
def lineRel (eoi : Sp LinePos) : Rel LinePos Nat (Sp Nat) where
  eoi := eoi
  eoi' := LinePos.toOffsetSpan eoi
  st s s' := s' = mapToks LinePos.toOffsetSpan s
  sp a b := LinePos.toOffsetSpan a = b
  so a b := LinePos.toOffsetSpan a = b
  g := LinePos.toOffsetSpan
  g' := id
  st_nil h := h
  st_cons h := mapToks_cons_inv h
  sp_eoi := rfl
  sp_since := by
    rintro s _ t _ rfl _ _ rfl
    exact (spanSince_map LinePos.offset).symm
  sp_g h := h
  sp_len := by rintro a _ rfl; rfl
  at_end := by rintro a _ rfl; rfl
  before := by rintro a _ n rfl; rfl
  at_start := by rintro a _ rfl _; rfl

theorem lineToks_map (width : Char → Nat) (text : Str) : ∀ t : LineTracker,
    mapToks LinePos.toOffsetSpan (lineToks width t text) = offsetToks t.offset text := by
  induction text with
  | nil => intro t; rfl
  | cons c cs ih =>
    intro t
    simp only [lineToks, mapToks, List.map_cons, offsetToks] at ih ⊢
    rw [ih]
    congr 1

theorem lineEoi_map (strWidth : Str → Nat) (text : Str) : LinePos.toOffsetSpan (lineEoi strWidth text) = offsetEoi text := rfl

theorem er_line_map {eoi : Sp LinePos} {e : PErr LinePos} {e' : PErr Nat} (h : (lineRel eoi).er e e') :
    e.mapSpan LinePos.toOffsetSpan = e' := by
  cases e <;> cases e' <;> simp only [Rel.er] at h <;> simp only [PErr.mapSpan]
  · obtain ⟨rfl, h, rfl, rfl, _⟩ := h; rw [h]
  · obtain ⟨rfl, h, rfl, h', rfl, rfl⟩ := h; rw [h, h']
  · obtain ⟨rfl, h, rfl⟩ := h; rw [h]
  · obtain ⟨rfl, h, rfl, rfl⟩ := h; rw [h]

theorem lrel_map_eq {α β : Type} {r : α → β → Prop} {f : α → β} (hr : ∀ a b, r a b → f a = b) {l m} (h : LRel r l m) :
    l.map f = m := by
  induction l generalizing m with
  | nil => cases m with
    | nil => rfl
    | cons => exact h.elim
  | cons a l ih => cases m with
    | nil => exact h.elim
    | cons b m => rw [List.map_cons, hr _ _ h.1, ih h.2]

theorem mapSpan_id {S : Type} (d : Document S) : d.mapSpan id = d := by
  cases d; simp [Document.mapSpan, mapNodes_id]

/-! ### A shifted text -/

/-- Shift a byte span. -/
def shiftSp (c : Nat) (s : Sp Nat) : Sp Nat := ⟨s.start + c, s.stop + c⟩

/-- Byte spans to shifted byte spans. -/
def shiftRel (c : Nat) (eoi : Sp Nat) : Rel Nat Nat (Sp Nat) where
  eoi := eoi
  eoi' := shiftSp c eoi
  st s s' := s' = mapToks (shiftSp c) s
  sp a b := shiftSp c a = b
  so _ _ := True
  g := shiftSp c
  g' := id
  st_nil h := h
  st_cons h := mapToks_cons_inv h
  sp_eoi := rfl
  sp_since := by
    rintro s _ t _ rfl _ _ rfl
    exact (spanSince_map (· + c)).symm
  sp_g h := h
  sp_len := by rintro a _ rfl; simp [Sp.length, shiftSp, Offset.byte]; omega
  at_end := by rintro a _ rfl; rfl
  before _ _ := trivial
  at_start _ _ := trivial

theorem offsetToks_shift (c : Nat) (text : Str) : ∀ n, mapToks (shiftSp c) (offsetToks n text) = offsetToks (n + c) text := by
  induction text with
  | nil => intro n; rfl
  | cons x xs ih =>
    intro n
    simp only [offsetToks, mapToks, List.map_cons] at ih ⊢
    rw [ih, show n + x.utf8Size + c = n + c + x.utf8Size by omega]
    simp only [shiftSp]
    rw [show n + x.utf8Size + c = n + c + x.utf8Size by omega]

/-! ### Bounds -/

/-- A span inside a text of `n` bytes. -/
def InText (n : Nat) (s : Sp Nat) : Prop := s.start ≤ s.stop ∧ s.stop ≤ n

/-- Consecutive tokens from `m`. -/
def Cons (n : Nat) : Nat → List (Tok Nat) → Prop
  | m, [] => m ≤ n
  | m, x :: s => x.2.start = m ∧ m ≤ x.2.stop ∧ Cons n x.2.stop s

theorem Cons.le {n m : Nat} {s} (h : Cons n m s) : m ≤ n := by
  induction s generalizing m with
  | nil => exact h
  | cons x s ih => have := ih h.2.2; have := h.2.1; omega

theorem Cons.get {n m : Nat} {s : List (Tok Nat)} (h : Cons n m s) {i : Nat} {x : Tok Nat} (hx : s[i]? = some x) :
    m ≤ x.2.stop ∧ x.2.stop ≤ n := by
  induction s generalizing m i with
  | nil => simp at hx
  | cons y s ih =>
    have h1 := h.2.2.le
    cases i with
    | zero => simp at hx; subst hx; exact ⟨h.2.1, h1⟩
    | succ i =>
      simp at hx
      have := ih h.2.2 hx
      have := h.2.1
      omega

theorem cons_offsetToks {n : Nat} (text : Str) : ∀ m, m + byteLen text = n → Cons n m (offsetToks m text) := by
  induction text with
  | nil => intro m h; simp [byteLen] at h; simp [offsetToks, Cons]; omega
  | cons c cs ih =>
    intro m h
    simp only [byteLen] at h
    exact ⟨rfl, by simp, ih (m + c.utf8Size) (by omega)⟩

/-- A run related to itself, to bound the spans. -/
def boundRel (n : Nat) : Rel Nat Nat Unit where
  eoi := ⟨n, n⟩
  eoi' := ⟨n, n⟩
  st s s' := s = s' ∧ ∃ m, Cons n m s
  sp a b := a = b ∧ InText n a
  so a b := a = b ∧ InText n a
  g _ := ()
  g' _ := ()
  st_nil h := h.1.symm
  st_cons := by
    rintro x s _ ⟨rfl, m, h⟩
    have h3 := h.2.2.le
    exact ⟨x, s, rfl, rfl, ⟨rfl, by rw [h.1]; exact h.2.1, h3⟩, rfl, _, h.2.2⟩
  sp_eoi := ⟨rfl, Nat.le_refl _, Nat.le_refl _⟩
  sp_since := by
    rintro s _ t _ ⟨rfl, m, h⟩ _ _ ⟨rfl, _⟩
    refine ⟨rfl, ?_⟩
    unfold spanSince InText
    cases s with
    | nil => exact ⟨Nat.le_refl _, Nat.le_refl _⟩
    | cons x s =>
      simp only
      cases hx : (x :: s)[(x :: s).length - t.length - 1]? with
      | none => exact ⟨by rw [h.1]; exact h.le, Nat.le_refl _⟩
      | some y =>
        have := h.get hx
        simp only
        rw [h.1]
        exact this
  sp_g _ := rfl
  sp_len := by rintro a _ ⟨rfl, _⟩; rfl
  at_end := by
    rintro a _ ⟨rfl, h⟩
    exact ⟨rfl, Nat.le_refl _, h.2⟩
  before := by
    rintro a _ k ⟨rfl, h⟩
    exact ⟨rfl, Nat.sub_le _ _, Nat.le_trans h.1 h.2⟩
  at_start := by
    rintro a _ ⟨rfl, h⟩ h2
    refine ⟨rfl, Nat.le_add_right _ _, ?_⟩
    have h3 := h.2
    simp only [Sp.length, Offset.byte] at h2
    show a.start + 2 ≤ n
    omega

/-- The spans in an error. -/
def PErr.spans {O : Type} : PErr O → List (Sp O)
  | .unexpected _ s _ _ => [s]
  | .unclosed _ o _ e _ _ => [o, e]
  | .message _ s _ => [s]
  | .messageWithHelp _ s _ _ => [s]

theorem er_bound {n : Nat} {e e' : PErr Nat} (h : (boundRel n).er e e') : ∀ sp ∈ e.spans, InText n sp := by
  cases e <;> cases e' <;> simp only [Rel.er] at h <;> simp only [PErr.spans, List.mem_cons, List.not_mem_nil, or_false]
  · rintro _ rfl; exact h.2.1.2
  · rintro _ (rfl | rfl)
    · exact h.2.1.2
    · exact h.2.2.2.1.2
  · rintro _ rfl; exact h.2.1.2
  · rintro _ rfl; exact h.2.1.2

theorem lrel_mem {α β : Type} {r : α → β → Prop} {l m} (h : LRel r l m) {a : α} (ha : a ∈ l) : ∃ b, r a b := by
  induction l generalizing m with
  | nil => simp at ha
  | cons x l ih => cases m with
    | nil => exact h.elim
    | cons b m =>
      rcases List.mem_cons.1 ha with rfl | ha
      · exact ⟨b, h.1⟩
      · exact ih h.2 ha

/-! ### Leading byte order mark -/

section
variable {O : Type} [Offset O]

theorem lines_feff {eoi sp : Sp O} {s as t} (h : Ok (repeated lineSpace) eoi s as t) :
    ∃ as', Ok (repeated lineSpace) eoi (('\uFEFF', sp) :: s) as' t := by
  obtain ⟨h1, h2⟩ := (ok_repeated eats_lineSpace.consumes).1 h
  obtain ⟨as', h3⟩ := reps_ws_cons (sp := sp) (c := '\uFEFF') (fun s t h => ok_lineSpace_run h) (by decide) h1 h2
  exact ⟨as', (ok_repeated eats_lineSpace.consumes).2 ⟨h3, h2⟩⟩

theorem sepReps_feff {item : P O α} (hi : Eats 1 item) {eoi sp : Sp O} {s as t} :
    SepReps item (repeated lineSpace) eoi (('\uFEFF', sp) :: s) as t ↔ SepReps item (repeated lineSpace) eoi s as t := by
  obtain ⟨b0, t0, h0, hlen⟩ := lines_total (eoi := eoi) s
  obtain ⟨b1, h1⟩ := lines_feff (sp := sp) h0
  constructor
  · intro h
    cases h with
    | nil g1 g2 =>
      obtain ⟨_, rfl⟩ := g1.unique h1
      exact .nil h0 g2
    | cons g1 g2 g3 g4 =>
      obtain ⟨_, rfl⟩ := g1.unique h1
      have := Consumes.ok hi.consumes g2
      exact .cons h0 g2 (by omega) g4
  · intro h
    cases h with
    | nil g1 g2 =>
      obtain ⟨_, rfl⟩ := g1.unique h0
      exact .nil h1 g2
    | cons g1 g2 g3 g4 =>
      obtain ⟨_, rfl⟩ := g1.unique h0
      exact .cons h1 g2 (by simp only [List.length_cons]; omega) g4

/-- The same run, with other bounds on the depth. -/
def selfRel (eoi : Sp O) : Rel O O (Sp O) where
  eoi := eoi
  eoi' := eoi
  st s s' := s = s'
  sp a b := a = b
  so a b := a = b
  g := id
  g' := id
  st_nil h := h.symm
  st_cons := by rintro x s _ rfl; exact ⟨x, s, rfl, rfl, rfl, rfl⟩
  sp_eoi := rfl
  sp_since := by rintro s _ t _ rfl _ _ rfl; rfl
  sp_g h := h
  sp_len := by rintro a _ rfl; rfl
  at_end := by rintro a _ rfl; rfl
  before := by rintro a _ n rfl; rfl
  at_start := by rintro a _ rfl _; rfl

theorem nodesRec_fuel {eoi : Sp O} {n m : Nat} {s v t} (hn : s.length < n) (hm : s.length < m)
    (h : Ok (nodesRec n) eoi s v t) : Ok (nodesRec m) eoi s v t := by
  have hr := Rel.sim_nodesRec (R := selfRel eoi) n m (s.length + 1) hn hm s s rfl (by omega)
  obtain ⟨h1, ⟨alt, h2⟩, h3⟩ := h
  refine ⟨?_, ?_, ?_⟩
  · have := hr.errs.length
    rw [show (nodesRec n (selfRel eoi).eoi s).errs = [] from h1] at this
    exact List.length_eq_zero_iff.1 this.symm
  · rcases hr.out with ⟨a, b, alt1, alt2, g1, g2, g3, g4⟩ | ⟨e, e', g1, g2, g3⟩
    · rw [show (nodesRec n (selfRel eoi).eoi s).out = .ok (v, alt) from h2] at g1
      injection g1 with g1
      injection g1 with g1 _
      subst g1
      have : v = b := by
        have := g3
        unfold Rel.nds at this
        rwa [show (selfRel eoi).g = id from rfl, show (selfRel eoi).g' = id from rfl, mapNodes_id, mapNodes_id] at this
      subst this
      exact ⟨alt2, g2⟩
    · rw [show (nodesRec n (selfRel eoi).eoi s).out = .ok (v, alt) from h2] at g1
      simp at g1
  · have := hr.rest
    rw [show (nodesRec n (selfRel eoi).eoi s).rest = t from h3] at this
    exact this.symm

theorem nodesRec_feff {eoi sp : Sp O} {n : Nat} {s v t} :
    Ok (nodesRec (n + 1)) eoi (('\uFEFF', sp) :: s) v t ↔ Ok (nodesRec (n + 1)) eoi s v t := by
  have key : ∀ s vs, Ok (separatedBy (nodeItem (nodesRec n)) (repeated lineSpace)) eoi s vs t ↔
      SepReps (nodeItem (nodesRec n)) (repeated lineSpace) eoi s vs t := fun s vs =>
    ok_separatedBy (fun s => lines_total s) (eats_nodeItem (suf_nodesRec n)).consumes
  rw [nodesRec, ok_pmap, ok_pmap]
  constructor
  · rintro ⟨vs, h, hv⟩
    exact ⟨vs, (key _ _).2 ((sepReps_feff (eats_nodeItem (suf_nodesRec n))).1 ((key _ _).1 h)), hv⟩
  · rintro ⟨vs, h, hv⟩
    exact ⟨vs, (key _ _).2 ((sepReps_feff (eats_nodeItem (suf_nodesRec n))).2 ((key _ _).1 h)), hv⟩

theorem document_feff {eoi sp : Sp O} {s d} :
    Ok document eoi (('\uFEFF', sp) :: s) d [] ↔ Ok document eoi s d [] := by
  unfold document
  simp only [ok_pmap, ok_thenIgnore, ok_nodes]
  constructor
  · rintro ⟨v, ⟨t1, u, h1, h2⟩, hv⟩
    refine ⟨v, ⟨t1, u, ?_, h2⟩, hv⟩
    have := nodesRec_feff.1 h1
    exact nodesRec_fuel (by simp; omega) (by omega) this
  · rintro ⟨v, ⟨t1, u, h1, h2⟩, hv⟩
    refine ⟨v, ⟨t1, u, ?_, h2⟩, hv⟩
    exact nodesRec_feff.2 (nodesRec_fuel (by omega) (by simp; omega) h1)

end

end Knuffel
