import Verif.Spec.Doc
import Verif.Model.Wrappers
import Verif.Theory.Order
/-!
# Two runs of the parser on the same characters

A logical relation between the parser run on two token streams that carry the
same characters but (possibly) different kinds of spans.  It is used to compare
byte spans with line spans, to show that the result does not depend on where the
text begins, and (relating a run to itself) to bound the spans in errors.
-/

namespace Knuffel

variable {O O' : Type} [Offset O] [Offset O'] {α β γ α' β' γ' : Type}

/-- Related lists. -/
def LRel (r : α → α' → Prop) : List α → List α' → Prop
  | [], [] => True
  | a :: l, b :: m => r a b ∧ LRel r l m
  | _, _ => False

theorem LRel.append {r : α → α' → Prop} {l m l' m'} (h : LRel r l m) (h' : LRel r l' m') :
    LRel r (l ++ l') (m ++ m') := by
  induction l generalizing m with
  | nil => cases m with
    | nil => exact h'
    | cons => exact h.elim
  | cons a l ih => cases m with
    | nil => exact h.elim
    | cons b m => exact ⟨h.1, ih h.2⟩

theorem LRel.length {r : α → α' → Prop} {l m} (h : LRel r l m) : l.length = m.length := by
  induction l generalizing m with
  | nil => cases m with
    | nil => rfl
    | cons => exact h.elim
  | cons a l ih => cases m with
    | nil => exact h.elim
    | cons b m => simp [ih h.2]

theorem LRel.eq {l m : List α} (h : LRel Eq l m) : l = m := by
  induction l generalizing m with
  | nil => cases m with
    | nil => rfl
    | cons => exact h.elim
  | cons a l ih => cases m with
    | nil => exact h.elim
    | cons b m => rw [h.1, ih h.2]

theorem LRel.mono {r r' : α → α' → Prop} (hr : ∀ a b, r a b → r' a b) {l m} (h : LRel r l m) : LRel r' l m := by
  induction l generalizing m with
  | nil => cases m with
    | nil => trivial
    | cons => exact h.elim
  | cons a l ih => cases m with
    | nil => exact h.elim
    | cons b m => exact ⟨hr _ _ h.1, ih h.2⟩

theorem LRel.map {r : α → α' → Prop} {q : β → β' → Prop} {f : α → β} {f' : α' → β'}
    (hr : ∀ a b, r a b → q (f a) (f' b)) {l m} (h : LRel r l m) : LRel q (l.map f) (m.map f') := by
  induction l generalizing m with
  | nil => cases m with
    | nil => trivial
    | cons => exact h.elim
  | cons a l ih => cases m with
    | nil => exact h.elim
    | cons b m => exact ⟨hr _ _ h.1, ih h.2⟩

/-- Related optional values. -/
def ORel (r : α → α' → Prop) : Option α → Option α' → Prop
  | none, none => True
  | some a, some b => r a b
  | _, _ => False

theorem LRel.getLast? {r : α → α' → Prop} {l m} (h : LRel r l m) : ORel r l.getLast? m.getLast? := by
  induction l generalizing m with
  | nil => cases m with
    | nil => trivial
    | cons => exact h.elim
  | cons a l ih => cases m with
    | nil => exact h.elim
    | cons b m =>
      have := ih h.2
      cases l with
      | nil => cases m with
        | nil => exact h.1
        | cons => exact h.2.elim
      | cons a' l => cases m with
        | nil => exact h.2.elim
        | cons b' m => simpa [List.getLast?_cons_cons] using this

theorem LRel.head? {r : α → α' → Prop} {l m} (h : LRel r l m) : ORel r l.head? m.head? := by
  cases l with
  | nil => cases m with
    | nil => trivial
    | cons => exact h.elim
  | cons a l => cases m with
    | nil => exact h.elim
    | cons b m => exact h.1

/-- How the two runs are related. -/
structure Rel (O O' : Type) [Offset O] [Offset O'] (T : Type) where
  eoi : Sp O
  eoi' : Sp O'
  /-- related streams -/
  st : List (Tok O) → List (Tok O') → Prop
  /-- related spans -/
  sp : Sp O → Sp O' → Prop
  /-- related spans of opening tokens in errors -/
  so : Sp O → Sp O' → Prop
  /-- what is compared of the spans in the document -/
  g : Sp O → T
  g' : Sp O' → T
  st_nil : ∀ {s'}, st [] s' → s' = []
  st_cons : ∀ {x s s'}, st (x :: s) s' → ∃ x' t', s' = x' :: t' ∧ x.1 = x'.1 ∧ sp x.2 x'.2 ∧ st s t'
  sp_eoi : sp eoi eoi'
  sp_since : ∀ {s s' t t'}, st s s' → t <:+ s → t' <:+ s' → st t t' → sp (spanSince eoi s t) (spanSince eoi' s' t')
  sp_g : ∀ {a b}, sp a b → g a = g' b
  sp_len : ∀ {a b}, sp a b → a.length = b.length
  at_end : ∀ {a b}, sp a b → sp a.atEnd b.atEnd
  before : ∀ {a b} n, sp a b → so (a.beforeStart n) (b.beforeStart n)
  at_start : ∀ {a b}, sp a b → a.length > 2 → so (a.atStart 2) (b.atStart 2)

namespace Rel
variable {T : Type} (R : Rel O O' T)

theorem st_length {R : Rel O O' T} {s s'} (h : R.st s s') : s.length = s'.length := by
  induction s generalizing s' with
  | nil => rw [R.st_nil h]; rfl
  | cons x s ih =>
    obtain ⟨x', t', rfl, _, _, h2⟩ := R.st_cons h
    simp [ih h2]

/-- Related errors; the alternatives are a set. -/
def er : PErr O → PErr O' → Prop
  | .unexpected l s f e, .unexpected l' s' f' e' => l = l' ∧ R.sp s s' ∧ f = f' ∧ e = e' ∧ AltSet e
  | .unclosed l oa o ea e f, .unclosed l' oa' o' ea' e' f' =>
    l = l' ∧ R.so oa oa' ∧ o = o' ∧ R.sp ea ea' ∧ e = e' ∧ f = f'
  | .message l s m, .message l' s' m' => l = l' ∧ R.sp s s' ∧ m = m'
  | .messageWithHelp l s m h, .messageWithHelp l' s' m' h' => l = l' ∧ R.sp s s' ∧ m = m' ∧ h = h'
  | _, _ => False

/-- Related located errors. -/
def loc (a : Loc O) (b : Loc O') : Prop := a.rem = b.rem ∧ R.er a.err b.err

/-- Related results, of the parser started on `s` and `s'`. -/
structure Res (va : α → α' → Prop) (s : List (Tok O)) (s' : List (Tok O')) (r : PRes O α) (r' : PRes O' α') : Prop where
  pan : r.panicked = r'.panicked
  errs : LRel R.loc r.errs r'.errs
  out : (∃ a b alt alt', r.out = .ok (a, alt) ∧ r'.out = .ok (b, alt') ∧ va a b ∧ ORel R.loc alt alt') ∨
    (∃ e e', r.out = .error e ∧ r'.out = .error e' ∧ R.loc e e')
  rest : R.st r.rest r'.rest
  suf : r.rest <:+ s
  suf' : r'.rest <:+ s'

/-- Related parsers, on streams shorter than `k`. -/
def Sim (k : Nat) (va : α → α' → Prop) (p : P O α) (p' : P O' α') : Prop :=
  ∀ s s', R.st s s' → s.length < k → R.Res va s s' (p R.eoi s) (p' R.eoi' s')

variable {R}

theorem er_merge {a b : PErr O} {a' b' : PErr O'} (h : R.er a a') (h' : R.er b b') :
    ORel R.er (a.merge b) (a'.merge b') := by
  cases a <;> cases a' <;> simp only [er] at h <;> cases b <;> cases b' <;> simp only [er] at h' <;>
    simp only [PErr.merge, ORel, er] <;> grind [altSet_extend]

theorem er_expected {sp : Sp O} {sp' : Sp O'} (h : R.sp sp sp') (e f) :
    R.er (.expectedFound sp e f) (.expectedFound sp' e f) := ⟨rfl, h, rfl, rfl, altSet_opt _⟩

theorem er_isEoi {a : PErr O} {a' : PErr O'} (h : R.er a a') : a.isEoi = a'.isEoi := by
  cases a <;> cases a' <;> simp only [er] at h
  · obtain ⟨rfl, _, rfl, rfl, _⟩ := h; cases ‹TokenFormat› <;> rfl
  all_goals rfl

theorem loc_max {a b : Loc O} {a' b' : Loc O'} (h : R.loc a a') (h' : R.loc b b') : R.loc (a.max b) (a'.max b') := by
  have hm := er_merge h.2 h'.2
  unfold Loc.max
  rw [← h.1, ← h'.1]
  split
  · exact h
  · split
    · exact h'
    · cases h1 : a.err.merge b.err <;> cases h2 : a'.err.merge b'.err <;> rw [h1, h2] at hm <;> simp only [ORel] at hm
      · exact h
      · exact ⟨h.1 ▸ rfl, hm⟩

theorem loc_clash {a b : Loc O} {a' b' : Loc O'} (h : R.loc a a') (h' : R.loc b b') : a.clash b = a'.clash b' := by
  have hm := er_merge h.2 h'.2
  unfold Loc.clash
  rw [← h.1, ← h'.1]
  cases h1 : a.err.merge b.err <;> cases h2 : a'.err.merge b'.err <;> rw [h1, h2] at hm <;> simp only [ORel] at hm <;> rfl

theorem alt_merge {a b : Option (Loc O)} {a' b' : Option (Loc O')} (h : ORel R.loc a a') (h' : ORel R.loc b b') :
    ORel R.loc (mergeAlts a b) (mergeAlts a' b') := by
  cases a <;> cases a' <;> simp only [ORel] at h <;> cases b <;> cases b' <;> simp only [ORel] at h' <;>
    simp only [mergeAlts, ORel]
  · exact h'
  · exact h
  · exact loc_max h' h

theorem alt_clash {a b : Option (Loc O)} {a' b' : Option (Loc O')} (h : ORel R.loc a a') (h' : ORel R.loc b b') :
    clashAlts a b = clashAlts a' b' := by
  cases a <;> cases a' <;> simp only [ORel] at h <;> cases b <;> cases b' <;> simp only [ORel] at h' <;>
    simp only [clashAlts]
  exact loc_clash h' h

theorem loc_maxO {a : Loc O} {a' : Loc O'} {b : Option (Loc O)} {b' : Option (Loc O')} (h : R.loc a a')
    (h' : ORel R.loc b b') : R.loc (a.maxO b) (a'.maxO b') := by
  cases b <;> cases b' <;> simp only [ORel] at h' <;> simp only [Loc.maxO]
  · exact h
  · exact loc_max h h'

theorem loc_clashO {a : Loc O} {a' : Loc O'} {b : Option (Loc O)} {b' : Option (Loc O')} (h : R.loc a a')
    (h' : ORel R.loc b b') : a.clashO b = a'.clashO b' := by
  cases b <;> cases b' <;> simp only [ORel] at h' <;> simp only [Loc.clashO]
  exact loc_clash h h'

theorem alt_mergeL {l : List (Loc O)} {l' : List (Loc O')} (hl : LRel R.loc l l') :
    ∀ {a : Option (Loc O)} {a' : Option (Loc O')}, ORel R.loc a a' →
    ORel R.loc (mergeAltsL a l) (mergeAltsL a' l') ∧ clashAltsL a l = clashAltsL a' l' := by
  induction l generalizing l' with
  | nil => cases l' with
    | nil => intro a a' h; exact ⟨h, rfl⟩
    | cons => exact hl.elim
  | cons x l ih => cases l' with
    | nil => exact hl.elim
    | cons y l' =>
      intro a a' h
      have hxy : ORel R.loc (some x) (some y) := hl.1
      have := ih hl.2 (alt_merge h hxy)
      refine ⟨this.1, ?_⟩
      simp only [clashAltsL, alt_clash h hxy, this.2]

/-! ### Combinators -/

theorem res_ok {va : α → α' → Prop} {s s' t t'} {a : α} {b : α'} (hab : va a b) (ht : R.st t t') (h1 : t <:+ s) (h2 : t' <:+ s') :
    R.Res va s s' (pok a t) (pok b t') :=
  ⟨rfl, trivial, Or.inl ⟨a, b, none, none, rfl, rfl, hab, trivial⟩, ht, h1, h2⟩

theorem res_fail {va : α → α' → Prop} {s s' t t'} {e : PErr O} {e' : PErr O'} {u u'} (hu : R.st u u') (he : R.er e e')
    (ht : R.st t t') (h1 : t <:+ s) (h2 : t' <:+ s') : R.Res va s s' (pfail u e t) (pfail u' e' t') :=
  ⟨rfl, trivial, Or.inr ⟨_, _, rfl, rfl, st_length hu, he⟩, ht, h1, h2⟩

/-- Case distinction on two related streams. -/
theorem st_cases {s s'} (h : R.st s s') : (s = [] ∧ s' = []) ∨
    ∃ c sp sp' t t', s = (c, sp) :: t ∧ s' = (c, sp') :: t' ∧ R.sp sp sp' ∧ R.st t t' := by
  cases s with
  | nil => exact Or.inl ⟨rfl, R.st_nil h⟩
  | cons x s =>
    obtain ⟨⟨c', sp'⟩, t', rfl, h1, h2, h3⟩ := R.st_cons h
    obtain ⟨c, sp⟩ := x
    simp only at h1; subst h1
    exact Or.inr ⟨c, sp, sp', s, t', rfl, rfl, h2, h3⟩

variable {k : Nat}

theorem sim_just (c : Char) : R.Sim k Eq (just c) (just c) := by
  intro s s' h _
  rcases st_cases h with ⟨rfl, rfl⟩ | ⟨x, sp, sp', t, t', rfl, rfl, h1, h2⟩
  · exact res_fail h (er_expected R.sp_eoi _ _) h (List.suffix_refl _) (List.suffix_refl _)
  · simp only [just]
    split
    · exact res_ok rfl h2 (List.suffix_cons _ _) (List.suffix_cons _ _)
    · exact res_fail h (er_expected h1 _ _) h2 (List.suffix_cons _ _) (List.suffix_cons _ _)

theorem sim_justStr (l : Str) : R.Sim k Eq (justStr l) (justStr l) := by
  induction l with
  | nil => intro s s' h _; exact res_ok rfl h (List.suffix_refl _) (List.suffix_refl _)
  | cons c l ih =>
    intro s s' h hk
    rcases st_cases h with ⟨rfl, rfl⟩ | ⟨x, sp, sp', t, t', rfl, rfl, h1, h2⟩
    · exact res_fail h (er_expected R.sp_eoi _ _) h (List.suffix_refl _) (List.suffix_refl _)
    · simp only [justStr]
      split
      · have := ih t t' h2 (by simp only [List.length_cons] at hk; omega)
        exact ⟨this.pan, this.errs, this.out, this.rest, this.suf.trans (List.suffix_cons _ _), this.suf'.trans (List.suffix_cons _ _)⟩
      · exact res_fail h (er_expected h1 _ _) h2 (List.suffix_cons _ _) (List.suffix_cons _ _)

theorem sim_filter (f : Char → Bool) : R.Sim k Eq (filter f) (filter f) := by
  intro s s' h _
  rcases st_cases h with ⟨rfl, rfl⟩ | ⟨x, sp, sp', t, t', rfl, rfl, h1, h2⟩
  · exact res_fail h (er_expected R.sp_eoi _ _) h (List.suffix_refl _) (List.suffix_refl _)
  · simp only [filter]
    split
    · exact res_ok rfl h2 (List.suffix_cons _ _) (List.suffix_cons _ _)
    · exact res_fail h (er_expected h1 _ _) h2 (List.suffix_cons _ _) (List.suffix_cons _ _)

theorem sim_noneOf (c : Char) : R.Sim k Eq (noneOf c) (noneOf c) := sim_filter _

/-- Related results of a partial function. -/
def exRel (R : Rel O O' T) (va : α → α' → Prop) : Except (PErr O) α → Except (PErr O') α' → Prop
  | .ok a, .ok b => va a b
  | .error e, .error e' => R.er e e'
  | _, _ => False

theorem sim_filterMap {va : α → α' → Prop} {f : Sp O → Char → Except (PErr O) α} {f' : Sp O' → Char → Except (PErr O') α'}
    (hf : ∀ {a b} c, R.sp a b → exRel R va (f a c) (f' b c)) : R.Sim k va (filterMap f) (filterMap f') := by
  intro s s' h _
  rcases st_cases h with ⟨rfl, rfl⟩ | ⟨x, sp, sp', t, t', rfl, rfl, h1, h2⟩
  · exact res_fail h (er_expected R.sp_eoi _ _) h (List.suffix_refl _) (List.suffix_refl _)
  · have := hf x h1
    simp only [filterMap]
    cases h3 : f sp x <;> cases h4 : f' sp' x <;> rw [h3, h4] at this <;> simp only [exRel] at this <;> simp only
    · exact res_fail h this h2 (List.suffix_cons _ _) (List.suffix_cons _ _)
    · exact res_ok this h2 (List.suffix_cons _ _) (List.suffix_cons _ _)

theorem sim_endP : R.Sim k Eq endP endP := by
  intro s s' h _
  rcases st_cases h with ⟨rfl, rfl⟩ | ⟨x, sp, sp', t, t', rfl, rfl, h1, h2⟩
  · exact res_ok rfl h (List.suffix_refl _) (List.suffix_refl _)
  · exact res_fail h (er_expected h1 _ _) h2 (List.suffix_cons _ _) (List.suffix_cons _ _)

section
variable {va : α → α' → Prop} {vb : β → β' → Prop} {vc : γ → γ' → Prop} {p : P O α} {p' : P O' α'}
  {q : P O β} {q' : P O' β'}

theorem Sim.mono {va' : α → α' → Prop} (h : R.Sim k va p p') (hv : ∀ a b, va a b → va' a b) : R.Sim k va' p p' := by
  intro s s' hs hk
  have h1 := h s s' hs hk
  refine ⟨h1.pan, h1.errs, ?_, h1.rest, h1.suf, h1.suf'⟩
  rcases h1.out with ⟨a, b, alt, alt', g1, g2, g3, g4⟩ | g
  · exact Or.inl ⟨a, b, alt, alt', g1, g2, hv _ _ g3, g4⟩
  · exact Or.inr g

theorem Sim.le {j : Nat} (h : R.Sim k va p p') (hj : j ≤ k) : R.Sim j va p p' :=
  fun s s' hs hk => h s s' hs (by omega)

theorem sim_pmap {f : α → β} {f' : α' → β'} (h : R.Sim k va p p') (hf : ∀ a b, va a b → vb (f a) (f' b)) :
    R.Sim k vb (pmap f p) (pmap f' p') := by
  intro s s' hs hk
  have h1 := h s s' hs hk
  refine ⟨h1.pan, h1.errs, ?_, h1.rest, h1.suf, h1.suf'⟩
  rcases h1.out with ⟨a, b, alt, alt', g1, g2, g3, g4⟩ | ⟨e, e', g1, g2, g3⟩
  · exact Or.inl ⟨f a, f' b, alt, alt', by simp [pmap, g1], by simp [pmap, g2], hf _ _ g3, g4⟩
  · exact Or.inr ⟨e, e', by simp [pmap, g1], by simp [pmap, g2], g3⟩

theorem sim_ignored (h : R.Sim k va p p') : R.Sim k Eq (ignored p) (ignored p') := sim_pmap h (fun _ _ _ => rfl)

theorem sim_mapErr {f : PErr O → PErr O} {f' : PErr O' → PErr O'} (h : R.Sim k va p p')
    (hf : ∀ e e', R.er e e' → R.er (f e) (f' e')) : R.Sim k va (mapErr f p) (mapErr f' p') := by
  intro s s' hs hk
  have h1 := h s s' hs hk
  refine ⟨h1.pan, h1.errs, ?_, h1.rest, h1.suf, h1.suf'⟩
  rcases h1.out with ⟨a, b, alt, alt', g1, g2, g3, g4⟩ | ⟨e, e', g1, g2, g3⟩
  · exact Or.inl ⟨a, b, alt, alt', by simp [mapErr, g1], by simp [mapErr, g2], g3, g4⟩
  · exact Or.inr ⟨⟨e.rem, f e.err⟩, ⟨e'.rem, f' e'.err⟩, by simp [mapErr, g1], by simp [mapErr, g2], g3.1, hf _ _ g3.2⟩

theorem sim_mapErrWithSpan {f : PErr O → Sp O → PErr O} {f' : PErr O' → Sp O' → PErr O'} (h : R.Sim k va p p')
    (hf : ∀ e e' a b, R.er e e' → R.sp a b → R.er (f e a) (f' e' b)) :
    R.Sim k va (mapErrWithSpan f p) (mapErrWithSpan f' p') := by
  intro s s' hs hk
  have h1 := h s s' hs hk
  refine ⟨h1.pan, h1.errs, ?_, h1.rest, h1.suf, h1.suf'⟩
  rcases h1.out with ⟨a, b, alt, alt', g1, g2, g3, g4⟩ | ⟨e, e', g1, g2, g3⟩
  · exact Or.inl ⟨a, b, alt, alt', by simp [mapErrWithSpan, g1], by simp [mapErrWithSpan, g2], g3, g4⟩
  · exact Or.inr ⟨⟨e.rem, f e.err _⟩, ⟨e'.rem, f' e'.err _⟩, by simp only [mapErrWithSpan, g1], by simp only [mapErrWithSpan, g2], g3.1,
      hf _ _ _ _ g3.2 (R.sp_since hs h1.suf h1.suf' h1.rest)⟩

theorem sim_mapWithSpan {f : α → Sp O → β} {f' : α' → Sp O' → β'} (h : R.Sim k va p p')
    (hf : ∀ a b x y, va a b → R.sp x y → vb (f a x) (f' b y)) : R.Sim k vb (mapWithSpan f p) (mapWithSpan f' p') := by
  intro s s' hs hk
  have h1 := h s s' hs hk
  refine ⟨h1.pan, h1.errs, ?_, h1.rest, h1.suf, h1.suf'⟩
  rcases h1.out with ⟨a, b, alt, alt', g1, g2, g3, g4⟩ | ⟨e, e', g1, g2, g3⟩
  · exact Or.inl ⟨_, _, alt, alt', by simp only [mapWithSpan, g1], by simp only [mapWithSpan, g2],
      hf _ _ _ _ g3 (R.sp_since hs h1.suf h1.suf' h1.rest), g4⟩
  · exact Or.inr ⟨e, e', by simp [mapWithSpan, g1], by simp [mapWithSpan, g2], g3⟩

theorem sim_tryMap {f : α → Sp O → Except (PErr O) β} {f' : α' → Sp O' → Except (PErr O') β'} (h : R.Sim k va p p')
    (hf : ∀ a b x y, va a b → R.sp x y → exRel R vb (f a x) (f' b y)) : R.Sim k vb (tryMap f p) (tryMap f' p') := by
  intro s s' hs hk
  have h1 := h s s' hs hk
  refine ⟨h1.pan, h1.errs, ?_, h1.rest, h1.suf, h1.suf'⟩
  rcases h1.out with ⟨a, b, alt, alt', g1, g2, g3, g4⟩ | ⟨e, e', g1, g2, g3⟩
  · have := hf _ _ _ _ g3 (R.sp_since hs h1.suf h1.suf' h1.rest)
    cases h3 : f a (spanSince R.eoi s (p R.eoi s).rest) <;> cases h4 : f' b (spanSince R.eoi' s' (p' R.eoi' s').rest) <;>
      rw [h3, h4] at this <;> simp only [exRel] at this
    · exact Or.inr ⟨_, _, by simp only [tryMap, g1, h3]; rfl, by simp only [tryMap, g2, h4]; rfl, st_length h1.rest, this⟩
    · exact Or.inl ⟨_, _, alt, alt', by simp only [tryMap, g1, h3], by simp only [tryMap, g2, h4], this, g4⟩
  · exact Or.inr ⟨e, e', by simp [tryMap, g1], by simp [tryMap, g2], g3⟩

theorem sim_validate {f : α → Sp O → List (PErr O)} {f' : α' → Sp O' → List (PErr O')} (h : R.Sim k va p p')
    (hf : ∀ a b x y, va a b → R.sp x y → LRel R.er (f a x) (f' b y)) : R.Sim k va (validate f p) (validate f' p') := by
  intro s s' hs hk
  have h1 := h s s' hs hk
  rcases h1.out with ⟨a, b, alt, alt', g1, g2, g3, g4⟩ | ⟨e, e', g1, g2, g3⟩
  · simp only [validate, g1, g2]
    refine ⟨h1.pan, h1.errs.append ?_, Or.inl ⟨a, b, alt, alt', rfl, rfl, g3, g4⟩, h1.rest, h1.suf, h1.suf'⟩
    exact (hf _ _ _ _ g3 (R.sp_since hs h1.suf h1.suf' h1.rest)).map (fun x y hxy => ⟨st_length h1.rest, hxy⟩)
  · simp only [validate, g1, g2]
    exact ⟨h1.pan, h1.errs, Or.inr ⟨e, e', rfl, rfl, g3⟩, h1.rest, h1.suf, h1.suf'⟩

theorem res_bind {f : α → P O β} {f' : α' → P O' β'} {s s'} (h1 : R.Res va s s' (p R.eoi s) (p' R.eoi' s'))
    (hf : ∀ a b alt alt', va a b → (p R.eoi s).out = .ok (a, alt) → (p' R.eoi' s').out = .ok (b, alt') →
      R.Res vb (p R.eoi s).rest (p' R.eoi' s').rest (f a R.eoi (p R.eoi s).rest) (f' b R.eoi' (p' R.eoi' s').rest)) :
    R.Res vb s s' (bind p f R.eoi s) (bind p' f' R.eoi' s') := by
  rcases h1.out with ⟨a, b, alt, alt', g1, g2, g3, g4⟩ | ⟨e, e', g1, g2, g3⟩
  · have h2 := hf a b alt alt' g3 g1 g2
    rcases h2.out with ⟨a1, b1, alt1, alt1', k1, k2, k3, k4⟩ | ⟨e, e', k1, k2, k3⟩
    · simp only [bind, g1, g2, k1, k2]
      exact ⟨by rw [h1.pan, h2.pan, alt_clash g4 k4], h1.errs.append h2.errs,
        Or.inl ⟨_, _, _, _, rfl, rfl, k3, alt_merge g4 k4⟩, h2.rest, h2.suf.trans h1.suf, h2.suf'.trans h1.suf'⟩
    · simp only [bind, g1, g2, k1, k2]
      exact ⟨by rw [h1.pan, h2.pan, loc_clashO k3 g4], h1.errs.append h2.errs,
        Or.inr ⟨_, _, rfl, rfl, loc_maxO k3 g4⟩, h2.rest, h2.suf.trans h1.suf, h2.suf'.trans h1.suf'⟩
  · simp only [bind, g1, g2]
    exact ⟨h1.pan, h1.errs, Or.inr ⟨e, e', rfl, rfl, g3⟩, h1.rest, h1.suf, h1.suf'⟩

theorem sim_bind {f : α → P O β} {f' : α' → P O' β'} (h : R.Sim k va p p')
    (hf : ∀ a b, va a b → R.Sim k vb (f a) (f' b)) : R.Sim k vb (bind p f) (bind p' f') := by
  intro s s' hs hk
  have h1 := h s s' hs hk
  exact res_bind h1 (fun a b _ _ hab _ _ => hf a b hab _ _ h1.rest (by have := h1.suf.length_le; omega))

/-- Related pairs. -/
def PairRel (va : α → α' → Prop) (vb : β → β' → Prop) (x : α × β) (y : α' × β') : Prop := va x.1 y.1 ∧ vb x.2 y.2

theorem sim_seq (h : R.Sim k va p p') (hq : R.Sim k vb q q') : R.Sim k (PairRel va vb) (seq p q) (seq p' q') :=
  sim_bind h (fun _ _ hab => sim_pmap hq (fun _ _ h => ⟨hab, h⟩))

theorem sim_ignoreThen (h : R.Sim k va p p') (hq : R.Sim k vb q q') : R.Sim k vb (ignoreThen p q) (ignoreThen p' q') :=
  sim_bind h (fun _ _ _ => hq)

theorem sim_thenIgnore (h : R.Sim k va p p') (hq : R.Sim k vb q q') : R.Sim k va (thenIgnore p q) (thenIgnore p' q') :=
  sim_bind h (fun _ _ hab => sim_pmap hq (fun _ _ _ => hab))

theorem sim_delimitedBy {r : P O γ} {r' : P O' γ'} (h : R.Sim k va p p') (hq : R.Sim k vb q q') (hr : R.Sim k vc r r') :
    R.Sim k va (delimitedBy p q r) (delimitedBy p' q' r') := sim_thenIgnore (sim_ignoreThen hq h) hr

/-- After a character has been consumed, the stream is shorter. -/
theorem sim_justThen {c : Char} (hq : R.Sim (k - 1) vb q q') : R.Sim k vb (ignoreThen (just c) q) (ignoreThen (just c) q') := by
  intro s s' hs hk
  refine res_bind (sim_just c s s' hs hk) ?_
  intro a b alt alt' _ h1 h2
  rcases st_cases hs with ⟨rfl, rfl⟩ | ⟨x, sp, sp', t, t', rfl, rfl, h3, h4⟩
  · simp [just, pfail] at h1
  · simp only [List.length_cons] at hk
    by_cases hx : x = c
    · subst hx
      simp only [just, if_true, pok]
      exact hq _ _ h4 (by omega)
    · simp [just, pfail, hx] at h1

/-! #### Alternatives -/

variable {r r2 : PRes O α} {r' r2' : PRes O' α'} {s : List (Tok O)} {s' : List (Tok O')}

theorem res_altOrErr (h : R.Res va s s' r r') : ORel R.loc r.altOrErr r'.altOrErr := by
  unfold PRes.altOrErr
  rcases h.out with ⟨a, b, alt, alt', g1, g2, g3, g4⟩ | ⟨e, e', g1, g2, g3⟩
  · rw [g1, g2]; exact g4
  · rw [g1, g2]; exact g3

theorem res_clean (h : R.Res va s s' r r') : r.clean = r'.clean := by
  unfold PRes.clean
  have : r.errs.isEmpty = r'.errs.isEmpty := by
    have := h.errs.length
    cases h1 : r.errs <;> cases h2 : r'.errs <;> simp [h1, h2] at this ⊢
  rw [this]
  rcases h.out with ⟨a, b, alt, alt', g1, g2, g3, g4⟩ | ⟨e, e', g1, g2, g3⟩ <;> rw [g1, g2]

theorem res_preferA (h : R.Res va s s' r r') (h2 : R.Res va s s' r2 r2') : preferA r r2 = preferA r' r2' := by
  have e1 := h.errs.getLast?
  have e2 := h2.errs.getLast?
  have l1 := h.errs.length
  have l2 := h2.errs.length
  unfold preferA
  rw [l1, l2]
  generalize r.errs.getLast? = x1 at e1 ⊢
  generalize r'.errs.getLast? = x1' at e1 ⊢
  generalize r2.errs.getLast? = x2 at e2 ⊢
  generalize r2'.errs.getLast? = x2' at e2 ⊢
  rcases h.out with ⟨a, b, alt, alt', g1, g2, g3, g4⟩ | ⟨e, e', g1, g2, g3⟩ <;>
  rcases h2.out with ⟨a1, b1, alt1, alt1', k1, k2, k3, k4⟩ | ⟨f, f', k1, k2, k3⟩ <;> rw [g1, g2, k1, k2] <;> simp only
  · cases x1 <;> cases x1' <;> simp only [ORel] at e1 <;> cases x2 <;> cases x2' <;> simp only [ORel] at e2 <;>
      cases alt <;> cases alt' <;> simp only [ORel] at g4 <;> cases alt1 <;> cases alt1' <;> simp only [ORel] at k4 <;>
      first
      | rfl
      | simp only [e1.1, e2.1, g4.1, k4.1]
      | simp only [e1.1, e2.1]
      | simp only [g4.1, k4.1]
  · cases x1 <;> cases x1' <;> simp only [ORel] at e1 <;> cases x2 <;> cases x2' <;> simp only [ORel] at e2 <;>
      first
      | simp only [e1.1, e2.1, g3.1, k3.1]
      | simp only [g3.1, k3.1]

theorem res_takeA (h : R.Res va s s' r r') (h2 : R.Res va s s' r2 r2') : R.Res va s s' (takeA r r2) (takeA r' r2') := by
  have ha := res_altOrErr h2
  unfold takeA
  rcases h.out with ⟨a, b, alt, alt', g1, g2, g3, g4⟩ | ⟨e, e', g1, g2, g3⟩ <;> rw [g1, g2] <;> simp only
  · exact ⟨by rw [h.pan, h2.pan, alt_clash g4 ha], h.errs, Or.inl ⟨_, _, _, _, rfl, rfl, g3, alt_merge g4 ha⟩, h.rest, h.suf, h.suf'⟩
  · exact ⟨by rw [h.pan, h2.pan, loc_clashO g3 ha], h.errs, Or.inr ⟨_, _, rfl, rfl, loc_maxO g3 ha⟩, h.rest, h.suf, h.suf'⟩

theorem sim_orP {q : P O α} {q' : P O' α'} (h : R.Sim k va p p') (hq : R.Sim k va q q') : R.Sim k va (orP p q) (orP p' q') := by
  intro s s' hs hk
  have h1 := h s s' hs hk
  have h2 := hq s s' hs hk
  simp only [orP]
  rw [res_clean h1, res_clean h2, res_preferA h1 h2]
  split
  · exact h1
  · split
    · have ha := res_altOrErr h1
      rcases h2.out with ⟨a1, b1, alt1, alt1', k1, k2, k3, k4⟩ | ⟨f, f', k1, k2, k3⟩ <;> rw [k1, k2] <;> simp only
      · exact ⟨by rw [h1.pan, h2.pan, alt_clash k4 ha], trivial, Or.inl ⟨_, _, _, _, rfl, rfl, k3, alt_merge k4 ha⟩, h2.rest, h2.suf, h2.suf'⟩
      · exact ⟨by rw [h1.pan, h2.pan], h2.errs, Or.inr ⟨_, _, rfl, rfl, k3⟩, h2.rest, h2.suf, h2.suf'⟩
    · split
      · exact res_takeA h1 h2
      · exact res_takeA h2 h1

theorem sim_choiceGo {ps : List (P O α)} {ps' : List (P O' α')} (h : LRel (R.Sim k va) ps ps') :
    ∀ {alt alt' pan}, ORel R.loc alt alt' → R.Sim k va (choiceGo alt pan ps) (choiceGo alt' pan ps') := by
  induction ps generalizing ps' with
  | nil => cases ps' with
    | cons => exact h.elim
    | nil =>
      intro alt alt' pan ha s s' hs hk
      cases alt <;> cases alt' <;> simp only [ORel] at ha <;> simp only [choiceGo]
      · exact ⟨rfl, trivial, Or.inr ⟨_, _, rfl, rfl, st_length hs, er_expected R.sp_eoi _ _⟩, hs, List.suffix_refl _, List.suffix_refl _⟩
      · exact ⟨rfl, trivial, Or.inr ⟨_, _, rfl, rfl, ha⟩, hs, List.suffix_refl _, List.suffix_refl _⟩
  | cons p ps ih => cases ps' with
    | nil => exact h.elim
    | cons p' ps' =>
      intro alt alt' pan ha s s' hs hk
      have h1 := h.1 s s' hs hk
      rcases h1.out with ⟨a, b, alt1, alt1', g1, g2, g3, g4⟩ | ⟨e, e', g1, g2, g3⟩
      · simp only [choiceGo, g1, g2]
        exact ⟨by rw [h1.pan], h1.errs, Or.inl ⟨_, _, _, _, rfl, rfl, g3, g4⟩, h1.rest, h1.suf, h1.suf'⟩
      · have he : ORel R.loc (some e) (some e') := g3
        simp only [choiceGo, g1, g2]
        rw [h1.pan, alt_clash ha he]
        exact ih h.2 (alt_merge ha he) s s' hs hk

theorem sim_choice {ps : List (P O α)} {ps' : List (P O' α')} (h : LRel (R.Sim k va) ps ps') :
    R.Sim k va (choice ps) (choice ps') := sim_choiceGo h trivial

theorem sim_orNot (h : R.Sim k va p p') : R.Sim k (ORel va) (orNot p) (orNot p') := by
  intro s s' hs hk
  have h1 := h s s' hs hk
  rcases h1.out with ⟨a, b, alt1, alt1', g1, g2, g3, g4⟩ | ⟨e, e', g1, g2, g3⟩ <;> simp only [orNot, g1, g2]
  · exact ⟨h1.pan, h1.errs, Or.inl ⟨_, _, _, _, rfl, rfl, g3, g4⟩, h1.rest, h1.suf, h1.suf'⟩
  · exact ⟨h1.pan, trivial, Or.inl ⟨_, _, _, _, rfl, rfl, trivial, g3⟩, hs, List.suffix_refl _, List.suffix_refl _⟩

theorem sim_rewind (h : R.Sim k va p p') : R.Sim k va (rewind p) (rewind p') := by
  intro s s' hs hk
  have h1 := h s s' hs hk
  rcases h1.out with ⟨a, b, alt1, alt1', g1, g2, g3, g4⟩ | ⟨e, e', g1, g2, g3⟩ <;> simp only [rewind, g1, g2]
  · exact ⟨h1.pan, h1.errs, Or.inl ⟨_, _, _, _, rfl, rfl, g3, g4⟩, hs, List.suffix_refl _, List.suffix_refl _⟩
  · exact ⟨h1.pan, h1.errs, Or.inr ⟨_, _, rfl, rfl, g3⟩, h1.rest, h1.suf, h1.suf'⟩

/-! #### Loops -/

theorem sim_repGo (h : R.Sim k va p p') (min : Nat) (max : Option Nat) : ∀ fuel {outs outs' errs errs' alt alt' pan s s' s0 s0'},
    LRel va outs outs' → LRel R.loc errs errs' → ORel R.loc alt alt' → R.st s s' → s.length < k → s <:+ s0 → s' <:+ s0' →
    R.Res (LRel va) s0 s0' (repGo p min max R.eoi fuel outs errs alt pan s) (repGo p' min max R.eoi' fuel outs' errs' alt' pan s') := by
  intro fuel
  induction fuel with
  | zero =>
    intro outs outs' errs errs' alt alt' pan s s' s0 s0' h1 h2 h3 h4 _ h5 h6
    exact ⟨rfl, h2, Or.inl ⟨_, _, _, _, rfl, rfl, h1, h3⟩, h4, h5, h6⟩
  | succ f ih =>
    intro outs outs' errs errs' alt alt' pan s s' s0 s0' h1 h2 h3 h4 hk h5 h6
    have hr := h s s' h4 hk
    have hlen := h1.length
    simp only [repGo, ← hlen]
    split
    · exact ⟨rfl, h2, Or.inl ⟨_, _, _, _, rfl, rfl, h1, h3⟩, h4, h5, h6⟩
    · rcases hr.out with ⟨a, b, alt1, alt1', g1, g2, g3, g4⟩ | ⟨e, e', g1, g2, g3⟩ <;> simp only [g1, g2]
      · have hl : LRel va [a] [b] := ⟨g3, trivial⟩
        rw [← st_length hr.rest, ← st_length h4]
        split
        · rw [hr.pan, alt_clash h3 g4]
          exact ih (h1.append hl) (h2.append hr.errs) (alt_merge h3 g4) hr.rest (by omega) (hr.suf.trans h5) (hr.suf'.trans h6)
        · exact ⟨rfl, h2.append hr.errs, Or.inl ⟨_, _, _, _, rfl, rfl, h1.append hl, alt_merge h3 g4⟩, hr.rest, hr.suf.trans h5, hr.suf'.trans h6⟩
      · have he : ORel R.loc (some e) (some e') := g3
        split
        · exact ⟨by rw [hr.pan], h2.append hr.errs, Or.inr ⟨_, _, rfl, rfl, g3⟩, hr.rest, hr.suf.trans h5, hr.suf'.trans h6⟩
        · have hh := hr.errs.head?
          exact ⟨by simp only [hr.pan, alt_clash he hh, alt_clash h3 (alt_merge he hh)], h2,
            Or.inl ⟨_, _, _, _, rfl, rfl, h1, alt_merge h3 (alt_merge he hh)⟩, h4, h5, h6⟩

theorem sim_repeatedB (h : R.Sim k va p p') (min : Nat) (max : Option Nat) :
    R.Sim k (LRel va) (repeatedB min max p) (repeatedB min max p') := by
  intro s s' hs hk
  unfold repeatedB
  rw [← st_length hs]
  exact sim_repGo h min max _ trivial trivial trivial hs hk (List.suffix_refl _) (List.suffix_refl _)

theorem sim_repeated (h : R.Sim k va p p') : R.Sim k (LRel va) (repeated p) (repeated p') := sim_repeatedB h 0 none

theorem sim_takeUntilGo (h : R.Sim k va p p') : ∀ fuel {outs alt alt' pan s s' s0 s0'},
    ORel R.loc alt alt' → R.st s s' → s.length < k → s <:+ s0 → s' <:+ s0' →
    R.Res (PairRel Eq va) s0 s0' (takeUntilGo p R.eoi fuel outs alt pan s) (takeUntilGo p' R.eoi' fuel outs alt' pan s') := by
  intro fuel
  induction fuel with
  | zero =>
    intro outs alt alt' pan s s' s0 s0' h3 h4 _ h5 h6
    exact ⟨rfl, trivial, Or.inr ⟨_, _, rfl, rfl, st_length h4, er_expected R.sp_eoi _ _⟩, h4, h5, h6⟩
  | succ f ih =>
    intro outs alt alt' pan s s' s0 s0' h3 h4 hk h5 h6
    have hr := h s s' h4 hk
    rcases hr.out with ⟨a, b, alt1, alt1', g1, g2, g3, g4⟩ | ⟨e, e', g1, g2, g3⟩ <;> simp only [takeUntilGo, g1, g2]
    · exact ⟨by rw [hr.pan, alt_clash h3 g4], hr.errs, Or.inl ⟨_, _, _, _, rfl, rfl, ⟨rfl, g3⟩, alt_merge h3 g4⟩, hr.rest, hr.suf.trans h5, hr.suf'.trans h6⟩
    · have he : ORel R.loc (some e) (some e') := g3
      rw [hr.pan, alt_clash h3 he]
      rcases st_cases h4 with ⟨rfl, rfl⟩ | ⟨x, sp, sp', t, t', rfl, rfl, k1, k2⟩
      · exact ⟨rfl, hr.errs, Or.inr ⟨_, _, rfl, rfl, g3⟩, h4, h5, h6⟩
      · simp only [List.length_cons] at hk
        exact ih (alt_merge h3 he) k2 (by omega) ((List.suffix_cons _ _).trans h5) ((List.suffix_cons _ _).trans h6)

theorem sim_takeUntil (h : R.Sim k va p p') : R.Sim k (PairRel Eq va) (takeUntil p) (takeUntil p') := by
  intro s s' hs hk
  unfold takeUntil
  rw [← st_length hs]
  exact sim_takeUntilGo h _ trivial hs hk (List.suffix_refl _) (List.suffix_refl _)

theorem skipTo_rel (l : List Char) {s s'} (h : R.st s s') :
    (skipTo l s = none ∧ skipTo l s' = none) ∨
    ∃ t t', skipTo l s = some t ∧ skipTo l s' = some t' ∧ R.st t t' ∧ t <:+ s ∧ t' <:+ s' := by
  induction s generalizing s' with
  | nil => rw [R.st_nil h]; exact Or.inl ⟨rfl, rfl⟩
  | cons x s ih =>
    obtain ⟨x', t', rfl, h1, h2, h3⟩ := R.st_cons h
    simp only [skipTo, ← h1]
    split
    · exact Or.inr ⟨_, _, rfl, rfl, h, List.suffix_refl _, List.suffix_refl _⟩
    · rcases ih h3 with g | ⟨t, t1, g1, g2, g3, g4, g5⟩
      · exact Or.inl g
      · exact Or.inr ⟨t, t1, g1, g2, g3, g4.trans (List.suffix_cons _ _), g5.trans (List.suffix_cons _ _)⟩

theorem st_drop_nil {s s'} (h : R.st s s') : R.st [] [] := by
  induction s generalizing s' with
  | nil => rw [R.st_nil h] at h; exact h
  | cons x s ih =>
    obtain ⟨x', t', rfl, h1, h2, h3⟩ := R.st_cons h
    exact ih h3

theorem sim_recoverSkipUntil (l : List Char) {a : α} {b : α'} (hab : va a b) (h : R.Sim k va p p') :
    R.Sim k va (recoverSkipUntil l a p) (recoverSkipUntil l b p') := by
  intro s s' hs hk
  have h1 := h s s' hs hk
  rcases h1.out with ⟨a, b, alt1, alt1', g1, g2, g3, g4⟩ | ⟨e, e', g1, g2, g3⟩ <;> simp only [recoverSkipUntil, g1, g2]
  · exact ⟨h1.pan, h1.errs, Or.inl ⟨_, _, _, _, rfl, rfl, g3, g4⟩, h1.rest, h1.suf, h1.suf'⟩
  · rcases skipTo_rel l hs with ⟨k1, k2⟩ | ⟨t, t', k1, k2, k3, k4, k5⟩ <;> rw [k1, k2] <;> simp only
    · exact ⟨h1.pan, h1.errs, Or.inr ⟨_, _, rfl, rfl, g3⟩, st_drop_nil hs, List.nil_suffix, List.nil_suffix⟩
    · exact ⟨h1.pan, h1.errs.append ⟨g3, trivial⟩, Or.inl ⟨_, _, _, _, rfl, rfl, hab, trivial⟩, k3, k4, k5⟩

/-- Related results of `sepDelim`. -/
theorem sim_sepDelim (h : R.Sim k va p p') {alt alt' s s'} (ha : ORel R.loc alt alt') (hs : R.st s s') (hk : s.length < k) :
    ORel R.loc (sepDelim p R.eoi alt s).1 (sepDelim p' R.eoi' alt' s').1 ∧
    (sepDelim p R.eoi alt s).2.1 = (sepDelim p' R.eoi' alt' s').2.1 ∧
    R.st (sepDelim p R.eoi alt s).2.2 (sepDelim p' R.eoi' alt' s').2.2 ∧
    (sepDelim p R.eoi alt s).2.2 <:+ s ∧ (sepDelim p' R.eoi' alt' s').2.2 <:+ s' := by
  have h1 := h s s' hs hk
  unfold sepDelim
  rcases h1.out with ⟨a, b, alt1, alt1', g1, g2, g3, g4⟩ | ⟨e, e', g1, g2, g3⟩ <;> simp only [g1, g2]
  · have hm := alt_mergeL h1.errs g4
    exact ⟨alt_merge ha hm.1, by rw [h1.pan, hm.2, alt_clash ha hm.1], h1.rest, h1.suf, h1.suf'⟩
  · have he : ORel R.loc (some e) (some e') := g3
    have hm := alt_mergeL h1.errs he
    exact ⟨alt_merge ha hm.1, by rw [h1.pan, hm.2, alt_clash ha hm.1], hs, List.suffix_refl _, List.suffix_refl _⟩

/-- Related states at the end of the loop of `separatedBy`. -/
structure SepRes (R : Rel O O' T) (va : α → α' → Prop) (s : List (Tok O)) (s' : List (Tok O'))
    (r : List α × List (Loc O) × Option (Loc O) × Bool × List (Tok O) × Option (Loc O))
    (r' : List α' × List (Loc O') × Option (Loc O') × Bool × List (Tok O') × Option (Loc O')) : Prop where
  outs : LRel va r.1 r'.1
  errs : LRel R.loc r.2.1 r'.2.1
  alt : ORel R.loc r.2.2.1 r'.2.2.1
  pan : r.2.2.2.1 = r'.2.2.2.1
  rest : R.st r.2.2.2.2.1 r'.2.2.2.2.1
  suf : r.2.2.2.2.1 <:+ s
  suf' : r'.2.2.2.2.1 <:+ s'
  err : ORel R.loc r.2.2.2.2.2 r'.2.2.2.2.2

theorem sim_sepGo (h : R.Sim k va p p') (hq : R.Sim k vb q q') : ∀ fuel {outs outs' errs errs' alt alt' pan s s' s0 s0'},
    LRel va outs outs' → LRel R.loc errs errs' → ORel R.loc alt alt' → R.st s s' → s.length < k → s <:+ s0 → s' <:+ s0' →
    SepRes R va s0 s0' (sepGo p q R.eoi fuel outs errs alt pan s) (sepGo p' q' R.eoi' fuel outs' errs' alt' pan s') := by
  intro fuel
  induction fuel with
  | zero =>
    intro outs outs' errs errs' alt alt' pan s s' s0 s0' h1 h2 h3 h4 _ h5 h6
    exact ⟨h1, h2, h3, rfl, h4, h5, h6, trivial⟩
  | succ f ih =>
    intro outs outs' errs errs' alt alt' pan s s' s0 s0' h1 h2 h3 h4 hk h5 h6
    have hd := hq s s' h4 hk
    rcases hd.out with ⟨a, b, alt1, alt1', g1, g2, g3, g4⟩ | ⟨e, e', g1, g2, g3⟩ <;> simp only [sepGo, g1, g2]
    · have hi := h _ _ hd.rest (by have := hd.suf.length_le; omega)
      rcases hi.out with ⟨a1, b1, alt2, alt2', k1, k2, k3, k4⟩ | ⟨e, e', k1, k2, k3⟩ <;> simp only [k1, k2]
      · rw [← st_length hi.rest, ← st_length h4]
        have hl : LRel va [a1] [b1] := ⟨k3, trivial⟩
        have hm := alt_merge h3 g4
        split
        · rw [hd.pan, hi.pan, alt_clash h3 g4, alt_clash hm k4]
          exact ih (h1.append hl) ((h2.append hd.errs).append hi.errs) (alt_merge hm k4) hi.rest (by omega)
            ((hi.suf.trans hd.suf).trans h5) ((hi.suf'.trans hd.suf').trans h6)
        · exact ⟨h1, h2, h3, rfl, h4, h5, h6, trivial⟩
      · exact ⟨h1, (h2.append hd.errs).append hi.errs, alt_merge h3 g4, by simp only [hd.pan, hi.pan, alt_clash h3 g4], h4, h5, h6, k3⟩
    · exact ⟨h1, h2.append hd.errs, h3, by simp only [hd.pan], h4, h5, h6, g3⟩

theorem res_separatedBy (h : R.Sim k va p p') (hq : R.Sim k vb q q') {s s'} (hs : R.st s s') (hk : s.length < k) :
    R.Res (LRel va) s s' (separatedBy p q R.eoi s) (separatedBy p' q' R.eoi' s') := by
  have hn : ORel R.loc none none := trivial
  obtain ⟨d1, d2, d3, d4, d5⟩ := sim_sepDelim hq hn hs hk
  unfold separatedBy
  generalize sepDelim q R.eoi none s = x at d1 d2 d3 d4
  generalize sepDelim q' R.eoi' none s' = x' at d1 d2 d3 d5
  obtain ⟨alt0, pan0, s0⟩ := x
  obtain ⟨alt0', pan0', s0'⟩ := x'
  simp only at d1 d2 d3 d4 d5 ⊢
  subst d2
  have hl := d4.length_le
  have hi := h s0 s0' d3 (by omega)
  rcases hi.out with ⟨a1, b1, alt2, alt2', k1, k2, k3, k4⟩ | ⟨e, e', k1, k2, k3⟩ <;> simp only [k1, k2]
  · have hl2 := hi.suf.length_le
    have hsg := sim_sepGo h hq ((p R.eoi s0).rest.length + 1) (outs := [a1]) (outs' := [b1]) (errs := (p R.eoi s0).errs)
      (errs' := (p' R.eoi' s0').errs) (pan := pan0 || (p R.eoi s0).panicked || clashAlts alt0 alt2) ⟨k3, trivial⟩ hi.errs (alt_merge d1 k4) hi.rest (by omega)
      (hi.suf.trans d4) (hi.suf'.trans d5)
    rw [← st_length hi.rest, ← hi.pan, ← alt_clash d1 k4]
    generalize sepGo p q R.eoi _ _ _ _ _ _ = y at hsg
    generalize sepGo p' q' R.eoi' _ _ _ _ _ _ = y' at hsg
    obtain ⟨o, es, alt, pan, s1, er⟩ := y
    obtain ⟨o', es', alt', pan', s1', er'⟩ := y'
    obtain ⟨f1, f2, f3, f4, f5, f6, f7, f8⟩ := hsg
    simp only at f1 f2 f3 f4 f5 f6 f7 f8 ⊢
    obtain ⟨m1, m2, m3, m4, m5⟩ := sim_sepDelim hq f3 f5 (by have := f6.length_le; omega)
    exact ⟨by rw [f4, m2, alt_clash m1 f8], f2, Or.inl ⟨_, _, _, _, rfl, rfl, f1, alt_merge m1 f8⟩, m3, m4.trans f6, m5.trans f7⟩
  · have he : ORel R.loc (some e) (some e') := k3
    exact ⟨by rw [hi.pan, alt_clash d1 he], hi.errs, Or.inl ⟨_, _, _, _, rfl, rfl, trivial, alt_merge d1 he⟩, d3, d4, d5⟩

theorem sim_separatedBy (h : R.Sim k va p p') (hq : R.Sim k vb q q') :
    R.Sim k (LRel va) (separatedBy p q) (separatedBy p' q') := fun _ _ hs hk => res_separatedBy h hq hs hk

end

end Rel

end Knuffel
