import Verif.Theory.StepsEntry
import Verif.Theory.NoPanicNode
/-!
# Bounds on the number of looks at the stream: nodes and documents

A successful parser for a node takes at most `3000` times the decrease of the
square of the remaining length; a failing one at most `3000` times that square.
-/

set_option linter.unusedSectionVars false
set_option linter.unusedVariables false

namespace Knuffel.Steps
open Cst

variable {O α β γ : Type}

/-- The square of the remaining length (plus one). -/
def W (s : List (Tok O)) : Nat := (s.length + 1) * (s.length + 1)

theorem W_mono {s t : List (Tok O)} (h : t.length ≤ s.length) : W t ≤ W s :=
  Nat.mul_le_mul (by omega) (by omega)

theorem W_lt {s t : List (Tok O)} (h : t.length < s.length) : W t + (s.length + 1) ≤ W s := by
  have h1 : W t ≤ s.length * (s.length + 1) := Nat.mul_le_mul (by omega) (by omega)
  have h2 : W s = s.length * (s.length + 1) + (s.length + 1) := by unfold W; rw [Nat.add_mul, Nat.one_mul]
  omega

theorem L_le_W (s : List (Tok O)) : s.length + 1 ≤ W s := Nat.le_mul_of_pos_left _ (by omega)

attribute [irreducible] W

/-- `r` runs `p` and then, if it succeeds, `q`. -/
def Then (p : PS O α) (q : PS O β) (r : PS O γ) : Prop := ∀ eoi s,
  (∃ e e', (p.run eoi s).out = .error e ∧ (r.run eoi s).out = .error e' ∧ r.cost eoi s = p.cost eoi s) ∨
  (∃ x, (p.run eoi s).out = .ok x ∧ r.cost eoi s = p.cost eoi s + q.cost eoi (p.run eoi s).rest ∧
    (r.run eoi s).rest = (q.run eoi (p.run eoi s).rest).rest ∧
    ((∃ y z, (r.run eoi s).out = .ok y ∧ (q.run eoi (p.run eoi s).rest).out = .ok z) ∨
     (∃ y z, (r.run eoi s).out = .error y ∧ (q.run eoi (p.run eoi s).rest).out = .error z)))

theorem then_ignoreThen (p : PS O α) (q : PS O β) : Then p q (ignoreThen p q) := by
  intro eoi s
  rcases bind_cases p (fun _ => q) eoi s with ⟨e, e', h1, h2, _, h3⟩ | ⟨a, alt, h1, h2, h3, h4⟩
  · exact .inl ⟨e, e', h1, h2, h3⟩
  · exact .inr ⟨_, h1, h2, h3, h4⟩

theorem then_bind_pmap (p : PS O α) (q : PS O β) (f : α → β → γ) : Then p q (bind p fun a => pmap (f a) q) := by
  intro eoi s
  rcases bind_cases p (fun a => pmap (f a) q) eoi s with ⟨e, e', h1, h2, _, h3⟩ | ⟨a, alt, h1, h2, h3, h4⟩
  · exact .inl ⟨e, e', h1, h2, h3⟩
  · refine .inr ⟨_, h1, h2, h3, ?_⟩
    rcases h4 with ⟨x, y, h5, h6⟩ | ⟨x, y, h5, h6⟩
    · obtain ⟨z, hz⟩ := pmap_ok h6
      exact .inl ⟨x, z, h5, hz⟩
    · obtain ⟨z, hz⟩ := pmap_err h6
      exact .inr ⟨x, z, h5, hz⟩

theorem then_seq (p : PS O α) (q : PS O β) : Then p q (seq p q) := then_bind_pmap p q _
theorem then_thenIgnore (p : PS O α) (q : PS O β) : Then p q (thenIgnore p q) := then_bind_pmap p q _

/-- `orNot` always succeeds. -/
theorem orNot_cases (p : PS O α) (eoi s) : ∃ x, ((orNot p).run eoi s).out = .ok x ∧
    (orNot p).cost eoi s = p.cost eoi s ∧
    ((∃ y, (p.run eoi s).out = .ok y ∧ ((orNot p).run eoi s).rest = (p.run eoi s).rest) ∨
     (∃ e, (p.run eoi s).out = .error e ∧ ((orNot p).run eoi s).rest = s)) := by
  cases hp : (p.run eoi s).out with
  | ok y => exact ⟨_, by simp [orNot, Knuffel.orNot, hp]; rfl, rfl, .inl ⟨y, rfl, by simp [orNot, Knuffel.orNot, hp]⟩⟩
  | error e => exact ⟨_, by simp [orNot, Knuffel.orNot, hp]; rfl, rfl, .inr ⟨e, rfl, by simp [orNot, Knuffel.orNot, hp]⟩⟩

theorem repeated_ok (p : PS O α) (eoi s) : ∃ x, ((repeated p).run eoi s).out = .ok x := by
  have : ∀ fuel outs errs alt pan s e, (repGo p.run 0 none eoi fuel outs errs alt pan s).out ≠ .error e := by
    intro fuel
    induction fuel with
    | zero => intro outs errs alt pan s e h; simp [repGo] at h
    | succ fuel ih =>
      intro outs errs alt pan s e h
      rw [repGo] at h
      cases hpo : (p.run eoi s).out with
      | error e' => simp [hpo] at h
      | ok y =>
        simp only [hpo] at h
        split at h
        · simp at h
        · split at h
          · exact ih _ _ _ _ _ _ h
          · simp at h
  cases h : ((repeated p).run eoi s).out with
  | ok x => exact ⟨x, rfl⟩
  | error e => exact absurd h (this _ _ _ _ _ _ e)

section
variable [Offset O]

/-! ### Entries of a node -/

theorem spaceEntries_cost (eoi : Sp O) : ∀ fuel outs errs alt pan s, Closed s →
    repCost spaceEntry none eoi fuel outs.length s +
      1620 * W (repGo Knuffel.spaceEntry 0 none eoi fuel outs errs alt pan s).rest ≤
      1620 * W s + 1620 * (s.length + 1) := by
  intro fuel
  induction fuel with
  | zero => intro outs errs alt pan s _; simp [repCost, repGo]
  | succ fuel ih =>
    intro outs errs alt pan s hc
    have h1 := (lin_spaceEntry (O := O)).cost eoi s hc
    rw [repCost, repGo]
    simp only [reduceCtorEq, ↓reduceIte, run_spaceEntry]
    cases hpo : (Knuffel.spaceEntry eoi s).out with
    | error e => simp only [Nat.not_lt_zero, ↓reduceIte]; omega
    | ok y =>
      obtain ⟨y, aalt⟩ := y
      have h2 := eats_spaceEntry eoi s _ hpo
      have hl : (Knuffel.spaceEntry eoi s).rest.length < s.length := by omega
      have hW := W_lt hl
      simp only [hl, ↓reduceIte]
      have h3 := ih (outs ++ [y]) (errs ++ (Knuffel.spaceEntry eoi s).errs) (mergeAlts alt aalt)
        (pan || (Knuffel.spaceEntry eoi s).panicked || clashAlts alt aalt) (Knuffel.spaceEntry eoi s).rest
        (hc.suf (suf_spaceEntry eoi s))
      rw [List.length_append, List.length_singleton] at h3
      omega

theorem run_spaceEntries : (repeated spaceEntry : PS O _).run = Knuffel.repeated Knuffel.spaceEntry := by
  show Knuffel.repeated spaceEntry.run = _
  rw [run_spaceEntry]

theorem cost_spaceEntries (eoi : Sp O) (s : List (Tok O)) (hc : Closed s) :
    (repeated spaceEntry).cost eoi s + 1620 * W ((repeated spaceEntry).run eoi s).rest ≤
      1620 * W s + 1620 * (s.length + 1) := by
  have := spaceEntries_cost eoi (s.length + 1) [] [] none false s hc
  rw [run_spaceEntries]
  exact this

/-! ### Children -/

/-- What a parser for the inside of a children block may cost. -/
structure Nest (p : PS O (List (SpannedNode (Sp O)))) : Prop where
  any : ∀ eoi s, Closed s → p.cost eoi s ≤ 3000 * W s + 420 * (s.length + 1)
  ok : ∀ eoi s x, Closed s → (p.run eoi s).out = .ok x → BodyEnd (chars (p.run eoi s).rest) →
    p.cost eoi s + 3000 * W (p.run eoi s).rest ≤ 3000 * W s + 420 * (s.length + 1)
  suf : Suf p.run

variable {inner : PS O (List (SpannedNode (Sp O)))}

theorem Nest.suf_braced (h : Nest inner) : Suf (bracedNodes inner).run := suf_bracedNodes h.suf

/-- Inside the braces. -/
theorem cost_inside (h : Nest inner) (eoi : Sp O) (t : List (Tok O)) (hc : Closed t) :
    (∀ x, ((thenIgnore inner (just '}')).run eoi t).out = .ok x →
      (thenIgnore inner (just '}')).cost eoi t + 3000 * W ((thenIgnore inner (just '}')).run eoi t).rest ≤
        3000 * W t + 421 * (t.length + 1)) ∧
    (thenIgnore inner (just '}')).cost eoi t ≤ 3000 * W t + 421 * (t.length + 1) := by
  have hin := h.any eoi t hc
  have key := then_thenIgnore inner (just '}') eoi t
  have e1 : (just '}' : PS O Char).cost eoi (inner.run eoi t).rest = 1 := rfl
  have hs2 : ((just '}' : PS O Char).run eoi (inner.run eoi t).rest).rest.length ≤ (inner.run eoi t).rest.length :=
    (suf_just eoi (inner.run eoi t).rest).length_le
  have hW2 := W_mono hs2
  rw [e1] at key
  generalize (thenIgnore inner (just '}')).cost eoi t = c at *
  generalize (thenIgnore inner (just '}')).run eoi t = r at *
  have hj : ∀ x, ((just '}' : PS O Char).run eoi (inner.run eoi t).rest).out = .ok x →
    (chars (inner.run eoi t).rest).head? = some '}' := fun x hx => (just_ok_head (c := '}') hx).1
  generalize (just '}' : PS O Char).run eoi (inner.run eoi t).rest = q at *
  rcases key with ⟨_, _, _, h1, h2⟩ | ⟨x, h1, h2, h3, h4⟩
  · refine ⟨fun x hx => ?_, by omega⟩
    rw [hx] at h1; simp at h1
  · refine ⟨fun y hy => ?_, by omega⟩
    rcases h4 with ⟨_, z, _, h5⟩ | ⟨_, _, h5, _⟩
    · have hok := h.ok eoi t x hc h1 (.inr (hj z h5))
      rw [h3]
      omega
    · rw [hy] at h5; simp at h5

theorem mapErrWithSpan_ok {p : PS O α} {f eoi s x} (h : ((mapErrWithSpan f p).run eoi s).out = .ok x) :
    ∃ y, (p.run eoi s).out = .ok y := by
  cases hq : (p.run eoi s).out with
  | ok y => exact ⟨y, rfl⟩
  | error e =>
    have : (Knuffel.mapErrWithSpan f p.run eoi s).out = .ok x := h
    simp [Knuffel.mapErrWithSpan, hq] at this

theorem cost_bracedNodes (h : Nest inner) (eoi : Sp O) (s : List (Tok O)) (hc : Closed s) :
    (∀ x, ((bracedNodes inner).run eoi s).out = .ok x →
      (bracedNodes inner).cost eoi s + 3000 * W ((bracedNodes inner).run eoi s).rest ≤
        3000 * W s + 422 * (s.length + 1)) ∧
    ((chars s).head? ≠ some '{' → (bracedNodes inner).cost eoi s ≤ 1) ∧
    (bracedNodes inner).cost eoi s ≤ 3000 * W s + 422 * (s.length + 1) := by
  have hs1 : ((just '{' : PS O Char).run eoi s).rest <:+ s := suf_just eoi s
  have hj : (just '{' : PS O Char).cost eoi s = 1 := rfl
  have key := then_ignoreThen (just '{') (mapErrWithSpan bracesErr (thenIgnore inner (just '}'))) eoi s
  change (∃ e e', _ ∧ ((bracedNodes inner).run eoi s).out = .error e' ∧ (bracedNodes inner).cost eoi s = _) ∨
    (∃ x, _ ∧ (bracedNodes inner).cost eoi s = _ ∧ ((bracedNodes inner).run eoi s).rest = _ ∧
      ((∃ y z, ((bracedNodes inner).run eoi s).out = .ok y ∧ _) ∨
       (∃ y z, ((bracedNodes inner).run eoi s).out = .error y ∧ _))) at key
  rw [hj] at key
  have hh : ∀ x, ((just '{' : PS O Char).run eoi s).out = .ok x → (chars s).head? = some '{' :=
    fun x hx => (just_ok_head (c := '{') hx).1
  generalize (bracedNodes inner).cost eoi s = c at *
  generalize (bracedNodes inner).run eoi s = r at *
  generalize (just '{' : PS O Char).run eoi s = q at *
  have hW1 := W_mono hs1.length_le
  have hl1 := hs1.length_le
  obtain ⟨i1, i2⟩ := cost_inside h eoi q.rest (hc.suf hs1)
  rcases key with ⟨e, e', h1, h2, h3⟩ | ⟨x, h1, h2, h3, h4⟩
  · refine ⟨fun x hx => ?_, fun _ => by omega, by omega⟩
    rw [h2] at hx; simp at hx
  · have hb : c = 1 + (thenIgnore inner (just '}')).cost eoi q.rest := h2
    have hr : r.rest = ((thenIgnore inner (just '}')).run eoi q.rest).rest := h3
    refine ⟨fun y hy => ?_, fun hne => absurd (hh x h1) hne, by rw [hb]; omega⟩
    rcases h4 with ⟨y', z, h5, h6⟩ | ⟨y', z, h5, _⟩
    · obtain ⟨z', hz'⟩ := mapErrWithSpan_ok h6
      have := i1 z' hz'
      rw [hb, hr]
      omega
    · rw [h5] at hy; simp at hy

theorem term_not_dash {eoi : Sp O} {s x} (h : (Knuffel.nodeTerminator eoi s).out = .ok x) :
    ¬ ['/', '-'] <+: chars s := by
  intro hd
  have hslash : (chars s).head? = some '/' := by obtain ⟨w, hw⟩ := hd; rw [← hw]; rfl
  obtain ⟨p, hp, h1, _⟩ := choice_ok_inv h
  simp only [List.mem_cons, List.not_mem_nil, or_false] at hp
  rcases hp with rfl | rfl | rfl | rfl
  · obtain ⟨c, hc, hc'⟩ := newline_ok_head h1
    rw [hslash] at hc
    injection hc with hc; subst hc
    revert hc'; decide
  · exact absurd (prefix_clash (comment_ok_prefix h1) hd) (by decide)
  · obtain ⟨b, h2, _⟩ := pmap_ok_inv (b := x.1) (alt := x.2) h1
    have := (just_ok_head h2).1
    rw [hslash] at this; revert this; decide
  · unfold Knuffel.endP at h1
    cases s with
    | nil => simp at hslash
    | cons y t => simp [pfail] at h1

/-- The space and the optional slashdash before children. -/
def preBrace : PS O (Option Unit) := ignoreThen (repeated nodeSpace)
  (orNot (thenIgnore (beginComment '-') (repeated nodeSpace)))

theorem lin_preBrace : Lin 198 (preBrace : PS O (Option Unit)) :=
  lin_nodeSpaces.ignoreThen (const_beginComment.lin.thenIgnore lin_nodeSpaces).orNot

theorem preBrace_ok (eoi : Sp O) (s) : ∃ x, ((preBrace : PS O (Option Unit)).run eoi s).out = .ok x := by
  obtain ⟨y, hy⟩ := repeated_ok nodeSpace eoi s
  rcases then_ignoreThen (repeated nodeSpace) (orNot (thenIgnore (beginComment '-') (repeated nodeSpace))) eoi s with
    ⟨e, _, h1, _⟩ | ⟨x, h1, h2, h3, ⟨x, z, h4, _⟩ | ⟨x, z, h4, h5⟩⟩
  · rw [hy] at h1; simp at h1
  · exact ⟨x, h4⟩
  · obtain ⟨w, hw, _⟩ := orNot_cases (thenIgnore (beginComment '-') (repeated nodeSpace)) eoi
      ((repeated nodeSpace).run eoi s).rest
    rw [hw] at h5; simp at h5

/-- The end of a node. -/
def nodeEnd : PS O (List Unit × Unit) := seq (repeated nodeSpace) nodeTerminator

theorem lin_nodeEnd : Lin 118 (nodeEnd : PS O (List Unit × Unit)) := lin_nodeSpaces.seq lin_nodeTerminator

/-- A node does not end before a brace. -/
theorem nodeEnd_brace {eoi : Sp O} {s}
    (h : (chars ((preBrace : PS O (Option Unit)).run eoi s).rest).head? = some '{') :
    ∃ e, ((nodeEnd : PS O (List Unit × Unit)).run eoi s).out = .error e := by
  obtain ⟨y, hy⟩ := repeated_ok nodeSpace eoi s
  have hnot : ∀ x, (Knuffel.nodeTerminator eoi ((repeated nodeSpace).run eoi s).rest).out ≠ .ok x := by
    intro x hx
    rcases then_ignoreThen (repeated nodeSpace) (orNot (thenIgnore (beginComment '-') (repeated nodeSpace))) eoi s with
      ⟨e, _, h1, _⟩ | ⟨_, h1, h2, h3, _⟩
    · rw [hy] at h1; simp at h1
    · have h3' : ((preBrace : PS O (Option Unit)).run eoi s).rest =
          ((orNot (thenIgnore (beginComment '-') (repeated nodeSpace))).run eoi
            ((repeated nodeSpace).run eoi s).rest).rest := h3
      obtain ⟨w, hw, _, ⟨z, hz, hr⟩ | ⟨e, _, hr⟩⟩ := orNot_cases (thenIgnore (beginComment '-') (repeated nodeSpace)) eoi
        ((repeated nodeSpace).run eoi s).rest
      · rcases then_thenIgnore (beginComment '-') (repeated nodeSpace) eoi ((repeated nodeSpace).run eoi s).rest with
          ⟨_, _, _, h5, _⟩ | ⟨u, h5, _⟩
        · rw [hz] at h5; simp at h5
        · have hb : Ok (Knuffel.beginComment '-') eoi ((repeated nodeSpace).run eoi s).rest u.1
              (Knuffel.beginComment '-' eoi ((repeated nodeSpace).run eoi s).rest).rest :=
            ⟨quiet_beginComment '-' _ _, ⟨u.2, h5⟩, rfl⟩
          have := takes_prefix (ok_beginComment.1 hb)
          exact term_not_dash hx this
      · rw [h3', hr] at h
        exact (term_ok_stop hx).2 h
  rcases then_seq (repeated nodeSpace) nodeTerminator eoi s with ⟨e, e', h1, h2, _⟩ | ⟨_, _, _, _, ⟨_, z, _, h4⟩ | ⟨z, _, h4, _⟩⟩
  · exact ⟨e', h2⟩
  · rw [run_nodeTerminator] at h4
    exact absurd h4 (hnot z)
  · exact ⟨z, h4⟩

/-- The optional children: either not much work, or they are there, or the node cannot end. -/
theorem cost_optChildren (h : Nest inner) (eoi : Sp O) (s : List (Tok O)) (hc : Closed s) :
    (optChildren inner).cost eoi s + 3000 * W ((optChildren inner).run eoi s).rest ≤
        3000 * W s + 620 * (s.length + 1) ∨
    ((optChildren inner).cost eoi s ≤ 3000 * W s + 620 * (s.length + 1) ∧
      ((optChildren inner).run eoi s).rest = s ∧
      ∃ e, ((nodeEnd : PS O (List Unit × Unit)).run eoi s).out = .error e) := by
  have h0 := (lin_preBrace (O := O)).cost eoi s hc
  have hs := (lin_preBrace (O := O)).suf eoi s
  obtain ⟨b1, b2, b3⟩ := cost_bracedNodes h eoi _ (hc.suf hs)
  have hW := W_mono hs.length_le
  have hl := hs.length_le
  obtain ⟨x, hx, hcost, hcase⟩ := orNot_cases (seq preBrace (spanned (bracedNodes inner))) eoi s
  have e0 : (optChildren inner).cost eoi s = (seq preBrace (spanned (bracedNodes inner))).cost eoi s := rfl
  obtain ⟨y, hy⟩ := preBrace_ok eoi s
  rcases then_seq preBrace (spanned (bracedNodes inner)) eoi s with ⟨e, _, h1, _⟩ | ⟨_, h1, h2, h3, h4⟩
  · rw [hy] at h1; simp at h1
  · have e1 : (spanned (bracedNodes inner)).cost eoi (preBrace.run eoi s).rest =
        (bracedNodes inner).cost eoi (preBrace.run eoi s).rest := rfl
    rcases hcase with ⟨z, hz, hr⟩ | ⟨e, he, hr⟩
    · refine .inl ?_
      have hr' : ((optChildren inner).run eoi s).rest = ((bracedNodes inner).run eoi (preBrace.run eoi s).rest).rest := by
        show ((orNot (seq preBrace (spanned (bracedNodes inner)))).run eoi s).rest = _
        rw [hr, h3]; rfl
      have hbok : ∃ w, ((bracedNodes inner).run eoi (preBrace.run eoi s).rest).out = .ok w := by
        rcases h4 with ⟨_, w, _, h5⟩ | ⟨w, _, h5, _⟩
        · cases hq : ((bracedNodes inner).run eoi (preBrace.run eoi s).rest).out with
          | ok w => exact ⟨w, rfl⟩
          | error e =>
            have h6 : (Knuffel.mapWithSpan (fun value span => (⟨span, value⟩ : Spanned _ (Sp O))) (bracedNodes inner).run eoi (preBrace.run eoi s).rest).out = .ok w := h5
            simp [Knuffel.mapWithSpan, hq] at h6
        · rw [hz] at h5; simp at h5
      obtain ⟨w, hw⟩ := hbok
      have := b1 w hw
      rw [e0, h2, e1, hr']
      omega
    · have hr' : ((optChildren inner).run eoi s).rest = s := hr
      by_cases hbr : (chars (preBrace.run eoi s).rest).head? = some '{'
      · refine .inr ⟨?_, hr', nodeEnd_brace hbr⟩
        rw [e0, h2, e1]; omega
      · refine .inl ?_
        have := b2 hbr
        rw [e0, h2, e1, hr']; omega

/-! ### Nodes -/

/-- Type name and name. -/
def head : PS O (Option (Spanned TypeName (Sp O)) × Spanned Str (Sp O)) :=
  seq (orNot (spanned typeName)) (spanned ident)

theorem lin_head : Lin 152 (head : PS O (Option (Spanned TypeName (Sp O)) × Spanned Str (Sp O))) :=
  lin_typeName.spanned.orNot.seq lin_ident.spanned

theorem run_head : (head : PS O (Option (Spanned TypeName (Sp O)) × Spanned Str (Sp O))).run = header := by
  show Knuffel.seq (Knuffel.orNot (Knuffel.spanned typeName.run)) (Knuffel.spanned ident.run) = _
  rw [run_typeName, run_ident]; rfl

theorem eats_head : Eats 1 (head : PS O (Option (Spanned TypeName (Sp O)) × Spanned Str (Sp O))).run := by
  rw [run_head]
  exact eats_seq (j := 0) (suf_orNot (suf_spanned suf_typeName)).eats0 (eats_spanned eats_ident)

theorem suf_nodeS (h : Nest inner) : Suf (node inner).run := by
  have e : (node inner).run = Knuffel.node inner.run := by
    show Knuffel.pmap _ (Knuffel.thenIgnore (Knuffel.seq (Knuffel.seq head.run (repeated spaceEntry).run)
      (Knuffel.orNot (Knuffel.seq (Knuffel.ignoreThen (repeated nodeSpace).run (Knuffel.orNot
        (Knuffel.thenIgnore _ (repeated nodeSpace).run))) _)))
      (Knuffel.seq (repeated nodeSpace).run nodeTerminator.run)) = _
    rw [run_head, run_spaceEntries, run_nodeSpaces, run_nodeTerminator]; rfl
  rw [e]; exact suf_node h.suf

theorem cost_node (h : Nest inner) (eoi : Sp O) (s : List (Tok O)) (hc : Closed s) :
    (∀ x, ((node inner).run eoi s).out = .ok x →
      (node inner).cost eoi s + 3000 * W ((node inner).run eoi s).rest + 156 * (s.length + 1) ≤ 3000 * W s) ∧
    (node inner).cost eoi s + 156 * (s.length + 1) ≤ 3000 * W s ∧
    ((∃ e, ((head : PS O _).run eoi s).out = .error e) → (node inner).cost eoi s ≤ 152 * (s.length + 1)) := by
  have e0 : (node inner).cost eoi s =
      (thenIgnore (seq (seq head (repeated spaceEntry)) (optChildren inner)) nodeEnd).cost eoi s := rfl
  have e1 : ((node inner).run eoi s).rest =
      ((thenIgnore (seq (seq head (repeated spaceEntry)) (optChildren inner)) nodeEnd).run eoi s).rest := rfl
  have hLW := L_le_W s
  have c1 := (lin_head (O := O)).cost eoi s hc
  have s1 := (lin_head (O := O)).suf eoi s
  -- the three parts before the end
  rcases then_seq head (repeated spaceEntry) eoi s with ⟨e, e', g1, g2, g3⟩ | ⟨x, g1, g2, g3, g4⟩
  · -- no name
    have : (node inner).cost eoi s = head.cost eoi s ∧ ∃ e, ((thenIgnore (seq (seq head (repeated spaceEntry))
        (optChildren inner)) nodeEnd).run eoi s).out = .error e := by
      rcases then_seq (seq head (repeated spaceEntry)) (optChildren inner) eoi s with ⟨_, _, _, g5, g6⟩ | ⟨x, g5, _⟩
      · rcases then_thenIgnore (seq (seq head (repeated spaceEntry)) (optChildren inner)) nodeEnd eoi s with
          ⟨_, w, _, g7, g8⟩ | ⟨x, g7, _⟩
        · exact ⟨by rw [e0, g8, g6, g3], w, g7⟩
        · rw [g5] at g7; simp at g7
      · rw [g2] at g5; simp at g5
    obtain ⟨k1, w, k2⟩ := this
    refine ⟨fun x hx => ?_, by omega, fun _ => by omega⟩
    obtain ⟨y, hy⟩ := pmap_ok (p := thenIgnore (seq (seq head (repeated spaceEntry)) (optChildren inner)) nodeEnd) hx
    rw [k2] at hy; simp at hy
  · have c2 := cost_spaceEntries eoi _ (hc.suf s1)
    have l1 := eats_head eoi s x g1
    have w1 := W_lt (s := s) (t := (head.run eoi s).rest) (by omega)
    have sfx : ((repeated spaceEntry).run eoi (head.run eoi s).rest).rest <:+ (head.run eoi s).rest := by
      rw [run_spaceEntries]; exact suf_repeated suf_spaceEntry _ _
    have l2 := sfx.length_le
    have hc3 := (hc.suf s1).suf sfx
    have hseqok : ∃ z, ((seq head (repeated spaceEntry)).run eoi s).out = .ok z := by
      rcases g4 with ⟨z, _, g5, _⟩ | ⟨_, z, _, g5⟩
      · exact ⟨z, g5⟩
      · obtain ⟨q, hq⟩ := repeated_ok spaceEntry eoi (head.run eoi s).rest
        rw [hq] at g5; simp at g5
    obtain ⟨z, hz⟩ := hseqok
    have hno : ¬ ∃ e, ((head : PS O _).run eoi s).out = .error e := by
      rintro ⟨e, he⟩; rw [g1] at he; simp at he
    rcases then_seq (seq head (repeated spaceEntry)) (optChildren inner) eoi s with ⟨_, _, g5, _⟩ | ⟨_, g5, g6, g7, g8⟩
    · rw [hz] at g5; simp at g5
    · rw [g2, g3] at g6
      rw [g3] at g7
      have hok3 : ∃ z, ((seq (seq head (repeated spaceEntry)) (optChildren inner)).run eoi s).out = .ok z := by
        rcases g8 with ⟨z, _, g9, _⟩ | ⟨_, w, _, g9⟩
        · exact ⟨z, g9⟩
        · obtain ⟨q, hq, _⟩ := orNot_cases (seq preBrace (spanned (bracedNodes inner))) eoi
            ((seq head (repeated spaceEntry)).run eoi s).rest
          have g9' : ((orNot (seq preBrace (spanned (bracedNodes inner)))).run eoi
            ((seq head (repeated spaceEntry)).run eoi s).rest).out = .error w := g9
          rw [hq] at g9'; simp at g9'
      obtain ⟨z3, hz3⟩ := hok3
      have c3 := cost_optChildren h eoi _ hc3
      have s4 : ((optChildren inner).run eoi ((repeated spaceEntry).run eoi (head.run eoi s).rest).rest).rest <:+
          ((repeated spaceEntry).run eoi (head.run eoi s).rest).rest := by
        have : (optChildren inner).run = Knuffel.optChildren inner.run := by
          show Knuffel.orNot (Knuffel.seq (Knuffel.ignoreThen (repeated nodeSpace).run (Knuffel.orNot
            (Knuffel.thenIgnore _ (repeated nodeSpace).run))) _) = _
          rw [run_nodeSpaces]; rfl
        rw [this]
        exact suf_optChildren h.suf _ _
      have l3 := s4.length_le
      have w3 := W_mono l2
      have w4 := W_mono l3
      have c4 := (lin_nodeEnd (O := O)).cost eoi _ (hc3.suf s4)
      have s5 := (lin_nodeEnd (O := O)).suf eoi
        ((optChildren inner).run eoi ((repeated spaceEntry).run eoi (head.run eoi s).rest).rest).rest
      have w5 := W_mono s5.length_le
      rcases then_thenIgnore (seq (seq head (repeated spaceEntry)) (optChildren inner)) nodeEnd eoi s with
        ⟨_, _, k1, _⟩ | ⟨_, k1, k2, k3, k4⟩
      · rw [hz3] at k1; simp at k1
      · rw [g6, g7] at k2
        rw [g7] at k3 k4
        refine ⟨fun x hx => ?_, ?_, fun hh => absurd hh hno⟩
        · rw [e0, e1, k2, k3]
          rcases c3 with c3 | ⟨_, c3r, e, c3e⟩
          · omega
          · exfalso
            obtain ⟨y, hy⟩ := pmap_ok (p := thenIgnore (seq (seq head (repeated spaceEntry)) (optChildren inner)) nodeEnd) hx
            rcases k4 with ⟨_, q, _, k5⟩ | ⟨q, _, k5, _⟩
            · rw [c3r] at k5; rw [c3e] at k5; simp at k5
            · rw [hy] at k5; simp at k5
        · rw [e0, k2]
          rcases c3 with c3 | ⟨c3, _⟩ <;> omega

/-! ### Sequences of nodes -/

/-- The slashdash before a node. -/
def dash : PS O (Option Unit) := orNot (thenIgnore (beginComment '-') (repeated nodeSpace))

theorem lin_dash : Lin 100 (dash : PS O (Option Unit)) :=
  (const_beginComment.lin.thenIgnore lin_nodeSpaces).orNot

theorem run_dash : (dash : PS O (Option Unit)).run =
    Knuffel.orNot (Knuffel.thenIgnore (Knuffel.beginComment '-') (Knuffel.repeated Knuffel.nodeSpace)) := by
  show Knuffel.orNot (Knuffel.thenIgnore _ (repeated nodeSpace).run) = _
  rw [run_nodeSpaces]; rfl

theorem run_node : (node inner).run = Knuffel.node inner.run := by
  show Knuffel.pmap _ (Knuffel.thenIgnore (Knuffel.seq (Knuffel.seq head.run (repeated spaceEntry).run)
    (Knuffel.orNot (Knuffel.seq (Knuffel.ignoreThen (repeated nodeSpace).run (Knuffel.orNot
      (Knuffel.thenIgnore _ (repeated nodeSpace).run))) _)))
    (Knuffel.seq (repeated nodeSpace).run nodeTerminator.run)) = _
  rw [run_head, run_spaceEntries, run_nodeSpaces, run_nodeTerminator]; rfl

theorem run_nodeItem : (nodeItem inner).run = Knuffel.nodeItem inner.run := by
  show Knuffel.seq (dash : PS O (Option Unit)).run (Knuffel.spanned (node inner).run) = _
  rw [run_dash, run_node]; rfl

theorem mapWithSpan_ok {p : PS O α} {f : α → Sp O → β} {eoi s x} (h : ((mapWithSpan f p).run eoi s).out = .ok x) :
    ∃ y, (p.run eoi s).out = .ok y := by
  cases hq : (p.run eoi s).out with
  | ok y => exact ⟨y, rfl⟩
  | error e =>
    have : (Knuffel.mapWithSpan f p.run eoi s).out = .ok x := h
    simp [Knuffel.mapWithSpan, hq] at this

/-- What an item of a sequence may cost. -/
structure ItemCost (p : PS O α) : Prop where
  ok : ∀ eoi s x, Closed s → (p.run eoi s).out = .ok x →
    p.cost eoi s + 3000 * W (p.run eoi s).rest + 56 * (s.length + 1) ≤ 3000 * W s
  any : ∀ eoi s, Closed s → p.cost eoi s ≤ 3000 * W s
  bodyEnd : ∀ eoi s, Closed s → BodyEnd (chars s) → p.cost eoi s ≤ 252 * (s.length + 1)
  suf : Suf p.run
  eats : Eats 1 p.run

theorem itemCost_nodeItem (h : Nest inner) : ItemCost (nodeItem inner) := by
  have key : ∀ eoi s, Closed s →
      (∀ x, ((nodeItem inner).run eoi s).out = .ok x →
        (nodeItem inner).cost eoi s + 3000 * W ((nodeItem inner).run eoi s).rest + 56 * (s.length + 1) ≤ 3000 * W s) ∧
      (nodeItem inner).cost eoi s ≤ 3000 * W s ∧
      (BodyEnd (chars s) → (nodeItem inner).cost eoi s ≤ 252 * (s.length + 1)) := by
    intro eoi s hc
    have c1 := (lin_dash (O := O)).cost eoi s hc
    have s1 := (lin_dash (O := O)).suf eoi s
    obtain ⟨x, hx, _, hcase⟩ := orNot_cases (thenIgnore (beginComment '-') (repeated nodeSpace) : PS O Unit) eoi s
    change ((dash : PS O (Option Unit)).run eoi s).out = _ at hx
    have hr : BodyEnd (chars s) → ((dash : PS O (Option Unit)).run eoi s).rest = s := by
      intro hb
      rcases hcase with ⟨y, hy, _⟩ | ⟨_, _, hr⟩
      · exfalso
        rcases then_thenIgnore (beginComment '-') (repeated nodeSpace) eoi s with ⟨_, _, _, h5, _⟩ | ⟨u, h5, _⟩
        · rw [hy] at h5; simp at h5
        · have hok : Ok (Knuffel.beginComment '-') eoi s u.1 (Knuffel.beginComment '-' eoi s).rest :=
            ⟨quiet_beginComment '-' _ _, ⟨u.2, h5⟩, rfl⟩
          have hp := takes_prefix (ok_beginComment.1 hok)
          rcases hb with hb | hb
          · rw [hb] at hp; simp at hp
          · exact not_prefix_head (c := '/') rfl hb (by decide) hp
      · exact hr
    have hhead : BodyEnd (chars s) → ∃ e, ((head : PS O _).run eoi s).out = .error e := by
      intro hb
      have hty : (chars s).head? ≠ some '(' := by
        intro hc
        rcases hb with h | h
        · rw [h] at hc; simp at hc
        · rw [h] at hc; revert hc; decide
      rw [run_head]
      have : FailsC (header : P O _) eoi s := by
        unfold header
        refine failsC_seq_right (ok_orNot.2 (Or.inr ⟨rfl, rfl, fails_spanned.2 (failsC_typeName hty).fails⟩)) ?_
        rw [failsC_spanned]
        exact failsC_ident hb.noName
      exact this.fails
    have kk := then_seq dash (spanned (node inner)) eoi s
    change (∃ e e', _ ∧ ((nodeItem inner).run eoi s).out = .error e' ∧ (nodeItem inner).cost eoi s = _) ∨
      (∃ x, _ ∧ (nodeItem inner).cost eoi s = _ ∧ ((nodeItem inner).run eoi s).rest = _ ∧
        ((∃ y z, ((nodeItem inner).run eoi s).out = .ok y ∧ _) ∨
         (∃ y z, ((nodeItem inner).run eoi s).out = .error y ∧ _))) at kk
    clear hcase
    generalize (nodeItem inner).cost eoi s = c at *
    generalize (nodeItem inner).run eoi s = r at *
    generalize (dash : PS O (Option Unit)).cost eoi s = cd at *
    generalize (dash : PS O (Option Unit)).run eoi s = d at *
    generalize d.rest = u at *
    obtain ⟨n1, n2, n3⟩ := cost_node h eoi u (hc.suf s1)
    have l1 := s1.length_le
    have hdec : u = s ∨ W u + (s.length + 1) ≤ W s := by
      rcases Nat.lt_or_eq_of_le l1 with h | h
      · exact .inr (W_lt h)
      · exact .inl (s1.eq_of_length h)
    rcases kk with ⟨e, e', k1, _⟩ | ⟨_, _, k2, k3, k4⟩
    · rw [hx] at k1; simp at k1
    · have k2' : c = cd + (node inner).cost eoi u := k2
      have k3' : r.rest = ((node inner).run eoi u).rest := k3
      refine ⟨fun x hx => ?_, ?_, fun hb => ?_⟩
      · rcases k4 with ⟨_, z, _, k5⟩ | ⟨_, _, k5, _⟩
        · obtain ⟨y, hy⟩ := mapWithSpan_ok k5
          have := n1 y hy
          rw [k3', k2']
          rcases hdec with hd | hd
          · subst hd; omega
          · omega
        · rw [hx] at k5; simp at k5
      · rw [k2']
        rcases hdec with hd | hd
        · subst hd; omega
        · omega
      · rw [k2']
        have e1 := hr hb
        subst e1
        have := n3 (hhead hb)
        omega
  refine ⟨fun eoi s x hc hx => (key eoi s hc).1 x hx, fun eoi s hc => (key eoi s hc).2.1,
    fun eoi s hc hb => (key eoi s hc).2.2 hb, ?_, ?_⟩
  · rw [run_nodeItem]; exact suf_nodeItem h.suf
  · rw [run_nodeItem]; exact eats_nodeItem h.suf

omit [Offset O] in
theorem sepGo_end {item : PS O α} {delim : PS O β} {eoi : Sp O} : ∀ fuel outs errs alt pan s,
    (sepGo item.run delim.run eoi fuel outs errs alt pan s).2.2.2.2.1 = sepEnd item delim eoi fuel s := by
  intro fuel
  induction fuel with
  | zero => intros; rfl
  | succ fuel ih =>
    intro outs errs alt pan s
    rw [sepGo, sepEnd]
    cases hd : (delim.run eoi s).out with
    | error e => simp
    | ok d =>
      simp only
      cases hi : (item.run eoi (delim.run eoi s).rest).out with
      | error e => simp
      | ok a =>
        simp only
        split
        · exact ih _ _ _ _ _
        · rfl

/-- The stream after an optional delimiter that cannot fail. -/
theorem sepDelim_rest {delim : PS O β} {eoi : Sp O} {alt s} (hd : ∃ x, (delim.run eoi s).out = .ok x) :
    (sepDelim delim.run eoi alt s).2.2 = (delim.run eoi s).rest := by
  obtain ⟨x, hx⟩ := hd
  simp [sepDelim, hx]

theorem separatedBy_rest {item : PS O α} {delim : PS O β} {eoi : Sp O} {s}
    (hd : ∀ s, ∃ x, (delim.run eoi s).out = .ok x) :
    ((separatedBy item delim).run eoi s).rest =
      match (item.run eoi (delim.run eoi s).rest).out with
      | .error _ => (delim.run eoi s).rest
      | .ok _ => (delim.run eoi (sepEnd item delim eoi ((item.run eoi (delim.run eoi s).rest).rest.length + 1)
          (item.run eoi (delim.run eoi s).rest).rest)).rest := by
  have h0 := sepDelim_rest (delim := delim) (alt := none) (hd s)
  show (Knuffel.separatedBy item.run delim.run eoi s).rest = _
  unfold Knuffel.separatedBy
  simp only [h0]
  cases hi : (item.run eoi (delim.run eoi s).rest).out with
  | error e => rfl
  | ok a =>
    simp only
    rw [sepDelim_rest (hd _), sepGo_end]

theorem sepEnd_suf {item : PS O α} {delim : PS O β} {eoi : Sp O} (h1 : Suf item.run) (h2 : Suf delim.run) :
    ∀ fuel s, sepEnd item delim eoi fuel s <:+ s := by
  intro fuel
  induction fuel with
  | zero => intro s; exact List.suffix_refl s
  | succ fuel ih =>
    intro s
    rw [sepEnd]
    cases hd : (delim.run eoi s).out with
    | error e => exact List.suffix_refl s
    | ok d =>
      simp only
      cases hi : (item.run eoi (delim.run eoi s).rest).out with
      | error e => exact List.suffix_refl s
      | ok a =>
        simp only
        split
        · exact (ih _).trans ((h1 eoi _).trans (h2 eoi _))
        · exact List.suffix_refl s

theorem sepCost_le {item : PS O α} {delim : PS O β} {eoi : Sp O} (hi : ItemCost item) (hl : Lin 56 delim)
    (hd : ∀ s, ∃ x, (delim.run eoi s).out = .ok x) : ∀ fuel t, Closed t → t.length < fuel →
    sepCost item delim eoi fuel t + 3000 * W (sepEnd item delim eoi fuel t) ≤
      3000 * W t + 56 * (t.length + 1) +
        item.cost eoi (delim.run eoi (sepEnd item delim eoi fuel t)).rest := by
  intro fuel
  induction fuel with
  | zero => intro t _ h; omega
  | succ fuel ih =>
    intro t hc hf
    have c1 := hl.cost eoi t hc
    have s1 := hl.suf eoi t
    have l1 := s1.length_le
    have w1 := W_mono l1
    obtain ⟨d, hdo⟩ := hd t
    rw [sepCost, sepEnd]
    simp only [hdo]
    cases hio : (item.run eoi (delim.run eoi t).rest).out with
    | error e => simp only [Nat.add_zero]; omega
    | ok a =>
      simp only
      have i1 := hi.ok eoi _ a (hc.suf s1) hio
      have i2 := hi.eats eoi _ a hio
      have s2 := hi.suf eoi (delim.run eoi t).rest
      have hlt : (item.run eoi (delim.run eoi t).rest).rest.length < t.length := by omega
      simp only [hlt, ↓reduceIte]
      have := ih (item.run eoi (delim.run eoi t).rest).rest ((hc.suf s1).suf s2) (by omega)
      simp only [← Nat.add_assoc] at this ⊢
      omega

theorem nest_separatedBy {item : PS O α} {delim : PS O β} (hi : ItemCost item) (hl : Lin 56 delim)
    (hd : ∀ eoi s, ∃ x, (delim.run eoi s).out = .ok x) (eoi : Sp O) (s : List (Tok O)) (hc : Closed s) :
    (separatedBy item delim).cost eoi s ≤ 3000 * W s + 420 * (s.length + 1) ∧
    (BodyEnd (chars ((separatedBy item delim).run eoi s).rest) →
      (separatedBy item delim).cost eoi s + 3000 * W ((separatedBy item delim).run eoi s).rest ≤
        3000 * W s + 420 * (s.length + 1)) := by
  have c1 := hl.cost eoi s hc
  have s1 := hl.suf eoi s
  have l1 := s1.length_le
  have w1 := W_mono l1
  have hc1 := hc.suf s1
  have hrest := separatedBy_rest (item := item) (s := s) (hd eoi)
  have hcost : (separatedBy item delim).cost eoi s = delim.cost eoi s + (item.cost eoi (delim.run eoi s).rest +
      match (item.run eoi (delim.run eoi s).rest).out with
      | .error _ => 0
      | .ok _ => sepCost item delim eoi ((item.run eoi (delim.run eoi s).rest).rest.length + 1)
          (item.run eoi (delim.run eoi s).rest).rest + delim.cost eoi (sepEnd item delim eoi
            ((item.run eoi (delim.run eoi s).rest).rest.length + 1) (item.run eoi (delim.run eoi s).rest).rest)) := by
    have h0 := sepDelim_rest (delim := delim) (alt := none) (hd eoi s)
    unfold separatedBy
    simp only [h0]
    cases (item.run eoi (delim.run eoi s).rest).out <;> rfl
  cases hio : (item.run eoi (delim.run eoi s).rest).out with
  | error e =>
    simp only [hio, Nat.add_zero] at hcost hrest
    rw [hcost, hrest]
    have i1 := hi.any eoi _ hc1
    refine ⟨by omega, fun hb => ?_⟩
    have i2 := hi.bodyEnd eoi _ hc1 hb
    omega
  | ok a =>
    simp only [hio, ← Nat.add_assoc] at hcost hrest
    rw [hcost, hrest]
    have i1 := hi.ok eoi _ a hc1 hio
    have i2 := hi.eats eoi _ a hio
    have s2 := hi.suf eoi (delim.run eoi s).rest
    have hc2 := hc1.suf s2
    generalize ht : (item.run eoi (delim.run eoi s).rest).rest = t at *
    have c3 := sepCost_le (eoi := eoi) hi hl (hd eoi) (t.length + 1) t hc2 (by omega)
    have s3 := sepEnd_suf (eoi := eoi) hi.suf hl.suf (t.length + 1) t
    have l3 := s3.length_le
    generalize sepEnd item delim eoi (t.length + 1) t = e at *
    have hc3 := hc2.suf s3
    have c4 := hl.cost eoi e hc3
    have s4 := hl.suf eoi e
    have l4 := s4.length_le
    have w4 := W_mono l4
    have j1 := hi.any eoi _ (hc3.suf s4)
    refine ⟨by omega, fun hb => ?_⟩
    have j2 := hi.bodyEnd eoi _ (hc3.suf s4) hb
    omega

theorem run_lineSpaces : (repeated lineSpace : PS O (List Unit)).run = Knuffel.repeated Knuffel.lineSpace := by
  show Knuffel.repeated lineSpace.run = _
  rw [run_lineSpace]

theorem run_nodesRec : ∀ n, (nodesRec n : PS O (List (SpannedNode (Sp O)))).run = Knuffel.nodesRec n
  | 0 => rfl
  | n + 1 => by
    show Knuffel.pmap keepNodes (Knuffel.separatedBy (nodeItem (nodesRec n)).run (repeated lineSpace).run) = _
    rw [run_nodeItem, run_lineSpaces, run_nodesRec n]; rfl

theorem nest_nodesRec : ∀ n, Nest (nodesRec n : PS O (List (SpannedNode (Sp O))))
  | 0 => ⟨fun _ _ _ => by show 0 ≤ _; omega, fun _ _ x _ h => by
      have : Except.error _ = Except.ok x := h
      simp at this, by rw [run_nodesRec]; exact suf_nodesRec 0⟩
  | n + 1 => by
    have hk := nest_separatedBy (itemCost_nodeItem (nest_nodesRec n)) (lin_lineSpaces (O := O))
      (fun eoi s => repeated_ok lineSpace eoi s)
    refine ⟨fun eoi s hc => (hk eoi s hc).1, fun eoi s x hc _ hb => ?_, by rw [run_nodesRec]; exact suf_nodesRec _⟩
    exact (hk eoi s hc).2 hb

theorem run_nodes : (nodes : PS O (List (SpannedNode (Sp O)))).run = Knuffel.nodes := by
  funext eoi s
  show (nodesRec (s.length + 1)).run eoi s = _
  rw [run_nodesRec]; rfl

/-- Forgetting the numbers gives the parser back. -/
theorem run_document : (document : PS O (Document (Sp O))).run = Knuffel.document := by
  show Knuffel.pmap _ (Knuffel.thenIgnore nodes.run Knuffel.endP) = _
  rw [run_nodes]; rfl

theorem cost_document (eoi : Sp O) (s : List (Tok O)) (hc : Closed s) :
    (document : PS O (Document (Sp O))).cost eoi s ≤ 3421 * W s := by
  have h := (nest_nodesRec (O := O) (s.length + 1)).any eoi s hc
  have e0 : (document : PS O (Document (Sp O))).cost eoi s = (thenIgnore nodes endP : PS O _).cost eoi s := rfl
  have h' : (nodes : PS O (List (SpannedNode (Sp O)))).cost eoi s ≤ 3000 * W s + 420 * (s.length + 1) := h
  have hW := L_le_W s
  rw [e0]
  have e1 : ∀ t, (endP : PS O Unit).cost eoi t = 1 := fun _ => rfl
  rcases then_thenIgnore (nodes : PS O (List (SpannedNode (Sp O)))) endP eoi s with ⟨_, _, _, _, h4⟩ | ⟨_, _, h4, _⟩
  · rw [h4]; omega
  · rw [h4, e1]; omega

end

end Knuffel.Steps
