import Verif.Theory.DeriveArgs
/-!
# Property fields
-/

set_option linter.unusedSectionVars false

namespace Knuffel
variable {E S V α β ι σ : Type} [Externals]

/-- The effect of one property on the field that takes it. -/
def propArm (p : Prop' E S V) (st : PropState V) (name : Spanned Str S) (val : Value S) : D E S (PropState V) :=
  if p.flatten then p.impls.part.insertProperty st.fld name val >>= fun r => pure { st with fld := r.2 }
  else decodeValue p.decode p.option p.impls val >>= fun x => pure (if p.option then ⟨x, true⟩ else ⟨.some x, st.seen⟩)

/-- What `Struct.PropNames` says of one field. -/
def Prop'.Names (p : Prop' E S V) (takes : Prop' E S V → Str → Bool) : Prop :=
  if p.flatten then p.impls.part.TakesProps (takes p) else ∀ n, takes p n = decide (n = p.name)

theorem propArms_none {takes : Prop' E S V → Str → Bool} {ps : List (Prop' E S V)} (hn : ∀ p ∈ ps, p.Names takes)
    {sts : List (PropState V)} (hl : sts.length = ps.length) {name : Spanned Str S} {val : Value S}
    (h : ps.findIdx? (fun p => takes p name.value) = none) (c : Ctx E S) :
    propArms name val (ps.zip sts) c = .ok (false, sts) c := by
  induction ps generalizing sts with
  | nil =>
    cases sts with
    | nil => rfl
    | cons _ _ => simp at hl
  | cons p ps ih =>
    cases sts with
    | nil => simp at hl
    | cons st sts =>
      rw [List.findIdx?_cons] at h
      have hp := hn p (by simp)
      by_cases ht : takes p name.value
      · simp [ht] at h
      · simp only [ht, Bool.false_eq_true, if_false, Option.map_eq_none_iff] at h
        have ih := ih (fun q hq => hn q (by simp [hq])) (by simpa using hl) h
        rw [List.zip_cons_cons, propArms]
        unfold Prop'.Names at hp
        by_cases hf : p.flatten
        · simp only [hf, if_true] at hp ⊢
          rw [D.bind_ok (hp.no _ _ _ _ (by simpa using ht))]
          dsimp only
          rw [if_neg (by simp), D.bind_ok ih]
          rfl
        · simp only [hf, Bool.false_eq_true, if_false] at hp ⊢
          have hne : ¬ name.value = p.name := by
            rw [hp] at ht; simpa using ht
          rw [if_neg hne, D.bind_ok ih]
          rfl

theorem propArms_some {takes : Prop' E S V → Str → Bool} {ps : List (Prop' E S V)} (hn : ∀ p ∈ ps, p.Names takes)
    {sts : List (PropState V)} (hl : sts.length = ps.length) {name : Spanned Str S} {val : Value S} {i : Nat}
    (h : ps.findIdx? (fun p => takes p name.value) = some i) {p : Prop' E S V} {st : PropState V}
    (hp : ps[i]? = some p) (hs : sts[i]? = some st) (c : Ctx E S) :
    propArms name val (ps.zip sts) c = (propArm p st name val >>= fun y => pure (true, sts.set i y)) c := by
  induction ps generalizing sts i with
  | nil => simp at h
  | cons p0 ps ih =>
    cases sts with
    | nil => simp at hl
    | cons st0 sts =>
      rw [List.findIdx?_cons] at h
      have hp0 := hn p0 (by simp)
      have hmap : (ps.zip sts).map (·.2) = sts := by
        rw [← List.unzip_snd, List.unzip_zip (by simpa using hl.symm)]
      rw [List.zip_cons_cons, propArms]
      unfold Prop'.Names at hp0
      by_cases ht : takes p0 name.value
      · simp only [ht, if_true, Option.some.injEq] at h
        subst h
        simp only [List.getElem?_cons_zero, Option.some.injEq] at hp hs
        subst hp; subst hs
        rw [propArm]
        by_cases hf : p0.flatten
        · simp only [hf, if_true] at hp0 ⊢
          cases hr : p0.impls.part.insertProperty st0.fld name val c with
          | ok r c1 =>
            obtain ⟨b, y⟩ := r
            have hb := hp0.yes _ _ _ _ _ _ _ ht hr
            subst hb
            rw [bind_assoc, D.bind_ok hr, D.bind_ok hr]
            dsimp only
            rw [if_pos rfl, hmap]
            rfl
          | err e c1 => rw [D.bind_err hr, D.bind_err (D.bind_err hr)]
          | panic => rw [D.bind_panic hr, D.bind_panic (D.bind_panic hr)]
        · simp only [hf, Bool.false_eq_true, if_false] at hp0 ⊢
          have hne : name.value = p0.name := by
            rw [hp0] at ht; simpa using ht
          rw [if_pos hne]
          cases hr : decodeValue p0.decode p0.option p0.impls val c with
          | ok r c1 =>
            rw [bind_assoc, D.bind_ok hr, D.bind_ok hr, hmap]
            by_cases ho : p0.option
            · simp only [ho, if_true]; rfl
            · simp only [ho, Bool.false_eq_true, if_false]; rfl
          | err e c1 => rw [D.bind_err hr, D.bind_err (D.bind_err hr)]
          | panic => rw [D.bind_panic hr, D.bind_panic (D.bind_panic hr)]
      · simp only [ht, Bool.false_eq_true, if_false, Option.map_eq_some_iff] at h
        obtain ⟨j, hj, rfl⟩ := h
        have ih := ih (fun q hq => hn q (by simp [hq])) (by simpa using hl) hj (by simpa using hp) (by simpa using hs)
        have fin : ∀ st1 : PropState V, (propArms name val (ps.zip sts) >>= fun t => pure (t.1, st1 :: t.2)) c =
            (propArm p st name val >>= fun y => pure (true, (st1 :: sts).set (j + 1) y)) c := by
          intro st1
          cases hr : propArm p st name val c with
          | ok r c1 =>
            rw [D.bind_ok hr] at ih
            rw [D.bind_ok ih, D.bind_ok hr]
            rfl
          | err e c1 => rw [D.bind_err hr] at ih; rw [D.bind_err ih, D.bind_err hr]
          | panic => rw [D.bind_panic hr] at ih; rw [D.bind_panic ih, D.bind_panic hr]
        by_cases hf : p0.flatten
        · simp only [hf, if_true] at hp0 ⊢
          rw [D.bind_ok (hp0.no _ _ _ _ (by simpa using ht))]
          dsimp only
          rw [if_neg (by simp)]
          exact fin _
        · simp only [hf, Bool.false_eq_true, if_false] at hp0 ⊢
          have hne : ¬ name.value = p0.name := by
            rw [hp0] at ht; simpa using ht
          rw [if_neg hne]
          exact fin _

theorem Keeps.propArm {p : Prop' E S V} (h : p.impls.Keeps) (st) (name : Spanned Str S) (val : Value S) :
    Keeps (propArm p st name val) := by
  unfold Knuffel.propArm
  exact Keeps.ite ((h.insertProperty _ _ _).bind fun _ => Keeps.pure _)
    ((Keeps.decodeValue h _ _ _).bind fun _ => Keeps.pure _)

theorem liftConv_ok {x : Spanned α S} {r : Except Str (FVal V)} {c c' : Ctx E S} {v}
    (h : liftConv x r c = .ok v c') : r = .ok v ∧ c = c' := by
  cases r with
  | ok a => rw [liftConv, D.pure_ok_iff] at h; simp [h]
  | error m => rw [liftConv, D.fail_ok_iff] at h; exact h.elim

theorem liftConv_stop {x : Spanned α S} {r : Except Str (FVal V)} {c : Ctx E S} {q}
    (h : (liftConv x r c).stop = some q) : ∃ m, r = .error m ∧ q = some (DErr.conv x (.text m), c) := by
  cases r with
  | ok a => rw [liftConv, stop_pure] at h; exact h.elim
  | error m => rw [liftConv, stop_fail] at h; exact ⟨m, rfl, h.symm⟩

theorem propField_get {s : Struct E S V} {takes} {n : Str} {i : Nat} (h : s.propField takes n = some i) :
    ∃ p, s.properties[i]? = some p ∧ takes p n = true := by
  unfold Struct.propField at h
  rw [List.findIdx?_eq_some_iff_getElem] at h
  obtain ⟨hi, h1, -⟩ := h
  exact ⟨s.properties[i], by simp, by simpa using h1⟩

/-- The effect of the loop over the properties. -/
theorem propLoop_ok {s : Struct E S V} (hk : s.Keeps) {takes} (hn : s.PropNames takes)
    {props : List (Spanned Str S × Value S)} {sts : List (PropState V)} {var}
    (hl : sts.length = s.properties.length) {c c' : Ctx E S} {sts'} {var'}
    (h : propLoop s props sts var c = .ok (sts', var') c') :
    sts'.length = s.properties.length ∧
    (∀ (i : Nat) (p : Prop' E S V) st, s.properties[i]? = some p → sts[i]? = some st → ∃ st', sts'[i]? = some st' ∧
      Steps (fun q x y => During c c' (propArm p x q.1 q.2) y)
        (props.filter fun q => s.propField takes q.1.value = some i) st st') ∧
    (∃ ps, var' = var ++ ps ∧
      (∀ vp, s.varProps = some vp →
        Each2 (fun q y => vp.impls.keyFromStr q.1.value = .ok y.1 ∧
            During c c' (decodeValue vp.decode false vp.impls q.2) y.2)
          (props.filter fun q => s.propField takes q.1.value = none) ps) ∧
      (s.varProps = none → props.filter (fun q => s.propField takes q.1.value = none) = [])) := by
  induction props generalizing sts var c with
  | nil =>
    rw [propLoop, D.pure_ok_iff] at h
    simp only [Prod.mk.injEq] at h
    obtain ⟨⟨rfl, rfl⟩, rfl⟩ := h
    exact ⟨hl, fun i p st _ hst => ⟨st, hst, .nil _⟩, [], by simp, fun _ _ => .nil, fun _ => rfl⟩
  | cons q props ih =>
    obtain ⟨name, val⟩ := q
    rw [propLoop] at h
    cases hf : s.propField takes name.value with
    | some i =>
      obtain ⟨p, hp, htk⟩ := propField_get hf
      have hi : i < s.properties.length := (List.getElem?_eq_some_iff.1 hp).1
      obtain ⟨st, hst⟩ : ∃ st, sts[i]? = some st := ⟨sts[i]'(by omega), by simp⟩
      have hkp := hk.properties p (List.mem_of_getElem? hp)
      rw [D.bind_ok_iff] at h
      obtain ⟨r, c1, h1, h⟩ := h
      rw [propArms_some hn hl hf hp hst, D.bind_ok_iff] at h1
      obtain ⟨st1, c2, h2, h1⟩ := h1
      rw [D.pure_ok_iff] at h1
      obtain ⟨rfl, rfl⟩ := h1
      rw [if_pos rfl] at h
      have hk1 := (Keeps.propArm hkp _ _ _).ok h2
      have hk2 := (Keeps.propLoop hk _ _ _).ok h
      obtain ⟨g1, g2, ps, g3, g4, g5⟩ := ih (by simpa using hl) h
      refine ⟨g1, ?_, ps, g3, ?_, ?_⟩
      · intro j p' st' hp' hst'
        by_cases hij : i = j
        · subst hij
          rw [hp] at hp'; rw [hst] at hst'
          simp only [Option.some.injEq] at hp' hst'
          subst hp'; subst hst'
          obtain ⟨st2, e, hs⟩ := g2 i p st1 hp (by simp only [List.getElem?_set_self']; simp [hst])
          refine ⟨st2, e, ?_⟩
          rw [List.filter_cons_of_pos (by simpa using hf)]
          exact .cons (.here h2 hk2) (hs.imp fun _ _ _ hd => hd.mono hk1 List.prefix_rfl)
        · obtain ⟨st2, e, hs⟩ := g2 j p' st' hp' (by rw [List.getElem?_set_ne hij]; exact hst')
          refine ⟨st2, e, ?_⟩
          rw [List.filter_cons_of_neg (by simp [hf, hij])]
          exact hs.imp fun _ _ _ hd => hd.mono hk1 List.prefix_rfl
      · intro vp hvp
        rw [List.filter_cons_of_neg (by simp [hf])]
        exact (g4 vp hvp).imp fun _ _ hd => ⟨hd.1, hd.2.mono hk1 List.prefix_rfl⟩
      · intro hv
        rw [List.filter_cons_of_neg (by simp [hf])]
        exact g5 hv
    | none =>
      rw [D.bind_ok (propArms_none hn hl hf c)] at h
      dsimp only at h
      rw [if_neg (by simp)] at h
      cases hv : s.varProps with
      | none => rw [hv] at h; dsimp only at h; rw [D.fail_ok_iff] at h; exact h.elim
      | some vp =>
        rw [hv] at h
        dsimp only at h
        rw [D.bind_ok_iff] at h
        obtain ⟨k, c1, h1, h⟩ := h
        obtain ⟨hkey, rfl⟩ := liftConv_ok h1
        rw [D.bind_ok_iff] at h
        obtain ⟨v, c2, h2, h⟩ := h
        have hk1 := (Keeps.decodeValue (hk.varProps vp hv) _ _ _).ok h2
        have hk2 := (Keeps.propLoop hk _ _ _).ok h
        obtain ⟨g1, g2, ps, g3, g4, g5⟩ := ih hl h
        refine ⟨g1, ?_, (k, v) :: ps, by simp [g3], ?_, by simp⟩
        · intro j p' st' hp' hst'
          obtain ⟨st2, e, hs⟩ := g2 j p' st' hp' hst'
          refine ⟨st2, e, ?_⟩
          rw [List.filter_cons_of_neg (by simp [hf])]
          exact hs.imp fun _ _ _ hd => hd.mono hk1 List.prefix_rfl
        · intro vp' hvp'
          simp only [Option.some.injEq] at hvp'
          subst hvp'
          rw [List.filter_cons_of_pos (by simpa using hf)]
          exact .cons ⟨hkey, .here h2 hk2⟩ ((g4 vp hv).imp fun _ _ hd => ⟨hd.1, hd.2.mono hk1 List.prefix_rfl⟩)

/-- How the loop over the properties may stop. -/
theorem propLoop_stop {s : Struct E S V} (hk : s.Keeps) {takes} (hn : s.PropNames takes)
    {props : List (Spanned Str S × Value S)} {sts : List (PropState V)} {var}
    (hl : sts.length = s.properties.length) {c : Ctx E S} {r}
    (h : (propLoop s props sts var c).stop = some r) :
    ∃ q ∈ props,
      (∃ (i : Nat) (p : Prop' E S V) (st : PropState V), s.propField takes q.1.value = some i ∧ s.properties[i]? = some p ∧
        StopsIn c (propArm p st q.1 q.2) r) ∨
      (s.propField takes q.1.value = none ∧
        ((∃ vp, s.varProps = some vp ∧
            ((∃ m c', c.errors <+: c'.errors ∧ vp.impls.keyFromStr q.1.value = .error m ∧
              r = some (DErr.conv q.1 (.text m), c')) ∨
             StopsIn c (decodeValue vp.decode false vp.impls q.2) r)) ∨
         (s.varProps = none ∧ ∃ c', c.errors <+: c'.errors ∧ r = some (unexpectedProperty q.1, c')))) := by
  induction props generalizing sts var c with
  | nil => rw [propLoop, stop_pure] at h; exact h.elim
  | cons q props ih =>
    obtain ⟨name, val⟩ := q
    have later : ∀ {sts var} {c1 : Ctx E S}, c.errors <+: c1.errors → sts.length = s.properties.length →
        (propLoop s props sts var c1).stop = some r →
        ∃ q ∈ (name, val) :: props,
      (∃ (i : Nat) (p : Prop' E S V) (st : PropState V), s.propField takes q.1.value = some i ∧ s.properties[i]? = some p ∧
        StopsIn c (propArm p st q.1 q.2) r) ∨
      (s.propField takes q.1.value = none ∧
        ((∃ vp, s.varProps = some vp ∧
            ((∃ m c', c.errors <+: c'.errors ∧ vp.impls.keyFromStr q.1.value = .error m ∧
              r = some (DErr.conv q.1 (.text m), c')) ∨
             StopsIn c (decodeValue vp.decode false vp.impls q.2) r)) ∨
         (s.varProps = none ∧ ∃ c', c.errors <+: c'.errors ∧ r = some (unexpectedProperty q.1, c')))) := by
      intro sts var c1 hc hl h
      obtain ⟨q, hq, hh⟩ := ih hl h
      refine ⟨q, by simp [hq], ?_⟩
      rcases hh with ⟨i, p, st, a, b, d⟩ | ⟨a, ⟨vp, b, ⟨m, c', d, e, f⟩ | d⟩ | ⟨b, c', d, e⟩⟩
      · exact .inl ⟨i, p, st, a, b, d.mono hc⟩
      · exact .inr ⟨a, .inl ⟨vp, b, .inl ⟨m, c', hc.trans d, e, f⟩⟩⟩
      · exact .inr ⟨a, .inl ⟨vp, b, .inr (d.mono hc)⟩⟩
      · exact .inr ⟨a, .inr ⟨b, c', hc.trans d, e⟩⟩
    rw [propLoop] at h
    cases hf : s.propField takes name.value with
    | some i =>
      obtain ⟨p, hp, htk⟩ := propField_get hf
      have hi : i < s.properties.length := (List.getElem?_eq_some_iff.1 hp).1
      obtain ⟨st, hst⟩ : ∃ st, sts[i]? = some st := ⟨sts[i]'(by omega), by simp⟩
      have hkp := hk.properties p (List.mem_of_getElem? hp)
      rw [stop_bind] at h
      rw [propArms_some hn hl hf hp hst, stop_bind] at h
      rcases h with (h | ⟨_, _, _, h⟩) | ⟨t, c1, h1, h⟩
      · exact ⟨(name, val), by simp, .inl ⟨i, p, st, hf, hp, .here h⟩⟩
      · rw [stop_pure] at h; exact h.elim
      · rw [D.bind_ok_iff] at h1
        obtain ⟨st1, c2, h2, h1⟩ := h1
        rw [D.pure_ok_iff] at h1
        obtain ⟨rfl, rfl⟩ := h1
        rw [if_pos rfl] at h
        exact later ((Keeps.propArm hkp _ _ _).ok h2) (by simpa using hl) h
    | none =>
      rw [D.bind_ok (propArms_none hn hl hf c)] at h
      dsimp only at h
      rw [if_neg (by simp)] at h
      cases hv : s.varProps with
      | none =>
        rw [hv] at h
        dsimp only at h
        rw [stop_fail] at h
        exact ⟨(name, val), by simp, .inr ⟨hf, .inr ⟨rfl, c, List.prefix_rfl, h.symm⟩⟩⟩
      | some vp =>
        rw [hv] at h
        dsimp only at h
        rw [stop_bind] at h
        rcases h with h | ⟨k, c1, h1, h⟩
        · obtain ⟨m, e1, e2⟩ := liftConv_stop h
          exact ⟨(name, val), by simp, .inr ⟨hf, .inl ⟨vp, rfl, .inl ⟨m, c, List.prefix_rfl, e1, e2⟩⟩⟩⟩
        · obtain ⟨-, rfl⟩ := liftConv_ok h1
          rw [stop_bind] at h
          rcases h with h | ⟨v, c2, h2, h⟩
          · exact ⟨(name, val), by simp, .inr ⟨hf, .inl ⟨vp, rfl, .inr (.here h)⟩⟩⟩
          · rw [← hv]
            exact later ((Keeps.decodeValue (hk.varProps vp hv) _ _ _).ok h2) hl h

theorem propArm_flatten {p : Prop' E S V} (hf : p.flatten = true) {c c' : Ctx E S} {st st' : PropState V} {q : Spanned Str S × Value S}
    (h : During c c' (propArm p st q.1 q.2) st') :
    ∃ b, During c c' (p.impls.part.insertProperty st.fld q.1 q.2) (b, st'.fld) := by
  obtain ⟨c1, c2, h1, h, h2⟩ := h
  rw [propArm, if_pos hf, D.bind_ok_iff] at h
  obtain ⟨⟨b, y⟩, c3, h3, h⟩ := h
  rw [D.pure_ok_iff] at h
  obtain ⟨rfl, rfl⟩ := h
  exact ⟨b, c1, c3, h1, h3, h2⟩

theorem propArm_named {p : Prop' E S V} (hf : p.flatten = false) {c c' : Ctx E S} {st st' : PropState V} {q : Spanned Str S × Value S}
    (h : During c c' (propArm p st q.1 q.2) st') :
    ∃ x, During c c' (decodeValue p.decode p.option p.impls q.2) x ∧
      st' = if p.option then ⟨x, true⟩ else ⟨.some x, st.seen⟩ := by
  obtain ⟨c1, c2, h1, h, h2⟩ := h
  rw [propArm, if_neg (by simp [hf]), D.bind_ok_iff] at h
  obtain ⟨x, c3, h3, h⟩ := h
  rw [D.pure_ok_iff] at h
  obtain ⟨rfl, rfl⟩ := h
  exact ⟨x, ⟨c1, c3, h1, h3, h2⟩, rfl⟩

theorem named_steps {p : Prop' E S V} (hf : p.flatten = false) {c c' : Ctx E S} {st st' : PropState V}
    {l : List (Spanned Str S × Value S)} (h : Steps (fun q x y => During c c' (propArm p x q.1 q.2) y) l st st') :
    match l.getLast? with
    | none => st' = st
    | some q => ∃ x sn, During c c' (decodeValue p.decode p.option p.impls q.2) x ∧
        st' = if p.option then ⟨x, true⟩ else ⟨.some x, sn⟩ := by
  induction h with
  | nil => rfl
  | @cons q qs x y z h1 h2 ih =>
    cases qs with
    | nil =>
      cases h2
      obtain ⟨v, h3, h4⟩ := propArm_named hf h1
      exact ⟨v, x.seen, h3, h4⟩
    | cons q' qs => rw [List.getLast?_cons_cons]; exact ih

theorem flatten_steps {s : Struct E S V} {takes} {p : Prop' E S V} (hf : p.flatten = true) (hn : p.Names takes)
    {c c' : Ctx E S} {st st' : PropState V} {i : Nat} (hp : s.properties[i]? = some p)
    {l : List (Spanned Str S × Value S)}
    (h : Steps (fun q x y => During c c' (propArm p x q.1 q.2) y) (l.filter fun q => s.propField takes q.1.value = some i) st st') :
    Steps (fun q x y => During c c' (p.impls.part.insertProperty x q.1 q.2) (true, y))
      (l.filter fun q => s.propField takes q.1.value = some i) st.fld st'.fld := by
  have hall : ∀ q ∈ l.filter (fun q => s.propField takes q.1.value = some i), takes p q.1.value = true := by
    intro q hq
    have hq := (List.mem_filter.1 hq).2
    obtain ⟨p', hp', ht⟩ := propField_get (by simpa using hq : s.propField takes q.1.value = some i)
    rw [hp] at hp'
    simp only [Option.some.injEq] at hp'
    rw [hp']; exact ht
  generalize l.filter (fun q => s.propField takes q.1.value = some i) = l' at h hall
  unfold Prop'.Names at hn
  rw [if_pos hf] at hn
  induction h with
  | nil => exact .nil _
  | @cons q qs x y z h1 h2 ih =>
    obtain ⟨b, c1, c2, g1, g2, g3⟩ := propArm_flatten hf h1
    have := hn.yes _ _ _ _ _ _ _ (hall q (by simp)) g2
    subst this
    exact .cons ⟨c1, c2, g1, g2, g3⟩ (ih fun q hq => hall q (by simp [hq]))

theorem finishProps_ok {node : SpannedNode S} {l : List (Prop' E S V × PropState V)} {c c' : Ctx E S} {env : Env V}
    (h : finishProps node l c = .ok env c') :
    c = c' ∧ env.map (·.1) = l.map (·.1.field) ∧
    ∀ p st, (p, st) ∈ l → ∃ x, (p.field, x) ∈ env ∧ p.finish node st c = .ok x c := by
  have nochange : ∀ (p : Prop' E S V) st (c c' : Ctx E S) x, p.finish node st c = .ok x c' → c = c' := by
    intro p st c c' x h
    unfold Prop'.finish at h
    split at h
    · rw [D.pure_ok_iff] at h; exact h.2
    · cases hd : p.default <;> cases ho : p.option <;> simp only [hd, ho] at h
      · cases hfl : st.fld <;> simp only [hfl] at h <;>
          first | (rw [D.pure_ok_iff] at h; exact h.2) | (rw [D.fail_ok_iff] at h; exact h.elim)
      · rw [D.pure_ok_iff] at h; exact h.2
      · cases hfl : st.fld <;> simp only [hfl] at h <;> (rw [D.pure_ok_iff] at h; exact h.2)
      · rw [D.pure_ok_iff] at h; exact h.2
  induction l generalizing c env with
  | nil =>
    rw [finishProps, D.pure_ok_iff] at h
    obtain ⟨rfl, rfl⟩ := h
    simp
  | cons a l ih =>
    obtain ⟨p, st⟩ := a
    rw [finishProps, D.bind_ok_iff] at h
    obtain ⟨x, c1, h1, h⟩ := h
    have := nochange _ _ _ _ _ h1
    subst this
    rw [D.bind_ok_iff] at h
    obtain ⟨env', c2, h2, h⟩ := h
    rw [D.pure_ok_iff] at h
    obtain ⟨rfl, rfl⟩ := h
    obtain ⟨rfl, e2, e3⟩ := ih h2
    refine ⟨rfl, by simp [e2], ?_⟩
    intro p' st' hm
    rcases List.mem_cons.1 hm with hm | hm
    · simp only [Prod.mk.injEq] at hm
      obtain ⟨rfl, rfl⟩ := hm
      exact ⟨x, by simp, h1⟩
    · obtain ⟨y, hy, hz⟩ := e3 p' st' hm
      exact ⟨y, by simp [hy], hz⟩

theorem finishProps_stop {node : SpannedNode S} {l : List (Prop' E S V × PropState V)} {c : Ctx E S} {r}
    (h : (finishProps node l c).stop = some r) :
    ∃ p st, (p, st) ∈ l ∧ (p.finish node st c).stop = some r := by
  induction l generalizing c with
  | nil => rw [finishProps, stop_pure] at h; exact h.elim
  | cons a l ih =>
    obtain ⟨p, st⟩ := a
    rw [finishProps, stop_bind] at h
    rcases h with h | ⟨x, c1, h1, h⟩
    · exact ⟨p, st, by simp, h⟩
    · have h0 : finishProps node [(p, st)] c = .ok [(p.field, x)] c1 := by
        rw [finishProps, D.bind_ok h1]; rfl
      obtain ⟨rfl, -, -⟩ := finishProps_ok h0
      rw [stop_bind] at h
      rcases h with h | ⟨_, _, _, h⟩
      · obtain ⟨p', st', hm, hh⟩ := ih h
        exact ⟨p', st', by simp [hm], hh⟩
      · rw [stop_pure] at h; exact h.elim

theorem propFinish_named {p : Prop' E S V} (hf : p.flatten = false) {node : SpannedNode S} {c c' : Ctx E S}
    {mine : List (Spanned Str S × Value S)} {st : PropState V}
    (hs : Steps (fun q x y => During c c' (propArm p x q.1 q.2) y) mine p.init st) :
    (∃ x, (∀ c1, p.finish node st c1 = .ok x c1) ∧ PropGets c c' p mine x) ∨
    (mine = [] ∧ absent p.default p.option = none ∧
      ∀ c1, p.finish node st c1 = .err (DErr.missingIn node ("property `".toList ++ p.name ++ "` is required".toList)) c1) := by
  have h := named_steps hf hs
  unfold Prop'.finish PropGets
  simp only [hf, Bool.false_eq_true, if_false]
  cases hm : mine.getLast? with
  | none =>
    rw [hm] at h
    dsimp only at h
    subst h
    have hm := List.getLast?_eq_none_iff.1 hm
    subst hm
    simp only [Prop'.init, hf, Bool.false_eq_true, if_false, absent]
    cases p.default <;> cases p.option
    · exact .inr (by simp)
    · exact .inl ⟨.none, fun _ => rfl, rfl⟩
    · rename_i d; exact .inl ⟨d, fun _ => rfl, rfl⟩
    · rename_i d; exact .inl ⟨d, fun _ => rfl, rfl⟩
  | some q =>
    rw [hm] at h
    dsimp only at h ⊢
    obtain ⟨x, sn, h1, h2⟩ := h
    subst h2
    refine .inl ⟨x, ?_, h1⟩
    intro c1
    cases p.default <;> cases p.option <;> rfl

theorem decodeProps_ok {s : Struct E S V} (hk : s.Keeps) {takes} (hn : s.PropNames takes) {node : SpannedNode S}
    {c c' : Ctx E S} {env : Env V} (h : decodeProps s node c = .ok env c') :
    env.map (·.1) = s.properties.map (·.field) ++ s.varProps.toList.map (·.field) ∧
    (∀ (i : Nat) (p : Prop' E S V), s.properties[i]? = some p → ∃ x, (p.field, x) ∈ env ∧
      if p.flatten then PropInserts c c' p (s.propsFor takes node (some i)) x
      else PropGets c c' p (s.propsFor takes node (some i)) x) ∧
    (∀ vp, s.varProps = some vp → ∃ ps, (vp.field, .pairs ps) ∈ env ∧
      Each2 (fun q y => vp.impls.keyFromStr q.1.value = .ok y.1 ∧
        During c c' (decodeValue vp.decode false vp.impls q.2) y.2) (s.propsFor takes node none) ps) ∧
    (s.varProps = none → s.propsFor takes node none = []) := by
  unfold decodeProps at h
  rw [D.bind_ok_iff] at h
  obtain ⟨⟨sts, var⟩, c1, h1, h⟩ := h
  rw [D.bind_ok_iff] at h
  obtain ⟨env', c2, h2, h⟩ := h
  dsimp only at h2 h
  obtain ⟨g1, g2, ps, g3, g4, g5⟩ := propLoop_ok hk hn (by simp) h1
  obtain ⟨rfl, e2, e3⟩ := finishProps_ok h2
  simp only [List.nil_append] at g3
  subst g3
  have hkeys : env'.map (·.1) = s.properties.map (·.field) := by
    have hz : (s.properties.zip sts).map (·.1) = s.properties := by
      rw [← List.unzip_fst, List.unzip_zip g1.symm]
    have hz' := congrArg (List.map (·.field)) hz
    rw [List.map_map] at hz'
    exact e2.trans hz'
  have hfields : ∀ (i : Nat) (p : Prop' E S V), s.properties[i]? = some p → ∃ x, (p.field, x) ∈ env' ∧
      if p.flatten then PropInserts c c1 p (s.propsFor takes node (some i)) x
      else PropGets c c1 p (s.propsFor takes node (some i)) x := by
    intro i p hp
    obtain ⟨st, hst, hs⟩ := g2 i p p.init hp (by simp [hp])
    have hm : (p, st) ∈ s.properties.zip sts :=
      List.mem_of_getElem? (i := i) (List.getElem?_zip_eq_some.2 ⟨hp, hst⟩)
    obtain ⟨x, hx, hfin⟩ := e3 p st hm
    refine ⟨x, hx, ?_⟩
    by_cases hf : p.flatten
    · rw [if_pos hf]
      have := flatten_steps hf (hn p (List.mem_of_getElem? hp)) hp hs
      unfold Prop'.finish at hfin
      rw [if_pos hf, D.pure_ok_iff] at hfin
      simp only [Prop'.init, if_pos hf] at this
      rw [hfin.1] at this
      exact this
    · rw [if_neg hf]
      rcases propFinish_named (by simpa using hf) (node := node) hs with ⟨x', h3, h4⟩ | ⟨-, -, h3⟩
      · rw [h3] at hfin
        simp only [Out.ok.injEq, and_true] at hfin
        subst hfin
        exact h4
      · rw [h3] at hfin; simp at hfin
  cases hv : s.varProps with
  | some vp =>
    rw [hv] at h
    dsimp only at h
    rw [D.pure_ok_iff] at h
    obtain ⟨rfl, rfl⟩ := h
    refine ⟨by simp [hkeys], ?_, ?_, by simp⟩
    · intro i p hp
      obtain ⟨x, hx, hh⟩ := hfields i p hp
      exact ⟨x, by simp [hx], hh⟩
    · intro vp' hvp'
      simp only [Option.some.injEq] at hvp'
      subst hvp'
      exact ⟨var, by simp, g4 _ hv⟩
  | none =>
    rw [hv] at h
    dsimp only at h
    rw [D.pure_ok_iff] at h
    obtain ⟨rfl, rfl⟩ := h
    exact ⟨by simp [hkeys], hfields, by simp, fun _ => g5 hv⟩

theorem propArm_stop {p : Prop' E S V} {c : Ctx E S} {st : PropState V} {q : Spanned Str S × Value S} {r}
    (h : StopsIn c (propArm p st q.1 q.2) r) :
    if p.flatten then ∃ x, StopsIn c (p.impls.part.insertProperty x q.1 q.2) r
    else StopsIn c (decodeValue p.decode p.option p.impls q.2) r := by
  obtain ⟨c1, h1, h⟩ := h
  rw [propArm] at h
  by_cases hf : p.flatten
  · rw [if_pos hf] at h ⊢
    rw [stop_bind] at h
    rcases h with h | ⟨_, _, _, h⟩
    · exact ⟨st.fld, c1, h1, h⟩
    · rw [stop_pure] at h; exact h.elim
  · rw [if_neg hf] at h ⊢
    rw [stop_bind] at h
    rcases h with h | ⟨_, _, _, h⟩
    · exact ⟨c1, h1, h⟩
    · rw [stop_pure] at h; exact h.elim

/-- How the decoding of the properties may stop. -/
theorem decodeProps_stop {s : Struct E S V} (hk : s.Keeps) {takes} (hn : s.PropNames takes) {node : SpannedNode S}
    {c : Ctx E S} {r} (h : (decodeProps s node c).stop = some r) :
    (∃ (i : Nat) (p : Prop' E S V), s.properties[i]? = some p ∧ ∃ q ∈ s.propsFor takes node (some i),
      if p.flatten then ∃ x, StopsIn c (p.impls.part.insertProperty x q.1 q.2) r
      else StopsIn c (decodeValue p.decode p.option p.impls q.2) r) ∨
    (∃ vp, s.varProps = some vp ∧ ∃ q ∈ s.propsFor takes node none,
      ((∃ m c', c.errors <+: c'.errors ∧ vp.impls.keyFromStr q.1.value = .error m ∧
          r = some (DErr.conv q.1 (.text m), c')) ∨
       StopsIn c (decodeValue vp.decode false vp.impls q.2) r)) ∨
    (∃ c', c.errors <+: c'.errors ∧
      ((s.varProps = none ∧ ∃ q ∈ s.propsFor takes node none, r = some (unexpectedProperty q.1, c')) ∨
       (∃ (i : Nat) (p : Prop' E S V), s.properties[i]? = some p ∧ p.flatten = false ∧ s.propsFor takes node (some i) = [] ∧
          absent p.default p.option = none ∧
          r = some (DErr.missingIn node ("property `".toList ++ p.name ++ "` is required".toList), c')))) := by
  unfold decodeProps at h
  rw [stop_bind] at h
  rcases h with h | ⟨⟨sts, var⟩, c1, h1, h⟩
  · obtain ⟨q, hq, h⟩ := propLoop_stop hk hn (by simp) h
    have mem : ∀ i, s.propField takes q.1.value = i → q ∈ s.propsFor takes node i := by
      intro i hi
      exact List.mem_filter.2 ⟨hq, by simpa using hi⟩
    rcases h with ⟨i, p, st, a, b, d⟩ | ⟨a, ⟨vp, b, d⟩ | ⟨b, c', d, e⟩⟩
    · exact .inl ⟨i, p, b, q, mem _ a, propArm_stop d⟩
    · exact .inr (.inl ⟨vp, b, q, mem _ a, d⟩)
    · exact .inr (.inr ⟨c', d, .inl ⟨b, q, mem _ a, e⟩⟩)
  · rw [stop_bind] at h
    obtain ⟨g1, g2, -⟩ := propLoop_ok hk hn (by simp) h1
    rcases h with h | ⟨env', c2, h2, h⟩
    · obtain ⟨p, st, hm, hs⟩ := finishProps_stop h
      obtain ⟨i, hi⟩ := List.mem_iff_getElem?.1 hm
      obtain ⟨hp, hst⟩ := List.getElem?_zip_eq_some.1 hi
      dsimp only at hp hst
      obtain ⟨st', hst', hs'⟩ := g2 i p p.init hp (by simp [hp])
      rw [hst] at hst'
      simp only [Option.some.injEq] at hst'
      subst hst'
      by_cases hf : p.flatten
      · rw [Prop'.finish, if_pos hf, stop_pure] at hs; exact hs.elim
      · rcases propFinish_named (by simpa using hf) (node := node) hs' with ⟨x', h3, h4⟩ | ⟨h2, h4, h3⟩
        · rw [h3] at hs; simp [Out.stop] at hs
        · rw [h3] at hs
          simp only [Out.stop, Option.some.injEq] at hs
          exact .inr (.inr ⟨c1, (Keeps.propLoop hk _ _ _).ok h1, .inr ⟨i, p, hp, by simpa using hf, h2, h4, hs.symm⟩⟩)
    · cases hv : s.varProps <;> rw [hv] at h <;> dsimp only at h <;> rw [stop_pure] at h <;> exact h.elim

end Knuffel
