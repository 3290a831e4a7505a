import Verif.Theory.DeriveProps
/-!
# Fields for children
-/

set_option linter.unusedSectionVars false

namespace Knuffel
variable {E S V α β ι σ : Type} [Externals]

/-- The effect of one child node on the field that takes it. -/
def childEffect (ch : Child E S V) (fld : FVal V) (n : SpannedNode S) : D E S (FVal V) :=
  if ch.mode = .flatten then ch.impls.part.insertChild fld n >>= fun r => pure r.2
  else childArm ch fld n

/-- What `Struct.ChildNames` says of one field. -/
def Child.Names (p : Child E S V) (takes : Child E S V → Str → Bool) : Prop :=
  if p.mode = .flatten then p.impls.part.TakesChildren (takes p) else ∀ n, takes p n = decide (n = p.name)

theorem childArms_none {takes : Child E S V → Str → Bool} {ps : List (Child E S V)} (hn : ∀ p ∈ ps, p.Names takes)
    {sts : List (FVal V)} (hl : sts.length = ps.length) {n : SpannedNode S}
    (h : ps.findIdx? (fun p => takes p n.value.nodeName.value) = none) (c : Ctx E S) :
    childArms n (ps.zip sts) c = .ok (false, sts) c := by
  induction ps generalizing sts with
  | nil =>
    cases sts with
    | nil => rfl
    | cons _ _ => simp at hl
  | cons p ps ih =>
    cases sts with
    | nil => simp at hl
    | cons st sts =>
      rw [List.findIdx?_cons] at h
      have hp := hn p (by simp)
      by_cases ht : takes p n.value.nodeName.value
      · simp [ht] at h
      · simp only [ht, Bool.false_eq_true, if_false, Option.map_eq_none_iff] at h
        have ih := ih (fun q hq => hn q (by simp [hq])) (by simpa using hl) h
        rw [List.zip_cons_cons, childArms]
        unfold Child.Names at hp
        by_cases hf : p.mode = .flatten
        · rw [if_pos hf] at hp
          rw [if_pos hf]
          rw [D.bind_ok (hp.no _ _ _ (by simpa using ht))]
          dsimp only
          rw [if_neg (by simp), D.bind_ok ih]
          rfl
        · rw [if_neg hf] at hp
          rw [if_neg hf]
          have hne : ¬ n.value.nodeName.value = p.name := by
            rw [hp] at ht; simpa using ht
          rw [if_neg hne, D.bind_ok ih]
          rfl

theorem childArms_some {takes : Child E S V → Str → Bool} {ps : List (Child E S V)} (hn : ∀ p ∈ ps, p.Names takes)
    {sts : List (FVal V)} (hl : sts.length = ps.length) {n : SpannedNode S} {i : Nat}
    (h : ps.findIdx? (fun p => takes p n.value.nodeName.value) = some i) {p : Child E S V} {st : FVal V}
    (hp : ps[i]? = some p) (hs : sts[i]? = some st) (c : Ctx E S) :
    childArms n (ps.zip sts) c = (childEffect p st n >>= fun y => pure (true, sts.set i y)) c := by
  induction ps generalizing sts i with
  | nil => simp at h
  | cons p0 ps ih =>
    cases sts with
    | nil => simp at hl
    | cons st0 sts =>
      rw [List.findIdx?_cons] at h
      have hp0 := hn p0 (by simp)
      have hmap : (ps.zip sts).map (·.2) = sts := by
        rw [← List.unzip_snd, List.unzip_zip (by simpa using hl.symm)]
      rw [List.zip_cons_cons, childArms]
      unfold Child.Names at hp0
      by_cases ht : takes p0 n.value.nodeName.value
      · simp only [ht, if_true, Option.some.injEq] at h
        subst h
        simp only [List.getElem?_cons_zero, Option.some.injEq] at hp hs
        subst hp; subst hs
        rw [childEffect]
        by_cases hf : p0.mode = .flatten
        · rw [if_pos hf] at hp0
          rw [if_pos hf, if_pos hf]
          cases hr : p0.impls.part.insertChild st0 n c with
          | ok r c1 =>
            obtain ⟨b, y⟩ := r
            have hb := hp0.yes _ _ _ _ _ _ ht hr
            subst hb
            rw [bind_assoc, D.bind_ok hr, D.bind_ok hr]
            dsimp only
            rw [if_pos rfl, hmap]
            rfl
          | err e c1 => rw [D.bind_err hr, D.bind_err (D.bind_err hr)]
          | panic => rw [D.bind_panic hr, D.bind_panic (D.bind_panic hr)]
        · rw [if_neg hf] at hp0
          rw [if_neg hf, if_neg hf]
          have hne : n.value.nodeName.value = p0.name := by
            rw [hp0] at ht; simpa using ht
          rw [if_pos hne, hmap]
          rfl
      · simp only [ht, Bool.false_eq_true, if_false, Option.map_eq_some_iff] at h
        obtain ⟨j, hj, rfl⟩ := h
        have ih := ih (fun q hq => hn q (by simp [hq])) (by simpa using hl) hj (by simpa using hp) (by simpa using hs)
        have fin : ∀ st1 : FVal V, (childArms n (ps.zip sts) >>= fun t => pure (t.1, st1 :: t.2)) c =
            (childEffect p st n >>= fun y => pure (true, (st1 :: sts).set (j + 1) y)) c := by
          intro st1
          cases hr : childEffect p st n c with
          | ok r c1 =>
            rw [D.bind_ok hr] at ih
            rw [D.bind_ok ih, D.bind_ok hr]
            rfl
          | err e c1 => rw [D.bind_err hr] at ih; rw [D.bind_err ih, D.bind_err hr]
          | panic => rw [D.bind_panic hr] at ih; rw [D.bind_panic ih, D.bind_panic hr]
        by_cases hf : p0.mode = .flatten
        · rw [if_pos hf] at hp0
          rw [if_pos hf]
          rw [D.bind_ok (hp0.no _ _ _ (by simpa using ht))]
          dsimp only
          rw [if_neg (by simp)]
          exact fin _
        · rw [if_neg hf] at hp0
          rw [if_neg hf]
          have hne : ¬ n.value.nodeName.value = p0.name := by
            rw [hp0] at ht; simpa using ht
          rw [if_neg hne]
          exact fin _

theorem Keeps.childEffect {ch : Child E S V} (h : ch.impls.Keeps ∧ ∀ n, Keeps (ch.decoder n)) (x) (n : SpannedNode S) :
    Keeps (childEffect ch x n) := by
  unfold Knuffel.childEffect
  exact Keeps.ite ((h.1.insertChild _ _).bind fun _ => Keeps.pure _) (Keeps.childArm _ h.2 _ _)

theorem childField_get {s : Struct E S V} {takes} {n : Str} {i : Nat} (h : s.childField takes n = some i) :
    ∃ p, s.children[i]? = some p ∧ takes p n = true := by
  unfold Struct.childField at h
  rw [List.findIdx?_eq_some_iff_getElem] at h
  obtain ⟨hi, h1, -⟩ := h
  exact ⟨s.children[i], by simp, by simpa using h1⟩

/-- The effect of the loop over the children. -/
theorem childLoop_ok {s : Struct E S V} (hk : s.Keeps) {takes} (hn : s.ChildNames takes)
    {nodes : List (SpannedNode S)} {flds : List (FVal V)} {var}
    (hl : flds.length = s.children.length) {c c' : Ctx E S} {flds'} {var'}
    (h : childLoop s nodes flds var c = .ok (flds', var') c') :
    flds'.length = s.children.length ∧
    (∀ (i : Nat) (ch : Child E S V) (x : FVal V), s.children[i]? = some ch → flds[i]? = some x → ∃ x', flds'[i]? = some x' ∧
      Steps (fun n x y => During c c' (childEffect ch x n) y) (s.nodesFor takes nodes (some i)) x x') ∧
    (∃ xs, var' = var ++ xs ∧
      (∀ vc, s.varChildren = some vc →
        Each2 (fun n y => During c c' (vc.decoder n) y) (s.nodesFor takes nodes none) xs) ∧
      (s.varChildren = none → ∀ n ∈ s.nodesFor takes nodes none, During c c' (D.emit (unexpectedNode n)) ())) := by
  unfold Struct.nodesFor
  induction nodes generalizing flds var c with
  | nil =>
    rw [childLoop, D.pure_ok_iff] at h
    simp only [Prod.mk.injEq] at h
    obtain ⟨⟨rfl, rfl⟩, rfl⟩ := h
    exact ⟨hl, fun i p st _ hst => ⟨st, hst, .nil _⟩, [], by simp, fun _ _ => .nil, by simp⟩
  | cons n nodes ih =>
    rw [childLoop] at h
    cases hf : s.childField takes n.value.nodeName.value with
    | some i =>
      obtain ⟨p, hp, htk⟩ := childField_get hf
      have hi : i < s.children.length := (List.getElem?_eq_some_iff.1 hp).1
      obtain ⟨st, hst⟩ : ∃ st, flds[i]? = some st := ⟨flds[i]'(by omega), by simp⟩
      have hkp := hk.children p (List.mem_of_getElem? hp)
      rw [D.bind_ok_iff] at h
      obtain ⟨r, c1, h1, h⟩ := h
      rw [childArms_some hn hl hf hp hst, D.bind_ok_iff] at h1
      obtain ⟨st1, c2, h2, h1⟩ := h1
      rw [D.pure_ok_iff] at h1
      obtain ⟨rfl, rfl⟩ := h1
      rw [if_pos rfl] at h
      have hk1 := (Keeps.childEffect hkp _ _).ok h2
      have hk2 := (Keeps.childLoop hk _ _ _).ok h
      obtain ⟨g1, g2, ps, g3, g4, g5⟩ := ih (by simpa using hl) h
      refine ⟨g1, ?_, ps, g3, ?_, ?_⟩
      · intro j p' st' hp' hst'
        by_cases hij : i = j
        · subst hij
          rw [hp] at hp'; rw [hst] at hst'
          simp only [Option.some.injEq] at hp' hst'
          subst hp'; subst hst'
          obtain ⟨st2, e, hs⟩ := g2 i p st1 hp (by simp only [List.getElem?_set_self']; simp [hst])
          refine ⟨st2, e, ?_⟩
          rw [List.filter_cons_of_pos (by simpa using hf)]
          exact .cons (.here h2 hk2) (hs.imp fun _ _ _ hd => hd.mono hk1 List.prefix_rfl)
        · obtain ⟨st2, e, hs⟩ := g2 j p' st' hp' (by rw [List.getElem?_set_ne hij]; exact hst')
          refine ⟨st2, e, ?_⟩
          rw [List.filter_cons_of_neg (by simp [hf, hij])]
          exact hs.imp fun _ _ _ hd => hd.mono hk1 List.prefix_rfl
      · intro vp hvp
        rw [List.filter_cons_of_neg (by simp [hf])]
        exact (g4 vp hvp).imp fun _ _ hd => hd.mono hk1 List.prefix_rfl
      · intro hv
        rw [List.filter_cons_of_neg (by simp [hf])]
        exact fun m hm => (g5 hv m hm).mono hk1 List.prefix_rfl
    | none =>
      rw [D.bind_ok (childArms_none hn hl hf c)] at h
      dsimp only at h
      rw [if_neg (by simp)] at h
      cases hv : s.varChildren with
      | none =>
        rw [hv] at h
        dsimp only at h
        rw [D.bind_ok (D.emit_eq _ _)] at h
        have hk2 := (Keeps.childLoop hk _ _ _).ok h
        have hk1 : c.errors <+: (c.emitError (unexpectedNode n)).errors := List.prefix_append _ _
        obtain ⟨g1, g2, ps, g3, g4, g5⟩ := ih hl h
        refine ⟨g1, ?_, ps, g3, by simp, ?_⟩
        · intro j p' st' hp' hst'
          obtain ⟨st2, e, hs⟩ := g2 j p' st' hp' hst'
          refine ⟨st2, e, ?_⟩
          rw [List.filter_cons_of_neg (by simp [hf])]
          exact hs.imp fun _ _ _ hd => hd.mono hk1 List.prefix_rfl
        · intro _
          rw [List.filter_cons_of_pos (by simpa using hf)]
          intro m hm
          rcases List.mem_cons.1 hm with rfl | hm
          · exact .here (D.emit_eq _ _) hk2
          · exact (g5 hv m hm).mono hk1 List.prefix_rfl
      | some vp =>
        rw [hv] at h
        dsimp only at h
        rw [D.bind_ok_iff] at h
        obtain ⟨v, c2, h2, h⟩ := h
        have hk1 := (hk.varChildren vp hv _).ok h2
        have hk2 := (Keeps.childLoop hk _ _ _).ok h
        obtain ⟨g1, g2, ps, g3, g4, g5⟩ := ih hl h
        refine ⟨g1, ?_, v :: ps, by simp [g3], ?_, by simp⟩
        · intro j p' st' hp' hst'
          obtain ⟨st2, e, hs⟩ := g2 j p' st' hp' hst'
          refine ⟨st2, e, ?_⟩
          rw [List.filter_cons_of_neg (by simp [hf])]
          exact hs.imp fun _ _ _ hd => hd.mono hk1 List.prefix_rfl
        · intro vp' hvp'
          simp only [Option.some.injEq] at hvp'
          subst hvp'
          rw [List.filter_cons_of_pos (by simpa using hf)]
          exact .cons (.here h2 hk2) ((g4 vp hv).imp fun _ _ hd => hd.mono hk1 List.prefix_rfl)

/-- Where the loop over the children may stop. -/
theorem childLoop_stop {s : Struct E S V} {takes} (hn : s.ChildNames takes)
    {nodes : List (SpannedNode S)} {flds : List (FVal V)} {var}
    (hl : flds.length = s.children.length) {c : Ctx E S} {r}
    (h : (childLoop s nodes flds var c).stop = some r) :
    ∃ pre n post flds1 var1 c1, nodes = pre ++ n :: post ∧ childLoop s pre flds var c = .ok (flds1, var1) c1 ∧
      ((∃ (i : Nat) (ch : Child E S V) (x : FVal V), s.childField takes n.value.nodeName.value = some i ∧ s.children[i]? = some ch ∧
        flds1[i]? = some x ∧ (childEffect ch x n c1).stop = some r) ∨
       (s.childField takes n.value.nodeName.value = none ∧
         ∃ vc, s.varChildren = some vc ∧ (vc.decoder n c1).stop = some r)) := by
  induction nodes generalizing flds var c with
  | nil => rw [childLoop, stop_pure] at h; exact h.elim
  | cons n nodes ih =>
    have h0 := h
    rw [childLoop] at h
    cases hf : s.childField takes n.value.nodeName.value with
    | some i =>
      obtain ⟨p, hp, htk⟩ := childField_get hf
      have hi : i < s.children.length := (List.getElem?_eq_some_iff.1 hp).1
      obtain ⟨st, hst⟩ : ∃ st, flds[i]? = some st := ⟨flds[i]'(by omega), by simp⟩
      rw [stop_bind] at h
      rw [childArms_some hn hl hf hp hst, stop_bind] at h
      rcases h with (h | ⟨_, _, _, h⟩) | ⟨t, c1, h1, h⟩
      · exact ⟨[], n, nodes, flds, var, c, rfl, rfl, .inl ⟨i, p, st, hf, hp, hst, h⟩⟩
      · rw [stop_pure] at h; exact h.elim
      · rw [← childArms_some hn hl hf hp hst] at h1
        have h1' := h1
        rw [childArms_some hn hl hf hp hst, D.bind_ok_iff] at h1
        obtain ⟨st1, c2, h2, h1⟩ := h1
        rw [D.pure_ok_iff] at h1
        obtain ⟨rfl, rfl⟩ := h1
        rw [if_pos rfl] at h
        obtain ⟨pre, m, post, flds1, var1, c3, e, hh, hr⟩ := ih (by simpa using hl) h
        refine ⟨n :: pre, m, post, flds1, var1, c3, by simp [e], ?_, hr⟩
        rw [childLoop, D.bind_ok h1']
        dsimp only
        rw [if_pos rfl]
        exact hh
    | none =>
      have h1' := childArms_none hn hl hf c
      rw [D.bind_ok h1'] at h
      dsimp only at h
      rw [if_neg (by simp)] at h
      cases hv : s.varChildren with
      | none =>
        rw [hv] at h
        dsimp only at h
        rw [D.bind_ok (D.emit_eq _ _)] at h
        obtain ⟨pre, m, post, flds1, var1, c3, e, hh, hr⟩ := ih hl h
        refine ⟨n :: pre, m, post, flds1, var1, c3, by simp [e], ?_, hv ▸ hr⟩
        rw [childLoop, D.bind_ok h1']
        dsimp only
        rw [if_neg (by simp), hv]
        dsimp only
        rw [D.bind_ok (D.emit_eq _ _)]
        exact hh
      | some vp =>
        rw [hv] at h
        dsimp only at h
        rw [stop_bind] at h
        rcases h with h | ⟨v, c2, h2, h⟩
        · exact ⟨[], n, nodes, flds, var, c, rfl, rfl, .inr ⟨hf, vp, rfl, h⟩⟩
        · obtain ⟨pre, m, post, flds1, var1, c3, e, hh, hr⟩ := ih hl h
          refine ⟨n :: pre, m, post, flds1, var1, c3, by simp [e], ?_, hv ▸ hr⟩
          rw [childLoop, D.bind_ok h1']
          dsimp only
          rw [if_neg (by simp), hv]
          dsimp only
          rw [D.bind_ok h2]
          exact hh

/-! ### What the nodes do to a field, by mode -/

theorem normal_effect {ch : Child E S V} (hm : ch.mode = .normal) {c c' : Ctx E S} {x y : FVal V} {n : SpannedNode S}
    (h : During c c' (childEffect ch x n) y) : x.isSome = false ∧ ∃ v, During c c' (ch.decoder n) v ∧ y = .some v := by
  obtain ⟨c1, c2, h1, h, h2⟩ := h
  rw [childEffect, if_neg (by simp [hm])] at h
  unfold childArm at h
  simp only [hm] at h
  by_cases hx : x.isSome
  · rw [if_pos hx, D.fail_ok_iff] at h; exact h.elim
  · rw [if_neg hx, D.bind_ok_iff] at h
    obtain ⟨v, c3, h3, h⟩ := h
    rw [D.pure_ok_iff] at h
    obtain ⟨rfl, rfl⟩ := h
    exact ⟨by simpa using hx, v, ⟨c1, c3, h1, h3, h2⟩, rfl⟩

theorem normal_steps {ch : Child E S V} (hm : ch.mode = .normal) {c c' : Ctx E S} {x' : FVal V} {mine : List (SpannedNode S)}
    (h : Steps (fun n x y => During c c' (childEffect ch x n) y) mine .none x') :
    (mine = [] ∧ x' = .none) ∨ ∃ n v, mine = [n] ∧ During c c' (ch.decoder n) v ∧ x' = .some v := by
  cases h with
  | nil => exact .inl ⟨rfl, rfl⟩
  | cons h1 h2 =>
    obtain ⟨-, v, h3, rfl⟩ := normal_effect hm h1
    cases h2 with
    | nil => exact .inr ⟨_, v, rfl, h3, rfl⟩
    | cons h4 _ =>
      obtain ⟨h5, -⟩ := normal_effect hm h4
      simp [FVal.isSome] at h5

theorem multi_effect {ch : Child E S V} (hm : ch.mode = .multi) {c c' : Ctx E S} {xs : List (FVal V)} {y : FVal V} {n : SpannedNode S}
    (h : During c c' (childEffect ch (.list xs) n) y) : ∃ v, During c c' (ch.decoder n) v ∧ y = .list (xs ++ [v]) := by
  obtain ⟨c1, c2, h1, h, h2⟩ := h
  rw [childEffect, if_neg (by simp [hm])] at h
  unfold childArm at h
  simp only [hm] at h
  rw [D.bind_ok_iff] at h
  obtain ⟨v, c3, h3, h⟩ := h
  rw [D.pure_ok_iff] at h
  obtain ⟨rfl, rfl⟩ := h
  exact ⟨v, ⟨c1, c3, h1, h3, h2⟩, rfl⟩

theorem multi_steps {ch : Child E S V} (hm : ch.mode = .multi) {c c' : Ctx E S} {xs : List (FVal V)} {x' : FVal V}
    {mine : List (SpannedNode S)} (h : Steps (fun n x y => During c c' (childEffect ch x n) y) mine (.list xs) x') :
    ∃ ys, Each2 (fun n y => During c c' (ch.decoder n) y) mine ys ∧ x' = .list (xs ++ ys) := by
  induction mine generalizing xs with
  | nil => cases h; exact ⟨[], .nil, by simp⟩
  | cons n mine ih =>
    cases h with
    | cons h1 h2 =>
      obtain ⟨v, h3, rfl⟩ := multi_effect hm h1
      obtain ⟨ys, h4, rfl⟩ := ih h2
      exact ⟨v :: ys, .cons h3 h4, by simp⟩

theorem bool_effect {ch : Child E S V} (hm : ch.mode = .bool) {c c' : Ctx E S} {b : Bool} {y : FVal V} {n : SpannedNode S}
    (h : During c c' (childEffect ch (.bool b) n) y) : y = .bool true ∧ During c c' (checkFlagNode n) () ∧
      (b = true → During c c' (D.emit (duplicateNode ch n)) ()) := by
  obtain ⟨c1, c2, h1, h, h2⟩ := h
  rw [childEffect, if_neg (by simp [hm])] at h
  unfold childArm at h
  simp only [hm] at h
  rw [D.bind_ok_iff] at h
  obtain ⟨⟨⟩, c3, h3, h⟩ := h
  have k3 := (Keeps.checkFlagNode n).ok h3
  cases b with
  | true =>
    dsimp only at h
    rw [D.bind_ok (D.emit_eq _ _), D.pure_ok_iff] at h
    obtain ⟨rfl, rfl⟩ := h
    exact ⟨rfl, ⟨c1, c3, h1, h3, (List.prefix_append _ _).trans h2⟩, fun _ => ⟨c3, _, h1.trans k3, D.emit_eq _ _, h2⟩⟩
  | false =>
    dsimp only at h
    rw [D.pure_ok_iff] at h
    obtain ⟨rfl, rfl⟩ := h
    exact ⟨rfl, ⟨c1, c3, h1, h3, h2⟩, by simp⟩

theorem bool_steps_true {ch : Child E S V} (hm : ch.mode = .bool) {c c' : Ctx E S} {x' : FVal V}
    {mine : List (SpannedNode S)} (h : Steps (fun n x y => During c c' (childEffect ch x n) y) mine (.bool true) x') :
    x' = .bool true ∧ ∀ n ∈ mine, During c c' (checkFlagNode n) () ∧ During c c' (D.emit (duplicateNode ch n)) () := by
  induction mine with
  | nil => cases h; exact ⟨rfl, by simp⟩
  | cons n mine ih =>
    cases h with
    | cons h1 h2 =>
      obtain ⟨rfl, h3, h4⟩ := bool_effect hm h1
      obtain ⟨h5, h6⟩ := ih h2
      refine ⟨h5, fun m hmm => ?_⟩
      rcases List.mem_cons.1 hmm with rfl | hmm
      · exact ⟨h3, h4 rfl⟩
      · exact h6 m hmm

theorem bool_steps {ch : Child E S V} (hm : ch.mode = .bool) {c c' : Ctx E S} {x' : FVal V}
    {mine : List (SpannedNode S)} (h : Steps (fun n x y => During c c' (childEffect ch x n) y) mine (.bool false) x') :
    x' = .bool (!mine.isEmpty) ∧ (∀ n ∈ mine, During c c' (checkFlagNode n) ()) ∧
      ∀ n ∈ mine.tail, During c c' (D.emit (duplicateNode ch n)) () := by
  cases h with
  | nil => simp
  | @cons n mine _ _ _ h1 h2 =>
    obtain ⟨rfl, h3, -⟩ := bool_effect hm h1
    obtain ⟨rfl, h5⟩ := bool_steps_true hm h2
    refine ⟨rfl, fun m hmm => ?_, fun m hmm => (h5 m hmm).2⟩
    rcases List.mem_cons.1 hmm with rfl | hmm
    · exact h3
    · exact (h5 m hmm).1

theorem child_flatten_steps {s : Struct E S V} {takes} {ch : Child E S V} (hf : ch.mode = .flatten) (hn : ch.Names takes)
    {c c' : Ctx E S} {x x' : FVal V} {i : Nat} (hp : s.children[i]? = some ch) {nodes : List (SpannedNode S)}
    (h : Steps (fun n x y => During c c' (childEffect ch x n) y) (s.nodesFor takes nodes (some i)) x x') :
    Steps (fun n x y => During c c' (ch.impls.part.insertChild x n) (true, y)) (s.nodesFor takes nodes (some i)) x x' := by
  have hall : ∀ n ∈ s.nodesFor takes nodes (some i), takes ch n.value.nodeName.value = true := by
    intro n hn
    have hn := (List.mem_filter.1 hn).2
    obtain ⟨p', hp', ht⟩ := childField_get (by simpa using hn : s.childField takes n.value.nodeName.value = some i)
    rw [hp] at hp'
    simp only [Option.some.injEq] at hp'
    rw [hp']; exact ht
  generalize s.nodesFor takes nodes (some i) = l' at h hall
  unfold Child.Names at hn
  rw [if_pos hf] at hn
  induction h with
  | nil => exact .nil _
  | cons h1 h2 ih =>
    obtain ⟨c1, c2, g1, g2, g3⟩ := h1
    rw [childEffect, if_pos hf, D.bind_ok_iff] at g2
    obtain ⟨⟨b, y⟩, c3, g2, g4⟩ := g2
    rw [D.pure_ok_iff] at g4
    obtain ⟨rfl, rfl⟩ := g4
    have := hn.yes _ _ _ _ _ _ (hall _ (by simp)) g2
    subst this
    exact .cons ⟨c1, c3, g1, g2, g3⟩ (ih fun q hq => hall q (by simp [hq]))

theorem childFinish_spec {s : Struct E S V} {takes} {ch : Child E S V} (hn : ch.Names takes)
    {c c' : Ctx E S} {x' : FVal V} {i : Nat} (hp : s.children[i]? = some ch) {nodes : List (SpannedNode S)} (sp : Option S)
    (h : Steps (fun n x y => During c c' (childEffect ch x n) y) (s.nodesFor takes nodes (some i)) ch.init x') :
    (∃ x, (∀ c1 : Ctx E S, ch.finish sp x' c1 = .ok x c1) ∧ ChildGets c c' ch (s.nodesFor takes nodes (some i)) x) ∨
    (ch.mode = .normal ∧ s.nodesFor takes nodes (some i) = [] ∧ absent ch.default ch.option = none ∧
      ∀ c1 : Ctx E S, ch.finish sp x' c1 = .err (missingChild sp ch) c1) := by
  unfold Child.finish ChildGets
  unfold Child.init at h
  cases hm : ch.mode with
  | flatten =>
    simp only [hm] at h ⊢
    exact .inl ⟨x', fun _ => rfl, child_flatten_steps hm hn hp h⟩
  | bool =>
    simp only [hm] at h ⊢
    exact .inl ⟨x', fun _ => rfl, bool_steps hm h⟩
  | multi =>
    simp only [hm] at h ⊢
    obtain ⟨ys, h1, rfl⟩ := multi_steps hm h
    refine .inl ?_
    generalize s.nodesFor takes nodes (some i) = mine at h1
    cases h1 with
    | nil =>
      simp only [List.nil_append, List.isEmpty_nil, if_true, absent]
      cases ch.default <;> cases ch.option
      · exact ⟨.list [], fun _ => rfl, [], .nil, rfl⟩
      · exact ⟨.none, fun _ => rfl, [], .nil, rfl⟩
      · rename_i d; exact ⟨d, fun _ => rfl, [], .nil, rfl⟩
      · rename_i d; exact ⟨d, fun _ => rfl, [], .nil, rfl⟩
    | @cons n y mine ys h1 h2 =>
      simp only [List.nil_append, List.isEmpty_cons, Bool.false_eq_true, if_false]
      cases ch.default <;> cases ch.option
      · exact ⟨_, fun _ => rfl, _, .cons h1 h2, rfl⟩
      · exact ⟨_, fun _ => rfl, _, .cons h1 h2, rfl⟩
      · exact ⟨_, fun _ => rfl, _, .cons h1 h2, rfl⟩
      · exact ⟨_, fun _ => rfl, _, .cons h1 h2, rfl⟩
  | normal =>
    simp only [hm] at h ⊢
    rcases normal_steps hm h with ⟨h1, rfl⟩ | ⟨n, v, h1, h2, rfl⟩
    · rw [h1]
      simp only [absent]
      cases ch.default <;> cases ch.option
      · exact .inr (by simp)
      · exact .inl ⟨_, fun _ => rfl, rfl⟩
      · exact .inl ⟨_, fun _ => rfl, rfl⟩
      · exact .inl ⟨_, fun _ => rfl, rfl⟩
    · rw [h1]
      simp only
      cases ch.default <;> cases ch.option
      · exact .inl ⟨_, fun _ => rfl, v, h2, rfl⟩
      · exact .inl ⟨_, fun _ => rfl, v, h2, rfl⟩
      · exact .inl ⟨_, fun _ => rfl, v, h2, rfl⟩
      · exact .inl ⟨_, fun _ => rfl, v, h2, rfl⟩

theorem childFinish_ctx (ch : Child E S V) (sp : Option S) (x : FVal V) :
    (∃ y, ∀ c : Ctx E S, ch.finish sp x c = .ok y c) ∨ (∀ c : Ctx E S, ch.finish sp x c = .err (missingChild sp ch) c) := by
  unfold Child.finish
  cases hm : ch.mode with
  | flatten => exact .inl ⟨_, fun _ => rfl⟩
  | bool => exact .inl ⟨_, fun _ => rfl⟩
  | multi =>
    dsimp only
    cases ch.default <;> cases ch.option <;> cases x <;>
      first
      | exact .inl ⟨_, fun _ => rfl⟩
      | (rename_i l; cases l <;> exact .inl ⟨_, fun _ => rfl⟩)
  | normal =>
    dsimp only
    cases ch.default <;> cases ch.option <;> cases x <;>
      first
      | exact .inl ⟨_, fun _ => rfl⟩
      | exact .inr fun _ => rfl

theorem finishChildren_ok {sp : Option S} {l : List (Child E S V × FVal V)} {c c' : Ctx E S} {env : Env V}
    (h : finishChildren sp l c = .ok env c') :
    c = c' ∧ env.map (·.1) = l.map (·.1.field) ∧
    ∀ ch x, (ch, x) ∈ l → ∃ y, (ch.field, y) ∈ env ∧ ch.finish sp x c = .ok y c := by
  induction l generalizing c env with
  | nil =>
    rw [finishChildren, D.pure_ok_iff] at h
    obtain ⟨rfl, rfl⟩ := h
    simp
  | cons a l ih =>
    obtain ⟨p, st⟩ := a
    rw [finishChildren, D.bind_ok_iff] at h
    obtain ⟨x, c1, h1, h⟩ := h
    have : c = c1 := by
      rcases childFinish_ctx p sp st with ⟨y, hy⟩ | hy
      · rw [hy] at h1; simp only [Out.ok.injEq] at h1; exact h1.2
      · rw [hy] at h1; simp at h1
    subst this
    rw [D.bind_ok_iff] at h
    obtain ⟨env', c2, h2, h⟩ := h
    rw [D.pure_ok_iff] at h
    obtain ⟨rfl, rfl⟩ := h
    obtain ⟨rfl, e2, e3⟩ := ih h2
    refine ⟨rfl, by simp [e2], ?_⟩
    intro p' st' hm
    rcases List.mem_cons.1 hm with hm | hm
    · simp only [Prod.mk.injEq] at hm
      obtain ⟨rfl, rfl⟩ := hm
      exact ⟨x, by simp, h1⟩
    · obtain ⟨y, hy, hz⟩ := e3 p' st' hm
      exact ⟨y, by simp [hy], hz⟩

theorem finishChildren_stop {sp : Option S} {l : List (Child E S V × FVal V)} {c : Ctx E S} {r}
    (h : (finishChildren sp l c).stop = some r) :
    ∃ ch x, (ch, x) ∈ l ∧ (ch.finish sp x c).stop = some r := by
  induction l generalizing c with
  | nil => rw [finishChildren, stop_pure] at h; exact h.elim
  | cons a l ih =>
    obtain ⟨p, st⟩ := a
    rw [finishChildren, stop_bind] at h
    rcases h with h | ⟨x, c1, h1, h⟩
    · exact ⟨p, st, by simp, h⟩
    · have : c = c1 := by
        rcases childFinish_ctx p sp st with ⟨y, hy⟩ | hy
        · rw [hy] at h1; simp only [Out.ok.injEq] at h1; exact h1.2
        · rw [hy] at h1; simp at h1
      subst this
      rw [stop_bind] at h
      rcases h with h | ⟨_, _, _, h⟩
      · obtain ⟨p', st', hm, hh⟩ := ih h
        exact ⟨p', st', by simp [hm], hh⟩
      · rw [stop_pure] at h; exact h.elim

theorem decodeChildren_ok {s : Struct E S V} (hk : s.Keeps) {takes} (hn : s.ChildNames takes) {sp : Option S}
    {nodes : List (SpannedNode S)} {c c' : Ctx E S} {env : Env V} (h : decodeChildren s sp nodes c = .ok env c') :
    env.map (·.1) = s.children.map (·.field) ++ s.varChildren.toList.map (·.field) ∧
    (∀ (i : Nat) (ch : Child E S V), s.children[i]? = some ch → ∃ x, (ch.field, x) ∈ env ∧
      ChildGets c c' ch (s.nodesFor takes nodes (some i)) x) ∧
    (∀ vc, s.varChildren = some vc → ∃ xs, (vc.field, .list xs) ∈ env ∧
      Each2 (fun n y => During c c' (vc.decoder n) y) (s.nodesFor takes nodes none) xs) ∧
    (s.varChildren = none → ∀ n ∈ s.nodesFor takes nodes none, During c c' (D.emit (unexpectedNode n)) ()) := by
  unfold decodeChildren at h
  rw [D.bind_ok_iff] at h
  obtain ⟨⟨flds, var⟩, c1, h1, h⟩ := h
  rw [D.bind_ok_iff] at h
  obtain ⟨env', c2, h2, h⟩ := h
  dsimp only at h2 h
  obtain ⟨g1, g2, ps, g3, g4, g5⟩ := childLoop_ok hk hn (by simp) h1
  obtain ⟨rfl, e2, e3⟩ := finishChildren_ok h2
  simp only [List.nil_append] at g3
  subst g3
  have hkeys : env'.map (·.1) = s.children.map (·.field) := by
    have hz : (s.children.zip flds).map (·.1) = s.children := by
      rw [← List.unzip_fst, List.unzip_zip g1.symm]
    have hz' := congrArg (List.map (·.field)) hz
    rw [List.map_map] at hz'
    exact e2.trans hz'
  have hfields : ∀ (i : Nat) (ch : Child E S V), s.children[i]? = some ch → ∃ x, (ch.field, x) ∈ env' ∧
      ChildGets c c1 ch (s.nodesFor takes nodes (some i)) x := by
    intro i p hp
    obtain ⟨st, hst, hs⟩ := g2 i p p.init hp (by simp [hp])
    have hm : (p, st) ∈ s.children.zip flds :=
      List.mem_of_getElem? (i := i) (List.getElem?_zip_eq_some.2 ⟨hp, hst⟩)
    obtain ⟨x, hx, hfin⟩ := e3 p st hm
    refine ⟨x, hx, ?_⟩
    rcases childFinish_spec (hn p (List.mem_of_getElem? hp)) hp sp hs with ⟨x', h3, h4⟩ | ⟨-, -, -, h3⟩
    · rw [h3] at hfin
      simp only [Out.ok.injEq, and_true] at hfin
      subst hfin
      exact h4
    · rw [h3] at hfin; simp at hfin
  cases hv : s.varChildren with
  | some vp =>
    rw [hv] at h
    dsimp only at h
    rw [D.pure_ok_iff] at h
    obtain ⟨rfl, rfl⟩ := h
    refine ⟨by simp [hkeys], ?_, ?_, by simp⟩
    · intro i p hp
      obtain ⟨x, hx, hh⟩ := hfields i p hp
      exact ⟨x, by simp [hx], hh⟩
    · intro vp' hvp'
      simp only [Option.some.injEq] at hvp'
      subst hvp'
      exact ⟨var, by simp, g4 _ hv⟩
  | none =>
    rw [hv] at h
    dsimp only at h
    rw [D.pure_ok_iff] at h
    obtain ⟨rfl, rfl⟩ := h
    exact ⟨by simp [hkeys], hfields, by simp, fun _ => g5 hv⟩

/-- How the decoding of the children may stop. -/
theorem decodeChildren_stop {s : Struct E S V} (hk : s.Keeps) {takes} (hn : s.ChildNames takes) {sp : Option S}
    {nodes : List (SpannedNode S)} {c : Ctx E S} {r} (h : (decodeChildren s sp nodes c).stop = some r) :
    (∃ (i : Nat) (ch : Child E S V), s.children[i]? = some ch ∧ ∃ n ∈ s.nodesFor takes nodes (some i),
      if ch.mode = .flatten then ∃ x, StopsIn c (ch.impls.part.insertChild x n) r
      else ch.mode ≠ .bool ∧ StopsIn c (ch.decoder n) r) ∨
    (∃ vc, s.varChildren = some vc ∧ ∃ n ∈ s.nodesFor takes nodes none, StopsIn c (vc.decoder n) r) ∨
    (∃ c', c.errors <+: c'.errors ∧ ∃ (i : Nat) (ch : Child E S V), s.children[i]? = some ch ∧ ch.mode = .normal ∧
      ((∃ n ∈ (s.nodesFor takes nodes (some i)).tail, r = some (duplicateNode ch n, c')) ∨
       (s.nodesFor takes nodes (some i) = [] ∧ absent ch.default ch.option = none ∧ r = some (missingChild sp ch, c')))) := by
  unfold decodeChildren at h
  rw [stop_bind] at h
  rcases h with h | ⟨⟨flds, var⟩, c1, h1, h⟩
  · obtain ⟨before, n, after, flds1, var1, c1, e, h1, h⟩ := childLoop_stop hn (by simp) h
    have kc := (Keeps.childLoop hk _ _ _).ok h1
    have mem : ∀ i, s.childField takes n.value.nodeName.value = i → n ∈ s.nodesFor takes nodes i := by
      intro i hi
      exact List.mem_filter.2 ⟨by simp [e], by simpa using hi⟩
    rcases h with ⟨i, ch, x, a, b, d, hs⟩ | ⟨a, vc, b, hs⟩
    · have hmem := mem _ a
      rw [childEffect] at hs
      by_cases hf : ch.mode = .flatten
      · rw [if_pos hf, stop_bind] at hs
        rcases hs with hs | ⟨_, _, _, hs⟩
        · exact .inl ⟨i, ch, b, n, hmem, by rw [if_pos hf]; exact ⟨x, c1, kc, hs⟩⟩
        · rw [stop_pure] at hs; exact hs.elim
      · rw [if_neg hf] at hs
        unfold childArm at hs
        cases hm : ch.mode with
        | flatten => exact absurd hm hf
        | bool =>
          simp only [hm] at hs
          rw [stop_bind] at hs
          rcases hs with hs | ⟨_, _, _, hs⟩
          · rw [checkFlagNode_eq] at hs; simp [Out.stop] at hs
          · split at hs
            · rw [D.bind_ok (D.emit_eq _ _), stop_pure] at hs; exact hs.elim
            · rw [stop_pure] at hs; exact hs.elim
        | multi =>
          simp only [hm] at hs
          rw [stop_bind] at hs
          rcases hs with hs | ⟨_, _, _, hs⟩
          · exact .inl ⟨i, ch, b, n, hmem, by rw [if_neg hf]; exact ⟨by simp [hm], c1, kc, hs⟩⟩
          · rw [stop_pure] at hs; exact hs.elim
        | normal =>
          simp only [hm] at hs
          by_cases hx : x.isSome
          · rw [if_pos hx, stop_fail] at hs
            refine .inr (.inr ⟨c1, kc, i, ch, b, hm, .inl ⟨n, ?_, hs.symm⟩⟩)
            obtain ⟨g1, g2, -⟩ := childLoop_ok hk hn (by simp) h1
            obtain ⟨x2, hx2, hst⟩ := g2 i ch ch.init b (by simp [b])
            rw [d] at hx2
            simp only [Option.some.injEq] at hx2
            subst hx2
            rw [Child.init, hm] at hst
            dsimp only at hst
            rcases normal_steps hm hst with ⟨-, rfl⟩ | ⟨m, v, g3, -⟩
            · simp [FVal.isSome] at hx
            · have : s.nodesFor takes nodes (some i) = m :: n :: (s.nodesFor takes after (some i)) := by
                unfold Struct.nodesFor at g3 ⊢
                rw [e, List.filter_append, g3, List.filter_cons_of_pos (by simpa using a)]
                rfl
              rw [this]
              simp
          · rw [if_neg hx, stop_bind] at hs
            rcases hs with hs | ⟨_, _, _, hs⟩
            · exact .inl ⟨i, ch, b, n, hmem, by rw [if_neg hf]; exact ⟨by simp [hm], c1, kc, hs⟩⟩
            · rw [stop_pure] at hs; exact hs.elim
    · exact .inr (.inl ⟨vc, b, n, mem _ a, c1, kc, hs⟩)
  · rw [stop_bind] at h
    obtain ⟨g1, g2, -⟩ := childLoop_ok hk hn (by simp) h1
    rcases h with h | ⟨env', c2, h2, h⟩
    · obtain ⟨p, st, hm, hs⟩ := finishChildren_stop h
      obtain ⟨i, hi⟩ := List.mem_iff_getElem?.1 hm
      obtain ⟨hp, hst⟩ := List.getElem?_zip_eq_some.1 hi
      dsimp only at hp hst
      obtain ⟨st', hst', hs'⟩ := g2 i p p.init hp (by simp [hp])
      rw [hst] at hst'
      simp only [Option.some.injEq] at hst'
      subst hst'
      rcases childFinish_spec (hn p (List.mem_of_getElem? hp)) hp sp hs' with ⟨x', h3, h4⟩ | ⟨h5, h6, h7, h3⟩
      · rw [h3] at hs; simp [Out.stop] at hs
      · rw [h3] at hs
        simp only [Out.stop, Option.some.injEq] at hs
        exact .inr (.inr ⟨c1, (Keeps.childLoop hk _ _ _).ok h1, i, p, hp, h5, .inr ⟨h6, h7, hs.symm⟩⟩)
    · cases hv : s.varChildren <;> rw [hv] at h <;> dsimp only at h <;> rw [stop_pure] at h <;> exact h.elim

end Knuffel
