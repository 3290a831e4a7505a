import Verif.Theory.DeriveKeeps
/-!
# Argument fields
-/

set_option linter.unusedSectionVars false

namespace Knuffel
variable {E S V α β ι σ : Type}

/-! ### `During`, `StopsIn`, `Each2`, `Steps` -/

theorem During.here {c c1 c' : Ctx E S} {d : D E S α} {x : α} (h : d c = .ok x c1) (h' : c1.errors <+: c'.errors) :
    During c c' d x := ⟨c, c1, List.prefix_rfl, h, h'⟩

theorem During.mono {c0 c c' c2 : Ctx E S} {d : D E S α} {x : α} (h0 : c0.errors <+: c.errors) (h : During c c' d x)
    (h1 : c'.errors <+: c2.errors) : During c0 c2 d x := by
  obtain ⟨a, b, h2, h3, h4⟩ := h
  exact ⟨a, b, h0.trans h2, h3, h4.trans h1⟩

/-- If nothing was reported in the whole run, nothing was reported in the call. -/
theorem During.clean {c c' : Ctx E S} {d : D E S α} {x : α} (h : During c c' d x) (hc : c'.errors = c.errors) (hk : Keeps d) :
    ∃ c1 c2, c1.errors = c.errors ∧ d c1 = .ok x c2 ∧ c2.errors = c.errors := by
  obtain ⟨a, b, h2, h3, h4⟩ := h
  have h5 := hk.ok h3
  rw [hc] at h4
  have e1 : a.errors = c.errors := (List.IsPrefix.eq_of_length_le (h5.trans h4) (h2.length_le))
  have e2 : b.errors = c.errors := (List.IsPrefix.eq_of_length_le h4 ((h2.trans h5).length_le))
  exact ⟨a, b, e1, h3, e2⟩

theorem StopsIn.here {c : Ctx E S} {d : D E S α} {r} (h : (d c).stop = some r) : StopsIn c d r := ⟨c, List.prefix_rfl, h⟩

theorem StopsIn.mono {c0 c : Ctx E S} {d : D E S α} {r} (h0 : c0.errors <+: c.errors) (h : StopsIn c d r) : StopsIn c0 d r := by
  obtain ⟨a, h1, h2⟩ := h
  exact ⟨a, h0.trans h1, h2⟩

theorem stop_bind {x : D E S α} {f : α → D E S β} {c : Ctx E S} {r} :
    ((x >>= f) c).stop = some r ↔ (x c).stop = some r ∨ ∃ a c1, x c = .ok a c1 ∧ (f a c1).stop = some r := by
  rw [D.bind_eq]
  cases x c <;> simp [Out.stop, and_assoc]

@[simp] theorem stop_pure {a : α} {c : Ctx E S} {r} : ((pure a : D E S α) c).stop = some r ↔ False := by
  rw [D.pure_eq]; simp [Out.stop]
@[simp] theorem stop_fail {e : DErr S} {c : Ctx E S} {r} : ((D.fail e : D E S α) c).stop = some r ↔ some (e, c) = r := by
  rw [D.fail_eq]; simp [Out.stop]
@[simp] theorem stop_emit {e : DErr S} {c : Ctx E S} {r} : ((D.emit e : D E S Unit) c).stop = some r ↔ False := by
  rw [D.emit_eq]; simp [Out.stop]
theorem D.pure_ok_iff {a b : α} {c c' : Ctx E S} : (pure a : D E S α) c = .ok b c' ↔ a = b ∧ c = c' := by
  rw [D.pure_eq]; simp
theorem D.fail_ok_iff {e : DErr S} {b : α} {c c' : Ctx E S} : (D.fail e : D E S α) c = .ok b c' ↔ False := by
  rw [D.fail_eq]; simp
theorem D.emit_ok_iff {e : DErr S} {b : Unit} {c c' : Ctx E S} : (D.emit e : D E S Unit) c = .ok b c' ↔ c.emitError e = c' := by
  rw [D.emit_eq]; simp

/-- Either a value, or a stop. -/
theorem Out.cases_stop (o : Out E S α) : (∃ a c', o = .ok a c') ∨ ∃ r, o.stop = some r := by
  cases o <;> simp [Out.stop]

theorem Each2.imp {R R' : α → β → Prop} {as : List α} {bs : List β} (h : Each2 R as bs) (hi : ∀ a b, R a b → R' a b) :
    Each2 R' as bs := by
  induction h with
  | nil => exact .nil
  | cons h1 _ ih => exact .cons (hi _ _ h1) ih

theorem Each2.length {R : α → β → Prop} {as : List α} {bs : List β} (h : Each2 R as bs) : as.length = bs.length := by
  induction h with
  | nil => rfl
  | cons _ _ ih => simp [ih]

theorem Each2.get {R : α → β → Prop} {as : List α} {bs : List β} (h : Each2 R as bs) {i : Nat} {a : α}
    (ha : as[i]? = some a) : ∃ b, bs[i]? = some b ∧ R a b := by
  induction h generalizing i with
  | nil => simp at ha
  | cons h1 _ ih =>
    cases i with
    | zero => simp at ha; subst ha; exact ⟨_, rfl, h1⟩
    | succ i => simpa using ih (by simpa using ha)

theorem Each2.append {R : α → β → Prop} {as as' : List α} {bs bs' : List β} (h : Each2 R as bs) (h' : Each2 R as' bs') :
    Each2 R (as ++ as') (bs ++ bs') := by
  induction h with
  | nil => exact h'
  | cons h1 _ ih => exact .cons h1 ih

theorem Steps.imp {R R' : ι → σ → σ → Prop} {l : List ι} {x y : σ} (h : Steps R l x y) (hi : ∀ i x y, R i x y → R' i x y) :
    Steps R' l x y := by
  induction h with
  | nil => exact .nil _
  | cons h1 _ ih => exact .cons (hi _ _ _ h1) ih

theorem collect_ok {f : α → D E S β} {l : List α} {c c' : Ctx E S} {xs : List β} (hf : ∀ a, Keeps (f a))
    (h : D.collect f l c = .ok xs c') : Each2 (fun a x => During c c' (f a) x) l xs := by
  induction l generalizing c xs with
  | nil =>
    rw [D.collect, D.pure_ok_iff] at h
    obtain ⟨rfl, rfl⟩ := h
    exact .nil
  | cons a as ih =>
    rw [D.collect, D.bind_ok_iff] at h
    obtain ⟨y, c1, h1, h⟩ := h
    rw [D.bind_ok_iff] at h
    obtain ⟨ys, c2, h2, h⟩ := h
    rw [D.pure_ok_iff] at h
    obtain ⟨rfl, rfl⟩ := h
    refine .cons (.here h1 ((Keeps.collect hf).ok h2)) ((ih h2).imp ?_)
    intro a b hab
    exact hab.mono ((hf _).ok h1) List.prefix_rfl

theorem collect_stop {f : α → D E S β} {l : List α} {c : Ctx E S} {r} (hf : ∀ a, Keeps (f a))
    (h : (D.collect f l c).stop = some r) : ∃ a ∈ l, StopsIn c (f a) r := by
  induction l generalizing c with
  | nil => rw [D.collect, stop_pure] at h; exact h.elim
  | cons a as ih =>
    rw [D.collect, stop_bind] at h
    rcases h with h | ⟨y, c1, h1, h⟩
    · exact ⟨a, by simp, .here h⟩
    · rw [stop_bind] at h
      rcases h with h | ⟨ys, c2, h2, h⟩
      · obtain ⟨a', ha, hs⟩ := ih h
        exact ⟨a', by simp [ha], hs.mono ((hf _).ok h1)⟩
      · rw [stop_pure] at h; exact h.elim

/-! ### Arguments -/

variable [Externals]

theorem ArgGets.mono {c0 c c' c2 : Ctx E S} {a : Arg E S V} {arg} {x : FVal V} (h0 : c0.errors <+: c.errors)
    (h : ArgGets c c' a arg x) (h1 : c'.errors <+: c2.errors) : ArgGets c0 c2 a arg x := by
  cases arg with
  | none => exact h
  | some v => exact During.mono h0 h h1

theorem decodeArg_cons (node : SpannedNode S) (a : Arg E S V) (v : Value S) (rest : List (Value S)) :
    decodeArg node a (v :: rest) = (decodeValue a.decode a.option a.impls v >>= fun x => pure (x, rest)) := rfl

theorem decodeArg_nil (node : SpannedNode S) (a : Arg E S V) :
    decodeArg node a [] = match absent a.default a.option with
      | some x => pure (x, [])
      | none => D.fail (DErr.missingIn node (argError a.field)) := by
  obtain ⟨f, o, m, d, i⟩ := a
  cases d <;> cases o <;> rfl

theorem decodeArg_ok {node : SpannedNode S} {a : Arg E S V} {args : List (Value S)} {c c' : Ctx E S} {r}
    (h : decodeArg node a args c = .ok r c') : r.2 = args.drop 1 ∧ ArgGets c c' a args[0]? r.1 := by
  cases args with
  | cons v rest =>
    rw [decodeArg_cons, D.bind_ok_iff] at h
    obtain ⟨x, c1, h1, h⟩ := h
    rw [D.pure_ok_iff] at h
    obtain ⟨rfl, rfl⟩ := h
    exact ⟨rfl, .here h1 List.prefix_rfl⟩
  | nil =>
    rw [decodeArg_nil] at h
    cases hd : absent a.default a.option with
    | some x =>
      rw [hd] at h
      dsimp only at h
      rw [D.pure_ok_iff] at h
      obtain ⟨rfl, rfl⟩ := h
      exact ⟨rfl, hd⟩
    | none => rw [hd] at h; dsimp only at h; rw [D.fail_ok_iff] at h; exact h.elim

theorem decodeArg_stop {node : SpannedNode S} {a : Arg E S V} {args : List (Value S)} {c : Ctx E S} {r}
    (h : (decodeArg node a args c).stop = some r) :
    (∃ v, args[0]? = some v ∧ StopsIn c (decodeValue a.decode a.option a.impls v) r) ∨
    (args = [] ∧ absent a.default a.option = none ∧ r = some (DErr.missingIn node (argError a.field), c)) := by
  cases args with
  | cons v rest =>
    rw [decodeArg_cons, stop_bind] at h
    rcases h with h | ⟨_, _, _, h⟩
    · exact .inl ⟨_, rfl, .here h⟩
    · rw [stop_pure] at h; exact h.elim
  | nil =>
    rw [decodeArg_nil] at h
    cases hd : absent a.default a.option with
    | some x => rw [hd] at h; dsimp only at h; rw [stop_pure] at h; exact h.elim
    | none => rw [hd] at h; dsimp only at h; rw [stop_fail] at h; exact .inr ⟨rfl, rfl, h.symm⟩

theorem decodeArgList_ok {node : SpannedNode S} {as : List (Arg E S V)} (hk : ∀ f ∈ as, f.impls.Keeps)
    {args : List (Value S)} {c c' : Ctx E S} {env : Env V} {rest} (h : decodeArgList node as args c = .ok (env, rest) c') :
    rest = args.drop as.length ∧ env.map (·.1) = as.map (·.field) ∧
    ∀ (i : Nat) (a : Arg E S V), as[i]? = some a → ∃ x, (a.field, x) ∈ env ∧ ArgGets c c' a args[i]? x := by
  induction as generalizing args c env rest with
  | nil =>
    rw [decodeArgList, D.pure_ok_iff] at h
    simp only [Prod.mk.injEq] at h
    obtain ⟨⟨rfl, rfl⟩, rfl⟩ := h
    simp
  | cons a as ih =>
    rw [decodeArgList, D.bind_ok_iff] at h
    obtain ⟨y, c1, h1, h⟩ := h
    rw [D.bind_ok_iff] at h
    obtain ⟨⟨env', rest'⟩, c2, h2, h⟩ := h
    rw [D.pure_ok_iff] at h
    simp only [Prod.mk.injEq] at h
    obtain ⟨⟨rfl, rfl⟩, rfl⟩ := h
    obtain ⟨e1, g1⟩ := decodeArg_ok h1
    have hk' : ∀ f ∈ as, f.impls.Keeps := fun f hf => hk f (by simp [hf])
    obtain ⟨e2, e3, g2⟩ := ih hk' h2
    rw [e1] at e2 g2
    refine ⟨by rw [e2, List.drop_drop]; simp [Nat.add_comm], by simp [e3], ?_⟩
    intro i b hb
    cases i with
    | zero =>
      simp at hb; subst hb
      exact ⟨y.1, by simp, g1.mono List.prefix_rfl ((Keeps.decodeArgList _ _ hk' _).ok h2)⟩
    | succ i =>
      obtain ⟨x, hx, hg⟩ := g2 i b (by simpa using hb)
      refine ⟨x, by simp [hx], ?_⟩
      rw [List.getElem?_drop, Nat.add_comm] at hg
      exact hg.mono ((Keeps.decodeArg _ _ (hk a (by simp)) _).ok h1) List.prefix_rfl

theorem decodeArgList_stop {node : SpannedNode S} {as : List (Arg E S V)} (hk : ∀ f ∈ as, f.impls.Keeps)
    {args : List (Value S)} {c : Ctx E S} {r} (h : (decodeArgList node as args c).stop = some r) :
    ∃ (i : Nat) (a : Arg E S V), as[i]? = some a ∧
      ((∃ v, args[i]? = some v ∧ StopsIn c (decodeValue a.decode a.option a.impls v) r) ∨
       (args[i]? = none ∧ absent a.default a.option = none ∧
          ∃ c', c.errors <+: c'.errors ∧ r = some (DErr.missingIn node (argError a.field), c'))) := by
  induction as generalizing args c with
  | nil => rw [decodeArgList, stop_pure] at h; exact h.elim
  | cons a as ih =>
    rw [decodeArgList, stop_bind] at h
    rcases h with h | ⟨y, c1, h1, h⟩
    · refine ⟨0, a, rfl, ?_⟩
      rcases decodeArg_stop h with h | ⟨rfl, h2, h3⟩
      · exact .inl h
      · exact .inr ⟨rfl, h2, c, List.prefix_rfl, h3⟩
    · rw [stop_bind] at h
      rcases h with h | ⟨ys, c2, h2, h⟩
      · have hk' : ∀ f ∈ as, f.impls.Keeps := fun f hf => hk f (by simp [hf])
        have hp := (Keeps.decodeArg _ _ (hk a (by simp)) _).ok h1
        obtain ⟨e1, -⟩ := decodeArg_ok h1
        obtain ⟨i, b, hb, h⟩ := ih hk' h
        rw [e1, List.getElem?_drop, Nat.add_comm] at h
        refine ⟨i + 1, b, by simpa using hb, ?_⟩
        rcases h with ⟨v, hv, hs⟩ | ⟨h1, h2, c', h3, h4⟩
        · exact .inl ⟨v, hv, hs.mono hp⟩
        · exact .inr ⟨h1, h2, c', hp.trans h3, h4⟩
      · rw [stop_pure] at h; exact h.elim

theorem decodeArgs_ok {s : Struct E S V} (hk : s.Keeps) {node : SpannedNode S} {c c' : Ctx E S} {env : Env V}
    (h : decodeArgs s node c = .ok env c') :
    env.map (·.1) = s.arguments.map (·.field) ++ s.varArgs.toList.map (·.field) ∧
    (∀ (i : Nat) (a : Arg E S V), s.arguments[i]? = some a → ∃ x, (a.field, x) ∈ env ∧ ArgGets c c' a node.value.arguments[i]? x) ∧
    (∀ va, s.varArgs = some va → ∃ xs, (va.field, .list xs) ∈ env ∧
      Each2 (fun v x => During c c' (decodeValue va.decode false va.impls v) x)
        (node.value.arguments.drop s.arguments.length) xs) ∧
    (s.varArgs = none → node.value.arguments.length ≤ s.arguments.length) := by
  unfold decodeArgs at h
  rw [D.bind_ok_iff] at h
  obtain ⟨⟨env', rest⟩, c1, h1, h⟩ := h
  obtain ⟨e1, e2, g⟩ := decodeArgList_ok hk.arguments h1
  cases hv : s.varArgs with
  | some va =>
    rw [hv] at h
    dsimp only at h
    rw [D.bind_ok_iff] at h
    obtain ⟨xs, c2, h2, h⟩ := h
    rw [D.pure_ok_iff] at h
    obtain ⟨rfl, rfl⟩ := h
    have hkv : ∀ v, Keeps (decodeValue va.decode false va.impls v) := fun v => Keeps.decodeValue (hk.varArgs va hv) _ _ _
    refine ⟨by simp [e2], ?_, ?_, by simp⟩
    · intro i a ha
      obtain ⟨x, hx, hg⟩ := g i a ha
      exact ⟨x, by simp [hx], hg.mono List.prefix_rfl ((Keeps.collect hkv).ok h2)⟩
    · intro va' hva'
      simp only [Option.some.injEq] at hva'
      subst hva'
      refine ⟨xs, by simp, ?_⟩
      rw [← e1]
      exact (collect_ok hkv h2).imp fun a b hab => hab.mono ((Keeps.decodeArgList _ _ hk.arguments _).ok h1) List.prefix_rfl
  | none =>
    rw [hv] at h
    dsimp only at h
    split at h
    · rw [D.fail_ok_iff] at h; exact h.elim
    · rw [D.pure_ok_iff] at h
      obtain ⟨rfl, rfl⟩ := h
      refine ⟨by simp [e2], g, by simp, fun _ => ?_⟩
      simpa using e1.symm

theorem decodeArgs_stop {s : Struct E S V} (hk : s.Keeps) {node : SpannedNode S} {c : Ctx E S} {r}
    (h : (decodeArgs s node c).stop = some r) :
    (∃ (i : Nat) (a : Arg E S V) (v : Value S), s.arguments[i]? = some a ∧ node.value.arguments[i]? = some v ∧
      StopsIn c (decodeValue a.decode a.option a.impls v) r) ∨
    (∃ (va : VarArgs E S V) (i : Nat) (v : Value S), s.varArgs = some va ∧ s.arguments.length ≤ i ∧ node.value.arguments[i]? = some v ∧
      StopsIn c (decodeValue va.decode false va.impls v) r) ∨
    (∃ c', c.errors <+: c'.errors ∧
      ((∃ (i : Nat) (a : Arg E S V), s.arguments[i]? = some a ∧ node.value.arguments.length ≤ i ∧ absent a.default a.option = none ∧
        r = some (DErr.missingIn node (argError a.field), c')) ∨
       (∃ v, s.varArgs = none ∧ node.value.arguments[s.arguments.length]? = some v ∧ r = some (unexpectedArgument v, c')))) := by
  unfold decodeArgs at h
  rw [stop_bind] at h
  rcases h with h | ⟨⟨env', rest⟩, c1, h1, h⟩
  · obtain ⟨i, a, ha, ⟨v, hv, hs⟩ | ⟨h1, h2, c', h3, h4⟩⟩ := decodeArgList_stop hk.arguments h
    · exact .inl ⟨i, a, v, ha, hv, hs⟩
    · exact .inr (.inr ⟨c', h3, .inl ⟨i, a, ha, by simpa using h1, h2, h4⟩⟩)
  · obtain ⟨e1, -, -⟩ := decodeArgList_ok hk.arguments h1
    have hp := (Keeps.decodeArgList _ _ hk.arguments _).ok h1
    cases hv : s.varArgs with
    | some va =>
      rw [hv] at h
      dsimp only at h
      rw [stop_bind] at h
      rcases h with h | ⟨_, _, _, h⟩
      · obtain ⟨v, hvm, hs⟩ := collect_stop (fun v => Keeps.decodeValue (hk.varArgs va hv) _ _ _) h
        rw [e1] at hvm
        obtain ⟨j, hj⟩ := List.mem_iff_getElem?.1 hvm
        rw [List.getElem?_drop] at hj
        exact .inr (.inl ⟨va, _, v, rfl, Nat.le_add_right _ _, hj, hs.mono hp⟩)
      · rw [stop_pure] at h; exact h.elim
    | none =>
      rw [hv] at h
      dsimp only at h
      split at h
      · rename_i v t
        rw [stop_fail] at h
        refine .inr (.inr ⟨c1, hp, .inr ⟨_, rfl, ?_, h.symm⟩⟩)
        have : (node.value.arguments.drop s.arguments.length)[0]? = some v := by rw [← e1]; rfl
        simpa using this
      · rw [stop_pure] at h; exact h.elim

end Knuffel
