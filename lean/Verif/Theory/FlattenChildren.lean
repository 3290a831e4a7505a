import Verif.Theory.Flatten
/-!
# A flattened field for children behaves as its fields in line, unless a node comes twice
-/

set_option linter.unusedSectionVars false

namespace Knuffel
variable {E S V α β α' β' : Type} [Externals]

/-- The runs end in the same way, or `B` holds and neither gives a value without a new error. -/
def SameOr (c : Ctx E S) (B : Prop) (R : α → β → Prop) (o : Out E S α) (o' : Out E S β) : Prop :=
  o.Same R o' ∨ (B ∧ ¬ o.Clean c ∧ ¬ o'.Clean c)

theorem not_clean_fst {x : D E S α} {f : α → D E S β} {c : Ctx E S} (kx : Keeps x) (kf : ∀ a, Keeps (f a))
    (h : ¬ (x c).Clean c) : ¬ ((x >>= f) c).Clean c := by
  rintro ⟨b, c', hb, he⟩
  rw [D.bind_ok_iff] at hb
  obtain ⟨a, c1, h1, h2⟩ := hb
  have p1 := kx.ok h1
  have p2 := (kf a).ok h2
  rw [he] at p2
  exact h ⟨a, c1, h1, p2.eq_of_length_le p1.length_le⟩

theorem not_clean_snd {x : D E S α} {f : α → D E S β} {c c1 : Ctx E S} {a : α} (kx : Keeps x) (kf : ∀ a, Keeps (f a))
    (h1 : x c = .ok a c1) (h : ¬ (f a c1).Clean c1) : ¬ ((x >>= f) c).Clean c := by
  rintro ⟨b, c', hb, he⟩
  rw [D.bind_ok h1] at hb
  have p1 := kx.ok h1
  have p2 := (kf a).ok hb
  refine h ⟨b, c', hb, ?_⟩
  rw [he] at p2 ⊢
  exact (p2.eq_of_length_le p1.length_le).symm

theorem sameOr_bind {R : α → β → Prop} {R' : α' → β' → Prop} {x : D E S α} {x' : D E S β} {f : α → D E S α'} {f' : β → D E S β'}
    {c : Ctx E S} {B : Prop} (kx : Keeps x) (kx' : Keeps x') (kf : ∀ a, Keeps (f a)) (kf' : ∀ a, Keeps (f' a))
    (h : SameOr c B R (x c) (x' c))
    (hf : ∀ a b c1, x c = .ok a c1 → R a b → SameOr c1 B R' (f a c1) (f' b c1)) :
    SameOr c B R' ((x >>= f) c) ((x' >>= f') c) := by
  rcases h with h | ⟨hB, h1, h2⟩
  · cases hx : x c with
    | ok a c1 =>
      cases hx' : x' c with
      | ok b c2 =>
        rw [hx, hx'] at h
        obtain ⟨hr, rfl⟩ := h
        rcases hf a b _ hx hr with h3 | ⟨hB, h3, h4⟩
        · left; rw [D.bind_ok hx, D.bind_ok hx']; exact h3
        · right; exact ⟨hB, not_clean_snd kx kf hx h3, not_clean_snd kx' kf' hx' h4⟩
      | err _ _ => rw [hx, hx'] at h; exact h.elim
      | panic => rw [hx, hx'] at h; exact h.elim
    | err e c1 =>
      cases hx' : x' c with
      | err e' c2 => rw [hx, hx'] at h; left; rw [D.bind_err hx, D.bind_err hx']; exact h
      | ok _ _ => rw [hx, hx'] at h; exact h.elim
      | panic => rw [hx, hx'] at h; exact h.elim
    | panic =>
      cases hx' : x' c with
      | panic => left; rw [D.bind_panic hx, D.bind_panic hx']; trivial
      | ok _ _ => rw [hx, hx'] at h; exact h.elim
      | err _ _ => rw [hx, hx'] at h; exact h.elim
  · exact .inr ⟨hB, not_clean_fst kx kf h1, not_clean_fst kx' kf' h2⟩

theorem sameOr_self_bind {R' : α' → β' → Prop} {x : D E S α} {f : α → D E S α'} {f' : α → D E S β'}
    {c : Ctx E S} {B : Prop} (kx : Keeps x) (kf : ∀ a, Keeps (f a)) (kf' : ∀ a, Keeps (f' a))
    (hf : ∀ a c1, x c = .ok a c1 → SameOr c1 B R' (f a c1) (f' a c1)) : SameOr c B R' ((x >>= f) c) ((x >>= f') c) := by
  refine sameOr_bind kx kx kf kf' (.inl (same_refl _)) fun a b c1 h1 hab => ?_
  subst hab
  exact hf a c1 h1

theorem sameOr_pure {R : α → β → Prop} {a : α} {b : β} {B : Prop} (h : R a b) (c : Ctx E S) :
    SameOr c B R ((pure a : D E S α) c) ((pure b : D E S β) c) := .inl ⟨h, rfl⟩

theorem SameOr.mono {R : α → β → Prop} {o : Out E S α} {o' : Out E S β} {c : Ctx E S} {B B' : Prop} (h : SameOr c B R o o')
    (hb : B → B') : SameOr c B' R o o' := by
  rcases h with h | ⟨h1, h2⟩
  · exact .inl h
  · exact .inr ⟨hb h1, h2⟩

/-- The variable of a field agrees with the field of the record. -/
def HoldsC (env : Env V) (ch : Child E S V) (fld : FVal V) : Prop := env.look ch.field = some fld

theorem each2C_congr {env env' : Env V} {ps : List (Child E S V)} {sts} (h : Each2 (HoldsC env) ps sts)
    (he : ∀ p ∈ ps, env'.look p.field = env.look p.field) : Each2 (HoldsC env') ps sts := by
  induction h with
  | nil => exact .nil
  | cons h1 _ ih => exact .cons ((he _ (by simp)).trans h1) (ih fun p hp => he p (by simp [hp]))

/-- The field has been given a node before. -/
def Filled (env : Env V) (ch : Child E S V) : Prop := ∃ y, env.look ch.field = some (.some y)

/-- The result of the arms of the flattened struct against those in line. -/
def ArmsC (n : SpannedNode S) (env : Env V) (ps : List (Child E S V)) (r : Bool × FVal V) (r' : Bool × List (FVal V)) : Prop :=
  r.1 = r'.1 ∧ ∃ env' : Env V, r.2 = .record env' ∧ Each2 (HoldsC env') ps r'.2 ∧
    (∀ g, g ∉ ps.map (·.field) → env'.look g = env.look g) ∧
    ∀ ch ∈ ps, ch.mode = .normal → Filled env' ch → Filled env ch ∨ n.value.nodeName.value = ch.name

theorem insertChildArms_same (n : SpannedNode S) {ps : List (Child E S V)} (hk : ∀ f ∈ ps, f.impls.Keeps ∧ ∀ n, Keeps (f.decoder n))
    (ho : ∀ p ∈ ps, p.Flat) (hd : (ps.map (·.field)).Nodup) {env : Env V} {sts}
    (h : Each2 (HoldsC env) ps sts) (c : Ctx E S) :
    SameOr c (∃ ch ∈ ps, ch.mode = .normal ∧ n.value.nodeName.value = ch.name ∧ Filled env ch) (ArmsC n env ps)
      (insertChildArms n ps (.record env) c) (childArms n (ps.zip sts) c) := by
  induction ps generalizing env sts c with
  | nil => cases h; exact .inl ⟨⟨rfl, env, rfl, .nil, fun _ _ => rfl, by simp⟩, rfl⟩
  | cons p ps ih =>
    cases h with
    | @cons _ st _ sts h1 h2 =>
      rw [List.zip_cons_cons, insertChildArms, childArms, h2.zip_snd]
      rw [List.map_cons, List.nodup_cons] at hd
      have ho' : ∀ q ∈ ps, q.Flat := fun q hq => ho q (by simp [hq])
      have hk' : ∀ f ∈ ps, f.impls.Keeps ∧ ∀ n, Keeps (f.decoder n) := fun q hq => hk q (by simp [hq])
      have hne : ∀ q ∈ ps, q.field ≠ p.field := fun q hq e => hd.1 (by rw [← e]; exact List.mem_map_of_mem hq)
      have hp := ho p (by simp)
      have hkp := hk p (by simp)
      have hl : env.look p.field = some st := h1
      have upd : ∀ x, Each2 (HoldsC (Env.set p.field x env)) (p :: ps) (x :: sts) := fun x =>
        .cons (look_set_same (by rw [hl]; rfl) x) (each2C_congr h2 fun q hq => look_set_ne (hne q hq) _ _)
      have frame : ∀ x g, g ∉ (p :: ps).map (·.field) → (Env.set p.field x env).look g = env.look g := by
        intro x g hg
        rw [List.map_cons, List.mem_cons, not_or] at hg
        exact look_set_ne hg.1 _ _
      -- only the field `p` is filled
      have fill : ∀ x, (p.mode = .normal → n.value.nodeName.value = p.name) →
          ∀ ch ∈ p :: ps, ch.mode = .normal → Filled (Env.set p.field x env) ch → Filled env ch ∨ n.value.nodeName.value = ch.name := by
        intro x hx ch hch hm hfi
        rcases List.mem_cons.1 hch with rfl | hch
        · exact .inr (hx hm)
        · left
          obtain ⟨y, hy⟩ := hfi
          rw [look_set_ne (hne ch hch)] at hy
          exact ⟨y, hy⟩
      have done : ∀ x (c : Ctx E S), (p.mode = .normal → n.value.nodeName.value = p.name) →
          ArmsC n env (p :: ps) (true, FVal.setField (.record env) p.field x) (true, x :: sts) := fun x c hx =>
        ⟨rfl, _, rfl, upd x, frame x, fill x hx⟩
      -- going on with the rest
      have rest : ∀ (env1 : Env V) (st' : FVal V) (c : Ctx E S), HoldsC env1 p st' → Each2 (HoldsC env1) ps sts →
          (∀ g, g ∉ (p :: ps).map (·.field) → env1.look g = env.look g) →
          (∀ ch ∈ ps, env1.look ch.field = env.look ch.field) →
          (p.mode = .normal → env1.look p.field = env.look p.field) →
          SameOr c (∃ ch ∈ p :: ps, ch.mode = .normal ∧ n.value.nodeName.value = ch.name ∧ Filled env ch) (ArmsC n env (p :: ps))
            (insertChildArms n ps (.record env1) c)
            ((childArms n (ps.zip sts) >>= fun t => pure (t.1, st' :: t.2) : D E S _) c) := by
        intro env1 st' c hp1 h2' hfr hsame hpsame
        have := (ih hk' ho' hd.2 h2' c).mono (B' := ∃ ch ∈ p :: ps, ch.mode = .normal ∧ n.value.nodeName.value = ch.name ∧ Filled env ch) (by
          rintro ⟨ch, hch, hm, hn, y, hy⟩
          exact ⟨ch, List.mem_cons_of_mem _ hch, hm, hn, y, by rw [← hsame ch hch]; exact hy⟩)
        have key : SameOr c (∃ ch ∈ p :: ps, ch.mode = .normal ∧ n.value.nodeName.value = ch.name ∧ Filled env ch) (ArmsC n env (p :: ps))
            ((insertChildArms n ps (.record env1) >>= pure) c)
            ((childArms n (ps.zip sts) >>= fun t => pure (t.1, st' :: t.2) : D E S _) c) := by
          refine sameOr_bind (Keeps.insertChildArms _ _ _ hk') (Keeps.childArms _ _ ?_) (fun _ => Keeps.pure _) (fun _ => Keeps.pure _)
            this fun a b c1 _ hab => sameOr_pure ?_ c1
          · intro x hx
            exact hk' _ (List.of_mem_zip hx).1
          obtain ⟨e1, env2, e2, h3, h4, h5⟩ := hab
          refine ⟨e1, env2, e2, .cons ((h4 _ hd.1).trans hp1) h3, fun g hg => ?_, ?_⟩
          · rw [h4 g (fun hm => hg (by rw [List.map_cons]; exact List.mem_cons_of_mem _ hm)), hfr g hg]
          · intro ch hch hm hfi
            rcases List.mem_cons.1 hch with rfl | hch
            · left
              obtain ⟨y, hy⟩ := hfi
              rw [h4 _ hd.1, hpsame hm] at hy
              exact ⟨y, hy⟩
            · rcases h5 ch hch hm hfi with ⟨y, hy⟩ | h
              · left; rw [hsame ch hch] at hy; exact ⟨y, hy⟩
              · exact .inr h
        rwa [bind_pure] at key
      by_cases hf : p.mode = .flatten
      · rw [if_pos hf, if_pos hf]
        rw [field_record, hl, Option.getD_some]
        refine sameOr_self_bind (hkp.1.insertChild _ _) ?_ ?_ fun r c1 _ => ?_
        · intro r
          exact Keeps.ite (Keeps.pure _) (Keeps.insertChildArms _ _ _ hk')
        · intro r
          exact Keeps.ite (Keeps.pure _) ((Keeps.childArms _ _ fun x hx => hk' _ (List.of_mem_zip hx).1).bind fun _ => Keeps.pure _)
        cases hb : r.1 with
        | true =>
          rw [if_pos rfl, if_pos rfl]
          exact sameOr_pure (done _ c1 (by rw [hf]; simp)) c1
        | false =>
          rw [if_neg (by simp), if_neg (by simp)]
          exact rest _ _ c1 (look_set_same (by rw [hl]; rfl) _) (each2C_congr h2 fun q hq => look_set_ne (hne q hq) _ _) (frame _)
            (fun q hq => look_set_ne (hne q hq) _ _) (by rw [hf]; simp)
      · rw [if_neg hf, if_neg hf]
        by_cases hn : n.value.nodeName.value = p.name
        · rw [if_pos hn, if_pos hn]
          by_cases hb : p.mode = .bool
          · rw [if_pos hb]
            unfold childArm
            rw [hb]
            dsimp only
            rw [bind_assoc]
            refine sameOr_self_bind (Keeps.checkFlagNode n) ?_ ?_ fun _ c1 _ => ?_
            · intro _
              split
              · exact (Keeps.emit _).bind fun _ => Keeps.pure _
              · exact Keeps.pure _
            · intro _
              refine Keeps.bind ?_ fun _ => Keeps.pure _
              split
              · exact (Keeps.emit _).bind fun _ => Keeps.pure _
              · exact Keeps.pure _
            rw [field_record, hl, Option.getD_some]
            by_cases hst : st = .bool true
            · subst hst
              dsimp only
              rw [bind_assoc]
              refine sameOr_self_bind (Keeps.emit _) (fun _ => Keeps.pure _) (fun _ => Keeps.pure _) fun _ c2 _ => sameOr_pure ?_ c2
              exact ⟨rfl, env, rfl, .cons h1 h2, fun _ _ => rfl, fun _ _ _ h => .inl h⟩
            · have e1 : SameOr c1 (∃ ch ∈ p :: ps, ch.mode = .normal ∧ n.value.nodeName.value = ch.name ∧ Filled env ch)
                  (ArmsC n env (p :: ps)) ((pure (true, FVal.setField (.record env) p.field (.bool true)) : D E S _) c1)
                  (((pure (.bool true) : D E S (FVal V)) >>= fun v => pure (true, v :: sts)) c1) := by
                rw [pure_bind]
                exact sameOr_pure (done _ c1 (by rw [hb]; simp)) c1
              cases st with
              | bool x =>
                cases x with
                | true => exact absurd rfl hst
                | false => exact e1
              | _ => exact e1
          · rw [if_neg hb]
            have hm : p.mode = .normal := by
              unfold Child.Flat at hp
              cases hm : p.mode with
              | normal => rfl
              | multi => rw [hm] at hp; exact hp.elim
              | bool => exact absurd hm hb
              | flatten => exact absurd hm hf
            rw [field_record, hl, Option.getD_some]
            unfold childArm
            rw [hm]
            dsimp only
            by_cases hs : st.isSome = true
            · -- the node comes twice
              right
              simp only [hs, if_true]
              have hfi : Filled env p := by
                cases st with
                | some y => exact ⟨y, hl⟩
                | _ => simp [FVal.isSome] at hs
              refine ⟨⟨p, by simp, hm, hn, hfi⟩, ?_, ?_⟩
              · refine not_clean_fst (Keeps.emit _) (fun _ => (hkp.2 n).bind fun _ => ?_) ?_
                · exact Keeps.ite (Keeps.pure _) (Keeps.pure _)
                · rintro ⟨a, c', h, he⟩
                  rw [D.emit_ok_iff] at h
                  rw [← h] at he
                  simp [Ctx.emitError] at he
              · rintro ⟨a, c', h, he⟩
                rw [D.bind_ok_iff] at h
                obtain ⟨_, _, h, _⟩ := h
                rw [D.fail_ok_iff] at h
                exact h
            · simp only [hs, Bool.false_eq_true, if_false]
              rw [bind_assoc]
              refine sameOr_self_bind (hkp.2 n) (fun _ => Keeps.ite (Keeps.pure _) (Keeps.pure _)) (fun _ => ?_) fun v c1 _ => ?_
              · rw [pure_bind]; exact Keeps.pure _
              · rw [if_neg (by simp), pure_bind]
                exact sameOr_pure (done _ c1 (fun _ => hn)) c1
        · rw [if_neg hn, if_neg hn]
          exact rest env st c h1 h2 (fun _ _ => rfl) (fun _ _ => rfl) (fun _ => rfl)

theorem childArms_append (n : SpannedNode S) (l1 l2 : List (Child E S V × FVal V)) :
    childArms n (l1 ++ l2) = (childArms n l1 >>= fun r =>
      if r.1 then pure (true, r.2 ++ l2.map (·.2)) else childArms n l2 >>= fun t => pure (t.1, r.2 ++ t.2)) := by
  induction l1 with
  | nil => simp [childArms]
  | cons x l1 ih =>
    obtain ⟨p, st⟩ := x
    rw [List.cons_append, childArms, childArms]
    have fin : ∀ st' : FVal V, (childArms n (l1 ++ l2) >>= fun t => pure (t.1, st' :: t.2) : D E S _) =
        (do let t ← childArms n l1; pure (t.1, st' :: t.2)) >>= fun r =>
          if r.1 then pure (true, r.2 ++ l2.map (·.2)) else childArms n l2 >>= fun t => pure (t.1, r.2 ++ t.2) := by
      intro st'
      rw [ih]
      simp only [bind_assoc, pure_bind]
      congr 1
      funext r
      cases r.1 <;> simp
    by_cases hf : p.mode = .flatten
    · simp only [hf, if_true, bind_assoc]
      congr 1
      funext r
      cases hr : r.1 with
      | true => simp
      | false => simp only [Bool.false_eq_true, if_false]; exact fin _
    · simp only [hf, if_false]
      by_cases hn : n.value.nodeName.value = p.name
      · simp only [hn, if_true, bind_assoc]
        congr 1
        funext x
        simp
      · simp only [hn, if_false]
        exact fin _

/-- The variables of the struct with the flattened field and of the one with the fields in line. -/
def StatesC (pre : List (Child E S V)) (t : Struct E S V) (post : List (Child E S V)) (env0 : Env V)
    (before : List (SpannedNode S)) (sts sts' : List (FVal V)) : Prop :=
  ∃ (a b : List (FVal V)) (env : Env V) (mid : List (FVal V)), sts = a ++ .record env :: b ∧ sts' = a ++ mid ++ b ∧
    a.length = pre.length ∧ b.length = post.length ∧
    Each2 (HoldsC env) t.children mid ∧ (∀ g, g ∉ t.children.map (·.field) → env.look g = env0.look g) ∧
    ∀ ch ∈ t.children, ch.mode = .normal → Filled env ch → ∃ n ∈ before, n.value.nodeName.value = ch.name

theorem childArms_inline (n : SpannedNode S) {pre post : List (Child E S V)} {fc : Child E S V} {t : Struct E S V}
    {env0 : Env V} (hf : fc.mode = .flatten) (hp : fc.impls.part = t.part)
    (hk : ∀ f ∈ pre ++ t.children ++ post, f.impls.Keeps ∧ ∀ n, Keeps (f.decoder n))
    (ho : ∀ p ∈ t.children, p.Flat) (hd : (t.children.map (·.field)).Nodup)
    {before : List (SpannedNode S)} {sts sts'} (h : StatesC pre t post env0 before sts sts') (c : Ctx E S) :
    SameOr c (∃ ch ∈ t.children, ch.mode = .normal ∧ n.value.nodeName.value = ch.name ∧ ∃ m ∈ before, m.value.nodeName.value = ch.name)
      (fun r r' => r.1 = r'.1 ∧ StatesC pre t post env0 (before ++ [n]) r.2 r'.2)
      (childArms n ((pre ++ fc :: post).zip sts) c) (childArms n ((pre ++ t.children ++ post).zip sts') c) := by
  obtain ⟨a, b, env, mid, rfl, rfl, ha, hb, hm, hfr, hfill⟩ := h
  have hkpre : ∀ f ∈ pre, f.impls.Keeps ∧ ∀ n, Keeps (f.decoder n) := fun f hf => hk f (by simp [hf])
  have hkt : ∀ f ∈ t.children, f.impls.Keeps ∧ ∀ n, Keeps (f.decoder n) := fun f hf => hk f (by simp [hf])
  have hkpost : ∀ f ∈ post, f.impls.Keeps ∧ ∀ n, Keeps (f.decoder n) := fun f hf => hk f (by simp [hf])
  have kz : ∀ {ps : List (Child E S V)} {l : List (FVal V)}, (∀ f ∈ ps, f.impls.Keeps ∧ ∀ n, Keeps (f.decoder n)) →
      Keeps (childArms n (ps.zip l)) := fun h => Keeps.childArms _ _ fun x hx => h _ (List.of_mem_zip hx).1
  rw [List.append_assoc pre, List.append_assoc a, List.zip_append ha.symm, List.zip_append ha.symm, List.zip_cons_cons,
    List.zip_append hm.length, childArms_append, childArms_append]
  have hi : fc.impls.part.insertChild (.record env) n = insertChildArms n t.children (.record env) := by
    rw [hp]; rfl
  have e1 : childArms n ((fc, .record env) :: post.zip b) = (insertChildArms n t.children (.record env) >>= fun r =>
      if r.1 then pure (true, r.2 :: b) else childArms n (post.zip b) >>= fun t => pure (t.1, r.2 :: t.2)) := by
    rw [childArms, if_pos hf, hi, ← List.unzip_snd, List.unzip_zip hb.symm]
  have e2 : childArms n (t.children.zip mid ++ post.zip b) = (childArms n (t.children.zip mid) >>= fun r =>
      if r.1 then pure (true, r.2 ++ b) else childArms n (post.zip b) >>= fun t => pure (t.1, r.2 ++ t.2)) := by
    rw [childArms_append, ← List.unzip_snd, List.unzip_zip hb.symm]
  have hmap : (post.zip b).map (·.2) = b := by rw [← List.unzip_snd, List.unzip_zip hb.symm]
  have k1 : Keeps (childArms n ((fc, .record env) :: post.zip b)) := by
    rw [e1]
    exact (Keeps.insertChildArms _ _ _ hkt).bind fun _ => Keeps.ite (Keeps.pure _) ((kz hkpost).bind fun _ => Keeps.pure _)
  have k2 : Keeps (childArms n (t.children.zip mid ++ post.zip b)) := by
    rw [e2]
    exact (kz hkt).bind fun _ => Keeps.ite (Keeps.pure _) ((kz hkpost).bind fun _ => Keeps.pure _)
  refine sameOr_self_bind (kz hkpre) (fun _ => Keeps.ite (Keeps.pure _) (k1.bind fun _ => Keeps.pure _))
    (fun _ => Keeps.ite (Keeps.pure _) (k2.bind fun _ => Keeps.pure _)) fun r c1 h1 => ?_
  have hlen : r.2.length = pre.length := by
    rw [childArms_length h1, List.length_zip, ha, Nat.min_self]
  have more : ∀ {env : Env V}, (∀ ch ∈ t.children, ch.mode = .normal → Filled env ch → ∃ n ∈ before, n.value.nodeName.value = ch.name) →
      ∀ ch ∈ t.children, ch.mode = .normal → Filled env ch → ∃ m ∈ before ++ [n], m.value.nodeName.value = ch.name := by
    intro env h ch hch hm hfi
    obtain ⟨m, hmm, he⟩ := h ch hch hm hfi
    exact ⟨m, by simp [hmm], he⟩
  cases hr : r.1 with
  | true =>
    rw [if_pos rfl, if_pos rfl]
    refine sameOr_pure ⟨rfl, r.2, b, env, mid, ?_, ?_, hlen, hb, hm, hfr, more hfill⟩ c1
    · simp [hmap]
    · simp [hmap, hm.zip_snd]
  | false =>
    rw [if_neg (by simp), if_neg (by simp), e1, e2, bind_assoc, bind_assoc]
    have kr : ∀ (l : List (FVal V)) (r : Bool × FVal V), Keeps ((if r.1 then pure (true, r.2 :: b) else childArms n (post.zip b) >>=
        fun t => pure (t.1, r.2 :: t.2)) >>= fun t => pure (t.1, l ++ t.2) : D E S _) := fun l r =>
      (Keeps.ite (Keeps.pure _) ((kz hkpost).bind fun _ => Keeps.pure _)).bind fun _ => Keeps.pure _
    have kr' : ∀ (l : List (FVal V)) (r : Bool × List (FVal V)), Keeps ((if r.1 then pure (true, r.2 ++ b) else childArms n (post.zip b) >>=
        fun t => pure (t.1, r.2 ++ t.2)) >>= fun t => pure (t.1, l ++ t.2) : D E S _) := fun l r =>
      (Keeps.ite (Keeps.pure _) ((kz hkpost).bind fun _ => Keeps.pure _)).bind fun _ => Keeps.pure _
    refine sameOr_bind (Keeps.insertChildArms _ _ _ hkt) (kz hkt) (fun x => kr _ x) (fun x => kr' _ x)
      ((insertChildArms_same n hkt ho hd hm c1).mono ?_) fun x y c2 _ hxy => ?_
    · rintro ⟨ch, hch, hmode, hname, hfi⟩
      exact ⟨ch, hch, hmode, hname, hfill ch hch hmode hfi⟩
    obtain ⟨e1, env2, e2, h3, h4, h5⟩ := hxy
    have hfill2 : ∀ ch ∈ t.children, ch.mode = .normal → Filled env2 ch → ∃ m ∈ before ++ [n], m.value.nodeName.value = ch.name := by
      intro ch hch hmode hfi
      rcases h5 ch hch hmode hfi with hfi | hname
      · exact more hfill ch hch hmode hfi
      · exact ⟨n, by simp, hname⟩
    have hfr2 : ∀ g, g ∉ t.children.map (·.field) → env2.look g = env0.look g := fun g hg => by rw [h4 g hg, hfr g hg]
    rw [e1, e2]
    cases hy : y.1 with
    | true =>
      rw [if_pos rfl, if_pos rfl, pure_bind, pure_bind]
      refine sameOr_pure ⟨rfl, r.2, b, env2, y.2, rfl, ?_, hlen, hb, h3, hfr2, hfill2⟩ c2
      simp
    | false =>
      rw [if_neg (by simp), if_neg (by simp), bind_assoc, bind_assoc]
      refine .inl (same_self_bind fun z c3 h5 => ?_)
      rw [pure_bind, pure_bind]
      refine same_pure ⟨rfl, r.2, z.2, env2, y.2, rfl, ?_, hlen, ?_, h3, hfr2, hfill2⟩ c3
      · simp
      · rw [childArms_length h5, List.length_zip, hb, Nat.min_self]

theorem doubled_of {before : List (SpannedNode S)} {n : SpannedNode S} {l : List (SpannedNode S)} {nm : Str}
    (h : n.value.nodeName.value = nm) (hb : ∃ m ∈ before, m.value.nodeName.value = nm) :
    2 ≤ ((before ++ n :: l).filter fun m => m.value.nodeName.value = nm).length := by
  obtain ⟨m, hm, he⟩ := hb
  rw [List.filter_append, List.filter_cons_of_pos (by simpa using h), List.length_append, List.length_cons]
  have : 0 < (before.filter fun m => decide (m.value.nodeName.value = nm)).length :=
    List.length_pos_of_mem (List.mem_filter.2 ⟨hm, by simpa using he⟩)
  omega

theorem childLoop_inline {s t s' : Struct E S V} {pre post : List (Child E S V)} {fc : Child E S V}
    {env0 : Env V} (hs : s.children = pre ++ fc :: post) (hs' : s' = { s with children := pre ++ t.children ++ post })
    (hks : s.Keeps) (hks' : s'.Keeps)
    (hf : fc.mode = .flatten) (hp : fc.impls.part = t.part)
    (ho : ∀ p ∈ t.children, p.Flat) (hd : (t.children.map (·.field)).Nodup)
    (before l : List (SpannedNode S)) {sts sts'} (h : StatesC pre t post env0 before sts sts') (var) (c : Ctx E S) :
    SameOr c (Doubled t (before ++ l)) (fun r r' => r.2 = r'.2 ∧ ∃ b, StatesC pre t post env0 b r.1 r'.1)
      (childLoop s l sts var c) (childLoop s' l sts' var c) := by
  induction l generalizing sts sts' var c before with
  | nil => exact sameOr_pure ⟨rfl, before, h⟩ c
  | cons n l ih =>
    have hv : s'.varChildren = s.varChildren := by rw [hs']
    have hpr : s'.children = pre ++ t.children ++ post := by rw [hs']
    have hk' : ∀ f ∈ pre ++ t.children ++ post, f.impls.Keeps ∧ ∀ n, Keeps (f.decoder n) := by rw [← hpr]; exact hks'.children
    have kz : ∀ {ps : List (Child E S V)} {l : List (FVal V)}, (∀ f ∈ ps, f.impls.Keeps ∧ ∀ n, Keeps (f.decoder n)) →
        Keeps (childArms n (ps.zip l)) := fun h => Keeps.childArms _ _ fun x hx => h _ (List.of_mem_zip hx).1
    have kv : ∀ v ∈ s.varChildren, ∀ n, Keeps (v.decoder n) := hks.varChildren
    have kcont : ∀ (s1 : Struct E S V) (_ : s1.Keeps) (r : Bool × List (FVal V)), Keeps (if r.1 = true then childLoop s1 l r.2 var
        else match s.varChildren with
          | some vc => do
            let v ← vc.decoder n
            childLoop s1 l r.2 (var ++ [v])
          | none => do
            D.emit (unexpectedNode n)
            childLoop s1 l r.2 var) := by
      intro s1 hs1 r
      refine Keeps.ite (Keeps.childLoop hs1 _ _ _) ?_
      cases hvc : s.varChildren with
      | none => exact (Keeps.emit _).bind fun _ => Keeps.childLoop hs1 _ _ _
      | some vc => exact (kv vc (by rw [hvc]; simp) n).bind fun _ => Keeps.childLoop hs1 _ _ _
    have e : before ++ n :: l = (before ++ [n]) ++ l := by simp
    rw [childLoop, childLoop, hs, hpr, hv]
    refine sameOr_bind (kz (by rw [← hs]; exact hks.children)) (kz hk') (kcont s hks) (kcont s' hks')
      ((childArms_inline n hf hp hk' ho hd h c).mono ?_) fun r r' c1 _ hr => ?_
    · rintro ⟨ch, hch, hm, hn, hb⟩
      exact ⟨ch, hch, hm, doubled_of hn hb⟩
    obtain ⟨e1, h1⟩ := hr
    rw [e1, e]
    cases hb : r'.1 with
    | true => rw [if_pos rfl, if_pos rfl]; exact ih _ h1 var c1
    | false =>
      rw [if_neg (by simp), if_neg (by simp)]
      cases hvc : s.varChildren with
      | none =>
        dsimp only
        exact sameOr_self_bind (Keeps.emit _) (fun _ => Keeps.childLoop hks _ _ _) (fun _ => Keeps.childLoop hks' _ _ _)
          fun _ c2 _ => ih _ h1 _ c2
      | some vc =>
        dsimp only
        exact sameOr_self_bind (kv vc (by rw [hvc]; simp) n) (fun _ => Keeps.childLoop hks _ _ _) (fun _ => Keeps.childLoop hks' _ _ _)
          fun _ c2 _ => ih _ h1 _ c2

theorem finishChildren_append (sp : Option S) (l1 l2 : List (Child E S V × FVal V)) :
    finishChildren (E := E) sp (l1 ++ l2) = (finishChildren sp l1 >>= fun a => finishChildren sp l2 >>= fun b => pure (a ++ b)) := by
  induction l1 with
  | nil => simp [finishChildren]
  | cons x l1 ih =>
    obtain ⟨p, st⟩ := x
    rw [List.cons_append, finishChildren, finishChildren, ih]
    simp [bind_assoc]

theorem finishChildren_holds {env : Env V} {ps : List (Child E S V)} {sts} (h : Each2 (HoldsC env) ps sts)
    (ho : ∀ p ∈ ps, p.Flat) (sp : Option S) :
    finishChildren (E := E) sp (ps.zip sts) = pure (ps.map fun p => (p.field, (env.look p.field).getD .none)) := by
  induction h with
  | nil => rfl
  | @cons p st ps sts h1 h2 ih =>
    have hfin : p.finish (E := E) sp st = pure ((env.look p.field).getD .none) := by
      have h1 : env.look p.field = some st := h1
      have hp := ho p (by simp)
      rw [h1]
      unfold Child.finish
      unfold Child.Flat at hp
      cases hm : p.mode with
      | normal =>
        rw [hm] at hp
        dsimp only at hp ⊢
        rw [hp.1, hp.2]; rfl
      | multi => rw [hm] at hp; exact hp.elim
      | bool => rfl
      | flatten => rfl
    rw [List.zip_cons_cons, finishChildren, hfin, ih fun p hp => ho p (by simp [hp])]
    rfl

theorem each2C_init {env0 : Env V} {ps : List (Child E S V)} (ho : ∀ p ∈ ps, p.Flat) (h : ∀ p ∈ ps, env0.look p.field = some p.unset) :
    Each2 (HoldsC env0) ps (ps.map (·.init)) := by
  induction ps with
  | nil => exact .nil
  | cons p ps ih =>
    refine .cons ?_ (ih (fun q hq => ho q (by simp [hq])) fun q hq => h q (by simp [hq]))
    show env0.look p.field = some p.init
    rw [h p (by simp)]
    have hp := ho p (by simp)
    unfold Child.unset Child.init
    unfold Child.Flat at hp
    cases hm : p.mode with
    | multi => rw [hm] at hp; exact hp.elim
    | normal => rfl
    | bool => rfl
    | flatten => rfl

theorem each2C_isSome {env : Env V} {ps : List (Child E S V)} {sts} (h : Each2 (HoldsC env) ps sts) :
    ∀ g ∈ ps.map (·.field), (env.look g).isSome := by
  induction h with
  | nil => simp
  | cons h1 _ ih =>
    intro g hg
    rw [List.map_cons, List.mem_cons] at hg
    rcases hg with rfl | hg
    · have := h1; unfold HoldsC at this; rw [this]; rfl
    · exact ih g hg

theorem inlineChildren_keeps {s t s' : Struct E S V} {fc : Child E S V} {env0 : Env V} (hi : InlineChildren s fc t env0 s')
    (hs : s.Keeps) (ht : t.Keeps) : s'.Keeps := by
  obtain ⟨pre, post, h, rfl⟩ := hi.split
  refine ⟨hs.spans, hs.nodeNames, hs.typeNames, hs.arguments, hs.varArgs, hs.properties, hs.varProps, ?_, hs.varChildren⟩
  intro f hf
  simp only [List.mem_append] at hf
  rcases hf with (hf | hf) | hf
  · exact hs.children f (by rw [h]; simp [hf])
  · exact ht.children f hf
  · exact hs.children f (by rw [h]; simp [hf])

theorem decodeChildren_inline {s t s' : Struct E S V} {fc : Child E S V} {env0 : Env V} (hi : InlineChildren s fc t env0 s')
    (hs : s.Keeps) (ht : t.Keeps) (hp : fc.impls.part = t.part) (ho : ∀ p ∈ t.children, p.Flat)
    (sp : Option S) (nodes : List (SpannedNode S)) (c : Ctx E S) :
    SameOr c (Doubled t nodes) (Inlined fc.field (t.children.map (·.field)) env0)
      (decodeChildren s sp nodes c) (decodeChildren s' sp nodes c) := by
  have hks' := inlineChildren_keeps hi hs ht
  obtain ⟨pre, post, hsp, hs'⟩ := hi.split
  have hpr : s'.children = pre ++ t.children ++ post := by rw [hs']
  have hv : s'.varChildren = s.varChildren := by rw [hs']
  rw [decodeChildren, decodeChildren]
  have h0 : StatesC pre t post env0 [] (s.children.map (·.init)) (s'.children.map (·.init)) := by
    refine ⟨pre.map (·.init), post.map (·.init), env0, t.children.map (·.init), ?_, ?_, by simp, by simp,
      each2C_init ho hi.unset, fun _ _ => rfl, ?_⟩
    · rw [hsp, List.map_append, List.map_cons]
      simp [Child.init, hi.flatten, hi.default]
    · rw [hpr]; simp
    · intro ch hch hm hfi
      obtain ⟨y, hy⟩ := hfi
      rw [hi.unset ch hch] at hy
      simp [Child.unset, hm] at hy
  have kfin : ∀ (l : List (Child E S V)) (r : List (FVal V) × List (FVal V)), Keeps ((do
      let env ← finishChildren sp (l.zip r.1)
      match s.varChildren with
      | some vc => pure (env ++ [(vc.field, .list r.2)])
      | none => pure env : D E S (Env V))) := by
    intro l r
    refine (Keeps.finishChildren _ _).bind fun _ => ?_
    cases s.varChildren with
    | none => exact Keeps.pure _
    | some _ => exact Keeps.pure _
  rw [hv]
  have loop := childLoop_inline hsp hs' hs hks' hi.flatten hp ho hi.nodup [] nodes h0 [] c
  refine sameOr_bind (Keeps.childLoop hs _ _ _) (Keeps.childLoop hks' _ _ _) (kfin _) (kfin _) loop fun r r' c1 _ hr => .inl ?_
  obtain ⟨e, _, a, b, env, mid, e1, e2, ha, hb, hm, hfr, -⟩ := hr
  rw [hsp, hpr, e1, e2]
  rw [List.append_assoc pre, List.append_assoc a, List.zip_append ha.symm, List.zip_append ha.symm, List.zip_cons_cons,
    List.zip_append hm.length, finishChildren_append, finishChildren_append, finishChildren_append, finishChildren,
    finishChildren_holds hm ho]
  simp only [bind_assoc, pure_bind]
  refine same_self_bind fun A c2 _ => ?_
  have hfin : fc.finish (E := E) sp (.record env) = pure (.record env) := by
    unfold Child.finish; rw [hi.flatten]
  rw [hfin, pure_bind]
  refine same_self_bind fun B c3 _ => ?_
  have key : ∀ T : Env V, Inlined fc.field (t.children.map (·.field)) env0 (A ++ (fc.field, .record env) :: (B ++ T))
      (A ++ t.children.map (fun p => (p.field, (env.look p.field).getD .none)) ++ (B ++ T)) := fun T =>
    ⟨A, B ++ T, env, rfl, by rw [List.map_map]; rfl, each2C_isSome hm, hfr⟩
  cases s.varChildren with
  | none =>
    refine same_pure ?_ c3
    simpa using key []
  | some vc =>
    dsimp only
    refine same_pure ?_ c3
    rw [← e]
    simpa using key [(vc.field, .list r.2)]

end Knuffel
