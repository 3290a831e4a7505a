import Verif.Spec.Flatten
import Verif.Theory.DerivePart
/-!
# A flattened field behaves as its fields in line
-/

set_option linter.unusedSectionVars false

namespace Knuffel
variable {E S V α β α' β' : Type} [Externals]

/-! ### Runs that end in the same way -/

theorem Out.Same.mono {R R' : α → β → Prop} {o : Out E S α} {o' : Out E S β} (h : o.Same R o') (hr : ∀ a b, R a b → R' a b) :
    o.Same R' o' := by
  cases o <;> cases o' <;> simp_all [Out.Same]

theorem same_bind {R : α → β → Prop} {R' : α' → β' → Prop} {x : D E S α} {x' : D E S β} {f : α → D E S α'} {f' : β → D E S β'}
    {c : Ctx E S} (h : (x c).Same R (x' c)) (hf : ∀ a b c1, x c = .ok a c1 → R a b → (f a c1).Same R' (f' b c1)) :
    ((x >>= f) c).Same R' ((x' >>= f') c) := by
  cases hx : x c with
  | ok a c1 =>
    cases hx' : x' c with
    | ok b c2 =>
      rw [hx, hx'] at h
      obtain ⟨hr, rfl⟩ := h
      rw [D.bind_ok hx, D.bind_ok hx']
      exact hf a b _ hx hr
    | err _ _ => rw [hx, hx'] at h; exact h.elim
    | panic => rw [hx, hx'] at h; exact h.elim
  | err e c1 =>
    cases hx' : x' c with
    | err e' c2 => rw [hx, hx'] at h; rw [D.bind_err hx, D.bind_err hx']; exact h
    | ok _ _ => rw [hx, hx'] at h; exact h.elim
    | panic => rw [hx, hx'] at h; exact h.elim
  | panic =>
    cases hx' : x' c with
    | panic => rw [D.bind_panic hx, D.bind_panic hx']; trivial
    | ok _ _ => rw [hx, hx'] at h; exact h.elim
    | err _ _ => rw [hx, hx'] at h; exact h.elim

theorem same_refl (o : Out E S α) : o.Same (· = ·) o := by cases o <;> simp [Out.Same]

theorem same_pure {R : α → β → Prop} {a : α} {b : β} (h : R a b) (c : Ctx E S) :
    ((pure a : D E S α) c).Same R ((pure b : D E S β) c) := ⟨h, rfl⟩

theorem same_self_bind {R' : α' → β' → Prop} {x : D E S α} {f : α → D E S α'} {f' : α → D E S β'}
    {c : Ctx E S} (hf : ∀ a c1, x c = .ok a c1 → (f a c1).Same R' (f' a c1)) : ((x >>= f) c).Same R' ((x >>= f') c) := by
  refine same_bind (same_refl _) fun a b c1 h1 hab => ?_
  subst hab
  exact hf a c1 h1

/-! ### Records -/

theorem field_record (f : AttrAccess) (env : Env V) : FVal.field f (.record env) = (env.look f).getD .none := rfl

theorem look_set_same {f : AttrAccess} {env : Env V} (h : (env.look f).isSome) (x : FVal V) : (Env.set f x env).look f = some x := by
  induction env with
  | nil => simp [Env.look] at h
  | cons p env ih =>
    obtain ⟨g, y⟩ := p
    rw [Env.set]
    by_cases hg : g = f
    · rw [if_pos hg]; simp [Env.look, hg]
    · rw [if_neg hg]
      have h' : (Env.look f env).isSome := by simpa [Env.look, List.find?_cons, hg] using h
      have := ih h'
      simpa [Env.look, List.find?_cons, hg] using this

theorem look_set_ne {f g : AttrAccess} (hne : g ≠ f) (env : Env V) (x : FVal V) : (Env.set f x env).look g = env.look g := by
  induction env with
  | nil => rfl
  | cons p env ih =>
    obtain ⟨k, y⟩ := p
    rw [Env.set]
    by_cases hg : k = f
    · rw [if_pos hg]
      have : k ≠ g := by rintro rfl; exact hne hg
      simp [Env.look, this]
    · rw [if_neg hg]
      by_cases hk : k = g
      · simp [Env.look, hk]
      · simpa [Env.look, List.find?_cons, hk] using ih

/-! ### Properties -/

/-- The state of the variable of a property field agrees with the field of the record. -/
def HoldsP (env : Env V) (p : Prop' E S V) (st : PropState V) : Prop :=
  if p.flatten then env.look p.field = some st.fld
  else env.look p.field = some (if st.seen then st.fld else p.unset) ∧ (st.seen = false → st.fld = .none)

theorem HoldsP.congr {env env' : Env V} {p : Prop' E S V} {st} (h : HoldsP env p st) (he : env'.look p.field = env.look p.field) :
    HoldsP env' p st := by
  unfold HoldsP at *
  rw [he]; exact h

theorem HoldsP.isSome {env : Env V} {p : Prop' E S V} {st} (h : HoldsP env p st) : (env.look p.field).isSome := by
  unfold HoldsP at h
  split at h
  · rw [h]; rfl
  · rw [h.1]; rfl

theorem each2_congr {env env' : Env V} {ps : List (Prop' E S V)} {sts} (h : Each2 (HoldsP env) ps sts)
    (he : ∀ p ∈ ps, env'.look p.field = env.look p.field) : Each2 (HoldsP env') ps sts := by
  induction h with
  | nil => exact .nil
  | cons h1 _ ih => exact .cons (h1.congr (he _ (by simp))) (ih fun p hp => he p (by simp [hp]))

theorem Each2.zip_snd {R : α → β → Prop} {as : List α} {bs : List β} (h : Each2 R as bs) : (as.zip bs).map (·.2) = bs := by
  rw [← List.unzip_snd, List.unzip_zip h.length]

/-- The result of the arms of the flattened struct against those in line. -/
def ArmsP (env : Env V) (ps : List (Prop' E S V)) (r : Bool × FVal V) (r' : Bool × List (PropState V)) : Prop :=
  r.1 = r'.1 ∧ ∃ env' : Env V, r.2 = .record env' ∧ Each2 (HoldsP env') ps r'.2 ∧ ∀ g, g ∉ ps.map (·.field) → env'.look g = env.look g

theorem insertPropertyArms_same (name : Spanned Str S) (val : Value S) {ps : List (Prop' E S V)}
    (ho : ∀ p ∈ ps, p.option = true ∨ p.flatten = true) (hd : (ps.map (·.field)).Nodup) {env : Env V} {sts}
    (h : Each2 (HoldsP env) ps sts) (c : Ctx E S) :
    (insertPropertyArms name val ps (.record env) c).Same (ArmsP env ps) (propArms name val (ps.zip sts) c) := by
  induction ps generalizing env sts c with
  | nil => cases h; exact ⟨⟨rfl, env, rfl, .nil, fun _ _ => rfl⟩, rfl⟩
  | cons p ps ih =>
    cases h with
    | @cons _ st _ sts h1 h2 =>
      rw [List.zip_cons_cons, insertPropertyArms, propArms, h2.zip_snd]
      rw [List.map_cons, List.nodup_cons] at hd
      have ho' : ∀ q ∈ ps, q.option = true ∨ q.flatten = true := fun q hq => ho q (by simp [hq])
      have hne : ∀ q ∈ ps, q.field ≠ p.field := fun q hq e => hd.1 (by rw [← e]; exact List.mem_map_of_mem hq)
      -- the record after the field `p` has been assigned
      have upd : ∀ x (st' : PropState V), HoldsP (Env.set p.field x env) p st' →
          Each2 (HoldsP (Env.set p.field x env)) (p :: ps) (st' :: sts) := fun x st' hh =>
        .cons hh (each2_congr h2 fun q hq => look_set_ne (hne q hq) _ _)
      have frame : ∀ x g, g ∉ (p :: ps).map (·.field) → (Env.set p.field x env).look g = env.look g := by
        intro x g hg
        rw [List.map_cons, List.mem_cons, not_or] at hg
        exact look_set_ne hg.1 _ _
      -- going on with the rest
      have rest : ∀ (env1 : Env V) (st' : PropState V) (c : Ctx E S), HoldsP env1 p st' → Each2 (HoldsP env1) ps sts →
          (∀ g, g ∉ (p :: ps).map (·.field) → env1.look g = env.look g) →
          (insertPropertyArms name val ps (.record env1) c).Same (ArmsP env (p :: ps))
            ((propArms name val (ps.zip sts) >>= fun t => pure (t.1, st' :: t.2) : D E S _) c) := by
        intro env1 st' c hp1 h2' hfr
        have := ih ho' hd.2 h2' c
        have key : ((insertPropertyArms name val ps (.record env1) >>= pure) c).Same (ArmsP env (p :: ps))
            ((propArms name val (ps.zip sts) >>= fun t => pure (t.1, st' :: t.2) : D E S _) c) := by
          refine same_bind this fun a b c1 _ hab => same_pure ?_ c1
          obtain ⟨e1, env2, e2, h3, h4⟩ := hab
          refine ⟨e1, env2, e2, .cons (hp1.congr (h4 _ hd.1)) h3, fun g hg => ?_⟩
          rw [h4 g (fun hm => hg (by rw [List.map_cons]; exact List.mem_cons_of_mem _ hm)), hfr g hg]
        rwa [bind_pure] at key
      by_cases hf : p.flatten
      · rw [if_pos hf, if_pos hf]
        have hl : env.look p.field = some st.fld := by unfold HoldsP at h1; rwa [if_pos hf] at h1
        rw [field_record, hl, Option.getD_some]
        refine same_self_bind fun r c1 _ => ?_
        have hp' : HoldsP (Env.set p.field r.2 env) p { st with fld := r.2 } := by
          unfold HoldsP
          rw [if_pos hf, look_set_same (by rw [hl]; rfl)]
        cases hb : r.1 with
        | true =>
          rw [if_pos rfl, if_pos rfl]
          exact same_pure ⟨rfl, _, rfl, upd _ _ hp', frame _⟩ c1
        | false =>
          rw [if_neg (by simp), if_neg (by simp)]
          exact rest _ _ c1 hp' (each2_congr h2 fun q hq => look_set_ne (hne q hq) _ _) (frame _)
      · rw [if_neg hf, if_neg hf]
        have hopt : p.option = true := by
          rcases ho p (by simp) with h | h
          · exact h
          · exact absurd h hf
        by_cases hn : name.value = p.name
        · rw [if_pos hn, if_pos hn]
          refine same_self_bind fun x c1 _ => ?_
          rw [if_pos hopt, if_pos hopt]
          refine same_pure ⟨rfl, _, rfl, upd _ _ ?_, frame _⟩ c1
          unfold HoldsP
          rw [if_neg hf, look_set_same h1.isSome]
          exact ⟨rfl, by simp⟩
        · rw [if_neg hn, if_neg hn]
          exact rest env st c h1 h2 (fun _ _ => rfl)

theorem propArms_append (name : Spanned Str S) (val : Value S) (l1 l2 : List (Prop' E S V × PropState V)) :
    propArms name val (l1 ++ l2) = (propArms name val l1 >>= fun r =>
      if r.1 then pure (true, r.2 ++ l2.map (·.2)) else propArms name val l2 >>= fun t => pure (t.1, r.2 ++ t.2)) := by
  induction l1 with
  | nil => simp [propArms]
  | cons x l1 ih =>
    obtain ⟨p, st⟩ := x
    rw [List.cons_append, propArms, propArms]
    have fin : ∀ st' : PropState V, (propArms name val (l1 ++ l2) >>= fun t => pure (t.1, st' :: t.2) : D E S _) =
        (do let t ← propArms name val l1; pure (t.1, st' :: t.2)) >>= fun r =>
          if r.1 then pure (true, r.2 ++ l2.map (·.2)) else propArms name val l2 >>= fun t => pure (t.1, r.2 ++ t.2) := by
      intro st'
      rw [ih]
      simp only [bind_assoc, pure_bind]
      congr 1
      funext r
      cases r.1 <;> simp
    by_cases hf : p.flatten
    · simp only [hf, if_true, bind_assoc]
      congr 1
      funext r
      cases hr : r.1 with
      | true => simp
      | false => simp only [Bool.false_eq_true, if_false]; exact fin _
    · simp only [hf, Bool.false_eq_true, if_false]
      by_cases hn : name.value = p.name
      · simp only [hn, if_true, bind_assoc]
        congr 1
        funext x
        cases p.option <;> simp
      · simp only [hn, if_false]
        exact fin _

/-- The states of the variables of the struct with the flattened field and of the one with the fields in line. -/
def StatesP (pre : List (Prop' E S V)) (t : Struct E S V) (post : List (Prop' E S V)) (env0 : Env V)
    (sts sts' : List (PropState V)) : Prop :=
  ∃ (a b : List (PropState V)) (b0 : Bool) (env : Env V) (mid : List (PropState V)), sts = a ++ ⟨.record env, b0⟩ :: b ∧ sts' = a ++ mid ++ b ∧ a.length = pre.length ∧ b.length = post.length ∧
    Each2 (HoldsP env) t.properties mid ∧ ∀ g, g ∉ t.properties.map (·.field) → env.look g = env0.look g

theorem propArms_inline (name : Spanned Str S) (val : Value S) {pre post : List (Prop' E S V)} {fp : Prop' E S V} {t : Struct E S V}
    {env0 : Env V} (hf : fp.flatten = true) (hp : fp.impls.part = t.part)
    (ho : ∀ p ∈ t.properties, p.option = true ∨ p.flatten = true) (hd : (t.properties.map (·.field)).Nodup)
    {sts sts'} (h : StatesP pre t post env0 sts sts') (c : Ctx E S) :
    (propArms name val ((pre ++ fp :: post).zip sts) c).Same (fun r r' => r.1 = r'.1 ∧ StatesP pre t post env0 r.2 r'.2)
      (propArms name val ((pre ++ t.properties ++ post).zip sts') c) := by
  obtain ⟨a, b, b0, env, mid, rfl, rfl, ha, hb, hm, hfr⟩ := h
  rw [List.append_assoc pre, List.append_assoc a, List.zip_append ha.symm, List.zip_append ha.symm, List.zip_cons_cons,
    List.zip_append hm.length, propArms_append, propArms_append]
  refine same_self_bind fun r c1 h1 => ?_
  have hlen : r.2.length = pre.length := by
    rw [propArms_length h1, List.length_zip, ha, Nat.min_self]
  have hmap : (post.zip b).map (·.2) = b := by rw [← List.unzip_snd, List.unzip_zip hb.symm]
  cases hr : r.1 with
  | true =>
    rw [if_pos rfl, if_pos rfl]
    refine same_pure ⟨rfl, r.2, b, b0, env, mid, ?_, ?_, hlen, hb, hm, hfr⟩ c1
    · simp [hmap]
    · simp [hmap, hm.zip_snd]
  | false =>
    rw [if_neg (by simp), if_neg (by simp)]
    rw [propArms, if_pos hf, propArms_append]
    simp only [bind_assoc]
    have hi : fp.impls.part.insertProperty (.record env) name val = insertPropertyArms name val t.properties (.record env) := by
      rw [hp]; rfl
    rw [hi]
    refine same_bind (insertPropertyArms_same name val ho hd hm c1) fun x y c2 _ hxy => ?_
    obtain ⟨e1, env2, e2, h3, h4⟩ := hxy
    rw [e1, e2]
    cases hy : y.1 with
    | true =>
      rw [if_pos rfl, if_pos rfl, pure_bind, pure_bind]
      refine same_pure ⟨rfl, r.2, b, b0, env2, y.2, ?_, ?_, hlen, hb, h3, ?_⟩ c2
      · simp [hmap]
      · simp [hmap]
      · intro g hg; rw [h4 g hg, hfr g hg]
    | false =>
      rw [if_neg (by simp), if_neg (by simp), bind_assoc, bind_assoc]
      refine same_self_bind fun z c3 h5 => ?_
      rw [pure_bind, pure_bind]
      refine same_pure ⟨rfl, r.2, z.2, b0, env2, y.2, ?_, ?_, hlen, ?_, h3, ?_⟩ c3
      · simp
      · simp
      · rw [propArms_length h5, List.length_zip, hb, Nat.min_self]
      · intro g hg; rw [h4 g hg, hfr g hg]

theorem propLoop_inline {s t s' : Struct E S V} {pre post : List (Prop' E S V)} {fp : Prop' E S V}
    {env0 : Env V} (hs : s.properties = pre ++ fp :: post) (hs' : s' = { s with properties := pre ++ t.properties ++ post })
    (hf : fp.flatten = true) (hp : fp.impls.part = t.part)
    (ho : ∀ p ∈ t.properties, p.option = true ∨ p.flatten = true) (hd : (t.properties.map (·.field)).Nodup)
    (l : List (Spanned Str S × Value S)) {sts sts'} (h : StatesP pre t post env0 sts sts') (var) (c : Ctx E S) :
    (propLoop s l sts var c).Same (fun r r' => r.2 = r'.2 ∧ StatesP pre t post env0 r.1 r'.1) (propLoop s' l sts' var c) := by
  induction l generalizing sts sts' var c with
  | nil => exact same_pure ⟨rfl, h⟩ c
  | cons q l ih =>
    obtain ⟨name, val⟩ := q
    have hv : s'.varProps = s.varProps := by rw [hs']
    have hpr : s'.properties = pre ++ t.properties ++ post := by rw [hs']
    rw [propLoop, propLoop, hs, hpr, hv]
    refine same_bind (propArms_inline name val hf hp ho hd h c) fun r r' c1 _ hr => ?_
    obtain ⟨e1, h1⟩ := hr
    rw [e1]
    cases hb : r'.1 with
    | true => rw [if_pos rfl, if_pos rfl]; exact ih h1 var c1
    | false =>
      rw [if_neg (by simp), if_neg (by simp)]
      cases s.varProps with
      | none => exact ⟨rfl, rfl⟩
      | some vp =>
        dsimp only
        refine same_self_bind fun k c2 _ => same_self_bind fun v c3 _ => ih h1 _ c3

theorem finishProps_append (node : SpannedNode S) (l1 l2 : List (Prop' E S V × PropState V)) :
    finishProps node (l1 ++ l2) = (finishProps node l1 >>= fun a => finishProps node l2 >>= fun b => pure (a ++ b)) := by
  induction l1 with
  | nil => simp [finishProps]
  | cons x l1 ih =>
    obtain ⟨p, st⟩ := x
    rw [List.cons_append, finishProps, finishProps, ih]
    simp [bind_assoc]

theorem finish_holds {env : Env V} {p : Prop' E S V} {st} (h : HoldsP env p st) (ho : p.option = true ∨ p.flatten = true)
    (node : SpannedNode S) : p.finish node st = pure ((env.look p.field).getD .none) := by
  unfold HoldsP at h
  unfold Prop'.finish
  by_cases hf : p.flatten
  · rw [if_pos hf] at h
    rw [if_pos hf, h]; rfl
  · rw [if_neg hf] at h
    have hopt : p.option = true := by
      rcases ho with h | h
      · exact h
      · exact absurd h hf
    rw [if_neg hf, h.1, hopt]
    unfold Prop'.unset
    rw [if_neg hf, hopt]
    cases hd : p.default with
    | none =>
      dsimp only
      cases hs : st.seen with
      | true => rfl
      | false => rw [h.2 hs]; rfl
    | some d =>
      dsimp only
      cases hs : st.seen with
      | true => rfl
      | false => rfl

theorem finishProps_holds {env : Env V} {ps : List (Prop' E S V)} {sts} (h : Each2 (HoldsP env) ps sts)
    (ho : ∀ p ∈ ps, p.option = true ∨ p.flatten = true) (node : SpannedNode S) :
    finishProps node (ps.zip sts) = pure (ps.map fun p => (p.field, (env.look p.field).getD .none)) := by
  induction h with
  | nil => rfl
  | cons h1 _ ih =>
    rw [List.zip_cons_cons, finishProps, finish_holds h1 (ho _ (by simp)), ih fun p hp => ho p (by simp [hp])]
    rfl

theorem each2_init {env0 : Env V} {ps : List (Prop' E S V)} (h : ∀ p ∈ ps, env0.look p.field = some p.unset) :
    Each2 (HoldsP env0) ps (ps.map (·.init)) := by
  induction ps with
  | nil => exact .nil
  | cons p ps ih =>
    refine .cons ?_ (ih fun q hq => h q (by simp [hq]))
    have := h p (by simp)
    show HoldsP env0 p p.init
    unfold HoldsP Prop'.init
    by_cases hf : p.flatten
    · rw [if_pos hf, if_pos hf, this]; unfold Prop'.unset; rw [if_pos hf]
    · rw [if_neg hf, if_neg hf, this]; exact ⟨rfl, fun _ => rfl⟩

theorem each2_isSome {env : Env V} {ps : List (Prop' E S V)} {sts} (h : Each2 (HoldsP env) ps sts) :
    ∀ g ∈ ps.map (·.field), (env.look g).isSome := by
  induction h with
  | nil => simp
  | cons h1 _ ih =>
    intro g hg
    rw [List.map_cons, List.mem_cons] at hg
    rcases hg with rfl | hg
    · exact h1.isSome
    · exact ih g hg

theorem decodeProps_inline {s t s' : Struct E S V} {fp : Prop' E S V} {env0 : Env V} (hi : InlineProps s fp t env0 s')
    (hp : fp.impls.part = t.part) (ho : ∀ p ∈ t.properties, p.option = true ∨ p.flatten = true) (node : SpannedNode S) (c : Ctx E S) :
    (decodeProps s node c).Same (Inlined fp.field (t.properties.map (·.field)) env0) (decodeProps s' node c) := by
  obtain ⟨pre, post, hs, hs'⟩ := hi.split
  have hpr : s'.properties = pre ++ t.properties ++ post := by rw [hs']
  have hv : s'.varProps = s.varProps := by rw [hs']
  rw [decodeProps, decodeProps]
  have h0 : StatesP pre t post env0 (s.properties.map (·.init)) (s'.properties.map (·.init)) := by
    refine ⟨pre.map (·.init), post.map (·.init), false, env0, t.properties.map (·.init), ?_, ?_, by simp, by simp,
      each2_init hi.unset, fun _ _ => rfl⟩
    · rw [hs, List.map_append, List.map_cons]
      simp [Prop'.init, hi.flatten, hi.default]
    · rw [hpr]; simp
  refine same_bind (propLoop_inline hs hs' hi.flatten hp ho hi.nodup _ h0 [] c) fun r r' c1 _ hr => ?_
  obtain ⟨e, a, b, b0, env, mid, e1, e2, ha, hb, hm, hfr⟩ := hr
  rw [hs, hpr, e1, e2, hv]
  rw [List.append_assoc pre, List.append_assoc a, List.zip_append ha.symm, List.zip_append ha.symm, List.zip_cons_cons,
    List.zip_append hm.length, finishProps_append, finishProps_append, finishProps_append, finishProps, finishProps_holds hm ho]
  simp only [bind_assoc, pure_bind]
  refine same_self_bind fun A c2 _ => ?_
  have hfin : fp.finish node ⟨.record env, b0⟩ = pure (.record env) := by
    unfold Prop'.finish; rw [if_pos hi.flatten]
  rw [hfin, pure_bind]
  refine same_self_bind fun B c3 _ => ?_
  have key : ∀ T : Env V, Inlined fp.field (t.properties.map (·.field)) env0 (A ++ (fp.field, .record env) :: (B ++ T))
      (A ++ t.properties.map (fun p => (p.field, (env.look p.field).getD .none)) ++ (B ++ T)) := fun T =>
    ⟨A, B ++ T, env, rfl, by rw [List.map_map]; rfl, each2_isSome hm, hfr⟩
  cases s.varProps with
  | none =>
    refine same_pure ?_ c3
    simpa using key []
  | some vp =>
    dsimp only
    refine same_pure ?_ c3
    rw [← e]
    simpa using key [(vp.field, .pairs r.2)]

end Knuffel
