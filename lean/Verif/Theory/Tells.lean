import Verif.Spec.Complaints
import Verif.Theory.DeriveChildren
/-!
# Errors of which something holds

A logic for decoding computations: `Tells P Q x` says that all errors that `x` reports satisfy
`P`, and its result satisfies `Q`.
-/

set_option linter.unusedSectionVars false

namespace Knuffel
variable {E S V α β : Type}

/-- All errors that `x` reports satisfy `P`, and its result satisfies `Q`. -/
def Tells (P : DErr S → Prop) (Q : α → Prop) (x : D E S α) : Prop :=
  ∀ c, match x c with
    | .ok a c' => (∃ es, c'.errors = c.errors ++ es ∧ ∀ e ∈ es, P e) ∧ Q a
    | .err e c' => (∃ es, c'.errors = c.errors ++ es ∧ ∀ e ∈ es, P e) ∧ P e
    | .panic => True

namespace Tells
variable {P P' : DErr S → Prop} {Q Q' : α → Prop} {R : β → Prop}

theorem pure {a : α} (h : Q a) : Tells P Q (Pure.pure a : D E S α) := fun c => ⟨⟨[], by simp, by simp⟩, h⟩
theorem emit {e : DErr S} (h : P e) : Tells P (fun _ => True) (D.emit e : D E S Unit) :=
  fun c => ⟨⟨[e], rfl, by simpa using h⟩, trivial⟩
theorem fail {e : DErr S} (h : P e) : Tells P Q (D.fail e : D E S α) := fun c => ⟨⟨[], by simp, by simp⟩, h⟩
theorem panic : Tells P Q (D.panic : D E S α) := fun _ => trivial

theorem bind {x : D E S α} {f : α → D E S β} (hx : Tells P Q x) (hf : ∀ a, Q a → Tells P R (f a)) :
    Tells P R (x >>= f) := by
  intro c
  have h1 := hx c
  rw [D.bind_eq]
  cases h : x c with
  | ok a c1 =>
    rw [h] at h1
    obtain ⟨⟨es, he, hP⟩, hq⟩ := h1
    have h2 := hf a hq c1
    dsimp only
    cases h' : f a c1 with
    | ok b c2 =>
      rw [h'] at h2
      obtain ⟨⟨fs, hf, hP'⟩, hr⟩ := h2
      exact ⟨⟨es ++ fs, by rw [hf, he, List.append_assoc], by simpa [or_imp, forall_and] using ⟨hP, hP'⟩⟩, hr⟩
    | err e c2 =>
      rw [h'] at h2
      obtain ⟨⟨fs, hf, hP'⟩, hr⟩ := h2
      exact ⟨⟨es ++ fs, by rw [hf, he, List.append_assoc], by simpa [or_imp, forall_and] using ⟨hP, hP'⟩⟩, hr⟩
    | panic => trivial
  | err e c1 => rw [h] at h1; exact h1
  | panic => trivial

theorem mono {x : D E S α} (h : Tells P Q x) (hP : ∀ e, P e → P' e) (hQ : ∀ a, Q a → Q' a) : Tells P' Q' x := by
  intro c
  have h1 := h c
  cases hx : x c with
  | ok a c1 =>
    rw [hx] at h1
    obtain ⟨⟨es, he, hp⟩, hq⟩ := h1
    exact ⟨⟨es, he, fun e h => hP e (hp e h)⟩, hQ a hq⟩
  | err e c1 =>
    rw [hx] at h1
    obtain ⟨⟨es, he, hp⟩, hq⟩ := h1
    exact ⟨⟨es, he, fun e h => hP e (hp e h)⟩, hP e hq⟩
  | panic => trivial

theorem ite {b : Prop} [Decidable b] {x y : D E S α} (hx : b → Tells P Q x) (hy : ¬ b → Tells P Q y) :
    Tells P Q (if b then x else y) := by
  split
  · exact hx ‹_›
  · exact hy ‹_›

/-- The rule for a computation that is known to keep errors: all it reports is reported by it. -/
theorem of_keeps {x : D E S α} (h : Keeps x) : Tells (ReportedBy x) (fun _ => True) x := by
  intro c
  have h1 := h c
  cases hx : x c with
  | ok a c1 =>
    rw [hx] at h1
    obtain ⟨es, he⟩ := h1
    refine ⟨⟨es, he.symm, fun e hm => ⟨c, es, ⟨by rw [hx]; simp, by rw [hx]; exact he.symm⟩, hm⟩⟩, trivial⟩
  | err e0 c1 =>
    rw [hx] at h1
    obtain ⟨es, he⟩ := h1
    have : ∀ e ∈ es ++ [e0], ReportedBy x e := fun e hm =>
      ⟨c, es ++ [e0], ⟨by rw [hx]; simp, by rw [hx]; simp [Out.errors, ← he]⟩, hm⟩
    exact ⟨⟨es, he.symm, fun e hm => this e (by simp [hm])⟩, this e0 (by simp)⟩
  | panic => trivial

theorem forEach {f : β → D E S Unit} {l : List β} (h : ∀ b ∈ l, Tells P (fun _ => True) (f b)) :
    Tells P (fun _ => True) (D.forEach f l) := by
  induction l with
  | nil => exact .pure trivial
  | cons x xs ih =>
    exact (h x (by simp)).bind fun _ _ => ih fun b hb => h b (by simp [hb])

theorem collect {f : β → D E S α} {l : List β} (h : ∀ b ∈ l, Tells P (fun _ => True) (f b)) :
    Tells P (fun _ => True) (D.collect f l) := by
  induction l with
  | nil => exact .pure trivial
  | cons x xs ih =>
    exact (h x (by simp)).bind fun _ _ => (ih fun b hb => h b (by simp [hb])).bind fun _ _ => .pure trivial

theorem only {x : D E S α} (h : Tells P Q x) : OnlyReports P x := by
  intro c hc
  have h1 := h c
  cases hx : x c with
  | ok a c1 =>
    rw [hx] at h1
    obtain ⟨⟨es, he, hp⟩, -⟩ := h1
    exact ⟨es, ⟨hc, by rw [hx]; exact he⟩, hp⟩
  | err e c1 =>
    rw [hx] at h1
    obtain ⟨⟨es, he, hp⟩, hq⟩ := h1
    exact ⟨es ++ [e], ⟨hc, by rw [hx]; simp [Out.errors, he]⟩, by simpa [or_imp, forall_and] using ⟨hp, hq⟩⟩
  | panic => exact absurd hx hc

theorem of_only {x : D E S α} (hk : Keeps x) (h : OnlyReports P x) : Tells P (fun _ => True) x := by
  refine (of_keeps hk).mono ?_ fun _ _ => trivial
  rintro e ⟨c, es, hr, hm⟩
  obtain ⟨fs, hr', hf⟩ := h c hr.1
  have : es = fs := List.append_cancel_left (hr.2.symm.trans hr'.2)
  exact hf e (this ▸ hm)

end Tells

theorem OnlyReports.reported {P : DErr S → Prop} {x : D E S α} (h : OnlyReports P x) {e : DErr S} (he : ReportedBy x e) : P e := by
  obtain ⟨c, es, hr, hm⟩ := he
  obtain ⟨fs, hr', hf⟩ := h c hr.1
  have : es = fs := List.append_cancel_left (hr.2.symm.trans hr'.2)
  exact hf e (this ▸ hm)

theorem OnlyReports.mono {P Q : DErr S → Prop} {x : D E S α} (h : OnlyReports P x) (hp : ∀ e, P e → Q e) : OnlyReports Q x :=
  fun c hc => by
    obtain ⟨es, hr, hf⟩ := h c hc
    exact ⟨es, hr, fun e he => hp e (hf e he)⟩

/-! ### The parts of the derived code -/

section
variable [Externals]

theorem tells_flag (node : SpannedNode S) : Tells (FlagComplaint node) (fun _ => True) (checkFlagNode node : D E S Unit) := by
  unfold checkFlagNode
  refine (Tells.forEach fun v hv => .emit (.argument hv)).bind fun _ _ =>
    (Tells.forEach fun p hp => .emit (.property hp)).bind fun _ _ => ?_
  cases h : node.value.children with
  | none => exact .pure trivial
  | some block => exact Tells.forEach fun n hn => .emit (.child h hn)

theorem tells_liftConv {P : DErr S → Prop} {x : Spanned α S} {r : Except Str (FVal V)}
    (h : ∀ m, r = .error m → P (.conversion x.span (.text m))) : Tells (E := E) P (fun _ => True) (liftConv x r) := by
  unfold liftConv
  cases r with
  | ok v => exact .pure trivial
  | error m => exact .fail (h m rfl)

variable {s : Struct E S V}

theorem tells_specials (hk : s.Keeps) (node : SpannedNode S) :
    Tells (HeadComplaint s node) (fun _ => True) (decodeSpecials s node) := by
  have h1 : ∀ l, (∀ f ∈ l, f ∈ s.spans) → Tells (HeadComplaint s node) (fun _ => True) (decodeSpans node l) := by
    intro l
    induction l with
    | nil => exact fun _ => .pure trivial
    | cons f fs ih =>
      intro hl
      have hf := hl f (by simp)
      exact ((Tells.of_keeps ((hk.spans f hf).span _)).mono (fun e he => .span hf he) fun _ _ => trivial).bind fun _ _ =>
        (ih fun g hg => hl g (by simp [hg])).bind fun _ _ => .pure trivial
  have h2 : ∀ l, (∀ f ∈ l, f ∈ s.nodeNames) → Tells (HeadComplaint s node) (fun _ => True) (decodeNodeNames node l) := by
    intro l
    induction l with
    | nil => exact fun _ => .pure trivial
    | cons f fs ih =>
      intro hl
      have hf := hl f (by simp)
      exact (tells_liftConv fun m hm => .nodeName hf hm).bind fun _ _ =>
        (ih fun g hg => hl g (by simp [hg])).bind fun _ _ => .pure trivial
  have h3 : ∀ l, (∀ f ∈ l, f ∈ s.typeNames) → Tells (HeadComplaint s node) (fun _ => True) (decodeTypeNames node l) := by
    intro l
    induction l with
    | nil => exact fun _ => .pure trivial
    | cons f fs ih =>
      intro hl
      have hf := hl f (by simp)
      have hone : Tells (HeadComplaint s node) (fun _ => True) (decodeTypeName node f) := by
        unfold decodeTypeName
        cases ht : node.value.typeName with
        | some tn => exact (tells_liftConv fun m hm => .typeName hf ht hm).bind fun _ _ => .pure trivial
        | none =>
          refine Tells.ite (fun _ => .pure trivial) fun ho => .fail ?_
          exact .noTypeName hf (by simpa using ho) ht
      exact hone.bind fun _ _ => (ih fun g hg => hl g (by simp [hg])).bind fun _ _ => .pure trivial
  unfold decodeSpecials
  refine (h1 _ fun _ h => h).bind fun _ _ => (h2 _ fun _ h => h).bind fun _ _ => (h3 _ fun _ h => h).bind fun _ _ => ?_
  by_cases he : s.typeNames.isEmpty
  · simp only [he, if_true]
    have he' : s.typeNames = [] := by simpa using he
    cases ht : node.value.typeName with
    | some tn => exact (Tells.emit (.strayTypeName he' ht)).bind fun _ _ => .pure trivial
    | none => exact (Tells.pure (Q := fun _ => True) trivial).bind fun _ _ => .pure trivial
  · simp only [he, Bool.false_eq_true, if_false]
    exact (Tells.pure (Q := fun _ => True) trivial).bind fun _ _ => .pure trivial

theorem tells_args (hk : s.Keeps) (node : SpannedNode S) :
    Tells (ArgComplaint s node) (fun _ => True) (decodeArgs s node) := by
  have key : ∀ (l : List (Arg E S V)) (k : Nat), s.arguments.drop k = l → k + l.length = s.arguments.length →
      Tells (ArgComplaint s node) (fun r => r.2 = node.value.arguments.drop (k + l.length))
        (decodeArgList node l (node.value.arguments.drop k)) := by
    intro l
    induction l with
    | nil => intro k _ _; exact .pure (by simp)
    | cons a as ih =>
      intro k hd hlen
      have ha : s.arguments[k]? = some a := by
        have := congrArg (·[0]?) hd
        simpa using this
      have hd' : s.arguments.drop (k + 1) = as := by
        rw [← List.drop_drop, hd]; rfl
      have hone : Tells (ArgComplaint s node) (fun r => r.2 = node.value.arguments.drop (k + 1))
          (decodeArg node a (node.value.arguments.drop k)) := by
        cases hargs : node.value.arguments.drop k with
        | cons v rest =>
          have hv : node.value.arguments[k]? = some v := by
            have := congrArg (·[0]?) hargs
            simpa using this
          have hrest : node.value.arguments.drop (k + 1) = rest := by
            rw [← List.drop_drop, hargs]; rfl
          simp only [decodeArg]
          refine ((Tells.of_keeps (Keeps.decodeValue (hk.arguments a (List.mem_of_getElem? ha)) _ _ _)).mono
            (fun e he => .value ha hv he) fun _ _ => trivial).bind fun _ _ => .pure hrest.symm
        | nil =>
          have hl : node.value.arguments.length ≤ k := List.drop_eq_nil_iff.1 hargs
          have hrest : node.value.arguments.drop (k + 1) = [] := List.drop_eq_nil_iff.2 (by omega)
          cases hdf : a.default with
          | some d => simp only [decodeArg, hdf]; exact .pure hrest.symm
          | none =>
            cases ho : a.option with
            | true => simp only [decodeArg, hdf, ho]; exact .pure hrest.symm
            | false =>
              simp only [decodeArg, hdf, ho]
              have habs : absent a.default a.option = none := by simp [absent, hdf, ho]
              refine .fail ?_
              cases hf : a.field with
              | named n => exact .missingNamed ha hl habs hf
              | indexed j => exact .missing ha hl habs hf
      rw [decodeArgList]
      refine hone.bind fun r hr => ?_
      rw [hr]
      refine (ih (k + 1) hd' (by simp at hlen; omega)).bind fun t ht => .pure ?_
      rw [ht]
      simp [Nat.add_comm, Nat.add_left_comm]
  unfold decodeArgs
  refine (key s.arguments 0 rfl (by simp)).bind fun r hr => ?_
  rw [Nat.zero_add] at hr
  cases hva : s.varArgs with
  | some va =>
    refine (Tells.collect fun v hv => ?_).bind fun _ _ => .pure trivial
    rw [hr] at hv
    obtain ⟨j, hj⟩ := List.mem_iff_getElem?.1 hv
    rw [List.getElem?_drop] at hj
    exact (Tells.of_keeps (Keeps.decodeValue (hk.varArgs va (by simp [hva])) _ _ _)).mono
      (fun e he => .rest hva (Nat.le_add_right _ _) hj he) fun _ _ => trivial
  | none =>
    dsimp only
    cases hr2 : r.2 with
    | nil => exact .pure trivial
    | cons v rest =>
      refine .fail (.surplus hva ?_)
      rw [hr2] at hr
      have := congrArg (·[0]?) hr
      simpa using this.symm

theorem propField_some {takes : Prop' E S V → Str → Bool} {n : Str} {i : Nat} (h : s.propField takes n = some i) :
    ∃ p, s.properties[i]? = some p := by
  unfold Struct.propField at h
  rw [List.findIdx?_eq_some_iff_getElem] at h
  exact ⟨_, List.getElem?_eq_getElem h.1⟩

theorem getElem?_set_cases {sts : List α} {i j : Nat} {x y : α} (h : (sts.set i y)[j]? = some x) :
    (i = j ∧ x = y) ∨ (i ≠ j ∧ sts[j]? = some x) := by
  rw [List.getElem?_set] at h
  by_cases hij : i = j
  · rw [if_pos hij] at h
    split at h
    · cases h; exact Or.inl ⟨hij, rfl⟩
    · cases h
  · rw [if_neg hij] at h
    exact Or.inr ⟨hij, h⟩

/-- While the properties `pre` were read: an obligatory field without value has not been given any. -/
def PropInv (s : Struct E S V) (takes : Prop' E S V → Str → Bool) (pre : List (Spanned Str S × Value S))
    (sts : List (PropState V)) : Prop :=
  sts.length = s.properties.length ∧ ∀ (i : Nat) (p : Prop' E S V) (st : PropState V), s.properties[i]? = some p →
    sts[i]? = some st → p.flatten = false → p.option = false → st.fld.isSome = false →
    ∀ q ∈ pre, s.propField takes q.1.value ≠ some i

/-- Adding to the list of things read when the state at `i` was replaced. -/
theorem PropInv.snoc {takes : Prop' E S V → Str → Bool} {pre : List (Spanned Str S × Value S)} {sts : List (PropState V)}
    (h : PropInv s takes pre sts) {q : Spanned Str S × Value S} {i : Nat} {p : Prop' E S V} {y : PropState V}
    (hi : s.propField takes q.1.value = some i) (hp : s.properties[i]? = some p)
    (hy : p.flatten = false → p.option = false → y.fld.isSome = true) : PropInv s takes (pre ++ [q]) (sts.set i y) := by
  refine ⟨by rw [List.length_set]; exact h.1, ?_⟩
  intro j p' st hp' hst hf ho hs q' hq'
  rcases getElem?_set_cases hst with ⟨rfl, rfl⟩ | ⟨hij, hst'⟩
  · rw [hp] at hp'
    cases hp'
    rw [hy hf ho] at hs
    cases hs
  · rw [List.mem_append] at hq'
    rcases hq' with hq' | hq'
    · exact h.2 j p' st hp' hst' hf ho hs q' hq'
    · rw [List.mem_singleton] at hq'
      subst hq'
      rw [hi]
      simpa using hij

theorem PropInv.skip {takes : Prop' E S V → Str → Bool} {pre : List (Spanned Str S × Value S)} {sts : List (PropState V)}
    (h : PropInv s takes pre sts) {q : Spanned Str S × Value S} (hi : s.propField takes q.1.value = none) :
    PropInv s takes (pre ++ [q]) sts := by
  refine ⟨h.1, ?_⟩
  intro j p' st hp' hst hf ho hs q' hq'
  rw [List.mem_append] at hq'
  rcases hq' with hq' | hq'
  · exact h.2 j p' st hp' hst hf ho hs q' hq'
  · rw [List.mem_singleton] at hq'
    subst hq'
    rw [hi]
    simp

theorem mem_propsFor {takes : Prop' E S V → Str → Bool} {node : SpannedNode S} {q : Spanned Str S × Value S} {i : Option Nat}
    (hq : q ∈ node.value.properties) (hi : s.propField takes q.1.value = i) : q ∈ s.propsFor takes node i := by
  unfold Struct.propsFor
  rw [List.mem_filter]
  exact ⟨hq, by simpa using hi⟩

theorem tells_propLoop (hk : s.Keeps) {takes : Prop' E S V → Str → Bool} (hn : s.PropNames takes) (node : SpannedNode S)
    (rest : List (Spanned Str S × Value S)) :
    ∀ pre sts var, pre ++ rest = node.value.properties → PropInv s takes pre sts →
    Tells (PropComplaint s takes node) (fun r => PropInv s takes node.value.properties r.1) (propLoop s rest sts var) := by
  induction rest with
  | nil =>
    intro pre sts var hpre hinv
    rw [List.append_nil] at hpre
    subst hpre
    exact .pure hinv
  | cons q rest ih =>
    intro pre sts var hpre hinv
    obtain ⟨name, val⟩ := q
    have hmem : (name, val) ∈ node.value.properties := by rw [← hpre]; simp
    have hpre' : (pre ++ [(name, val)]) ++ rest = node.value.properties := by rw [← hpre]; simp
    rw [propLoop]
    cases hi : s.propField takes name.value with
    | none =>
      rw [show propArms name val (s.properties.zip sts) = pure (false, sts) from
        funext fun c => propArms_none hn hinv.1 hi c, pure_bind]
      simp only [Bool.false_eq_true, if_false]
      have hq := mem_propsFor (s := s) hmem hi
      have hinv' := hinv.skip (q := (name, val)) hi
      cases hv : s.varProps with
      | some vp =>
        refine (tells_liftConv fun m hm => .key hv hq hm).bind fun k _ => ?_
        exact ((Tells.of_keeps (Keeps.decodeValue (hk.varProps vp (by simp [hv])) _ _ _)).mono
          (fun e he => .rest hv hq he) fun _ _ => trivial).bind fun v _ => ih _ _ _ hpre' hinv'
      | none => exact .fail (.unexpected hv hq)
    | some i =>
      obtain ⟨p, hp⟩ := propField_some hi
      have hil : i < s.properties.length := (List.getElem?_eq_some_iff.1 hp).1
      obtain ⟨st, hst⟩ : ∃ st, sts[i]? = some st := ⟨_, List.getElem?_eq_getElem (hinv.1 ▸ hil)⟩
      rw [show propArms name val (s.properties.zip sts) = (propArm p st name val >>= fun y => pure (true, sts.set i y)) from
        funext fun c => propArms_some hn hinv.1 hi hp hst c, bind_assoc]
      have hq := mem_propsFor (s := s) hmem hi
      have harm : Tells (PropComplaint s takes node) (fun y => p.flatten = false → p.option = false → y.fld.isSome = true)
          (propArm p st name val) := by
        unfold propArm
        refine Tells.ite (fun hf => ?_) fun hf => ?_
        · refine ((Tells.of_keeps ((hk.properties p (List.mem_of_getElem? hp)).insertProperty _ _ _)).mono
            (fun e he => .flattened hp hf hq he) fun _ _ => trivial).bind fun v _ => .pure ?_
          intro hf'; rw [hf'] at hf; cases hf
        · refine ((Tells.of_keeps (Keeps.decodeValue (hk.properties p (List.mem_of_getElem? hp)) _ _ _)).mono
            (fun e he => .value hp (by simpa using hf) hq he) fun _ _ => trivial).bind fun v _ => .pure ?_
          intro _ ho
          rw [ho]
          rfl
      refine harm.bind fun y hy => ?_
      rw [pure_bind]
      exact ih _ _ _ hpre' (hinv.snoc (q := (name, val)) hi hp hy)

theorem tells_props (hk : s.Keeps) {takes : Prop' E S V → Str → Bool} (hn : s.PropNames takes) (node : SpannedNode S) :
    Tells (PropComplaint s takes node) (fun _ => True) (decodeProps s node) := by
  unfold decodeProps
  refine (tells_propLoop hk hn node _ [] _ _ rfl ⟨by simp, by simp⟩).bind fun r hr => ?_
  have key : ∀ l : List (Prop' E S V × PropState V), (∀ x ∈ l, ∃ i : Nat, s.properties[i]? = some x.1 ∧ r.1[i]? = some x.2) →
      Tells (PropComplaint s takes node) (fun _ => True) (finishProps node l) := by
    intro l
    induction l with
    | nil => exact fun _ => .pure trivial
    | cons x l ih =>
      intro hl
      obtain ⟨p, st⟩ := x
      rw [finishProps]
      have hone : Tells (PropComplaint s takes node) (fun _ => True) (p.finish node st) := by
        obtain ⟨i, hp, hst⟩ := hl _ List.mem_cons_self
        dsimp only at hp hst
        unfold Prop'.finish
        refine Tells.ite (fun _ => .pure trivial) fun hf => ?_
        have hf' : p.flatten = false := by simpa using hf
        cases hd : p.default with
        | some d =>
          cases ho : p.option with
          | true => exact .pure trivial
          | false =>
            dsimp only
            cases st.fld <;> exact .pure trivial
        | none =>
          cases ho : p.option with
          | true => exact .pure trivial
          | false =>
            dsimp only
            have hm : st.fld.isSome = false → PropComplaint s takes node (DErr.missingIn node
                ("property `".toList ++ p.name ++ "` is required".toList)) := by
              intro hs
              refine .missing hp hf' ?_ (by simp [absent, hd, ho])
              rw [List.eq_nil_iff_forall_not_mem]
              intro q hq
              unfold Struct.propsFor at hq
              rw [List.mem_filter] at hq
              exact hr.2 i p st hp hst hf' ho hs q hq.1 (by simpa using hq.2)
            cases hs : st.fld with
            | some x => exact .pure trivial
            | _ => exact .fail (hm (by rw [hs]; rfl))
      exact hone.bind fun _ _ => (ih fun x hx => hl x (List.mem_cons_of_mem _ hx)).bind fun _ _ => .pure trivial
  refine (key _ ?_).bind fun env _ => ?_
  · rintro ⟨p, st⟩ hx
    obtain ⟨i, hi⟩ := List.mem_iff_getElem?.1 hx
    rw [List.getElem?_zip_eq_some] at hi
    exact ⟨i, hi⟩
  · cases s.varProps <;> exact .pure trivial

/-- Does the variable of the field say that a node was there? -/
def Child.given (ch : Child E S V) (fld : FVal V) : Bool :=
  match ch.mode, fld with
  | .normal, .some _ => true
  | .bool, .bool true => true
  | _, _ => false

/-- While the nodes `pre` were read: the variables of fields for one node say whether there was one. -/
def ChildInv (s : Struct E S V) (takes : Child E S V → Str → Bool) (pre : List (SpannedNode S)) (flds : List (FVal V)) : Prop :=
  flds.length = s.children.length ∧ ∀ (i : Nat) (ch : Child E S V) (fld : FVal V), s.children[i]? = some ch →
    flds[i]? = some fld → ch.mode = .normal ∨ ch.mode = .bool →
    (ch.given fld = true ↔ ∃ n ∈ pre, s.childField takes n.value.nodeName.value = some i)

theorem ChildInv.snoc {takes : Child E S V → Str → Bool} {pre : List (SpannedNode S)} {flds : List (FVal V)}
    (h : ChildInv s takes pre flds) {n : SpannedNode S} {i : Nat} {ch : Child E S V} {y : FVal V}
    (hi : s.childField takes n.value.nodeName.value = some i) (hp : s.children[i]? = some ch)
    (hy : ch.mode = .normal ∨ ch.mode = .bool → ch.given y = true) : ChildInv s takes (pre ++ [n]) (flds.set i y) := by
  refine ⟨by rw [List.length_set]; exact h.1, ?_⟩
  intro j ch' fld hp' hst hm
  rcases getElem?_set_cases hst with ⟨rfl, rfl⟩ | ⟨hij, hst'⟩
  · rw [hp] at hp'
    cases hp'
    rw [hy hm]
    exact ⟨fun _ => ⟨n, by simp, hi⟩, fun _ => rfl⟩
  · rw [h.2 j ch' fld hp' hst' hm]
    constructor
    · rintro ⟨m, hm, he⟩
      exact ⟨m, by simp [hm], he⟩
    · rintro ⟨m, hm, he⟩
      rw [List.mem_append, List.mem_singleton] at hm
      rcases hm with hm | rfl
      · exact ⟨m, hm, he⟩
      · rw [hi] at he
        exact absurd (Option.some.inj he) hij

theorem ChildInv.skip {takes : Child E S V → Str → Bool} {pre : List (SpannedNode S)} {flds : List (FVal V)}
    (h : ChildInv s takes pre flds) {n : SpannedNode S} (hi : s.childField takes n.value.nodeName.value = none) :
    ChildInv s takes (pre ++ [n]) flds := by
  refine ⟨h.1, ?_⟩
  intro j ch' fld hp' hst hm
  rw [h.2 j ch' fld hp' hst hm]
  constructor
  · rintro ⟨m, hm, he⟩
    exact ⟨m, by simp [hm], he⟩
  · rintro ⟨m, hm, he⟩
    rw [List.mem_append, List.mem_singleton] at hm
    rcases hm with hm | rfl
    · exact ⟨m, hm, he⟩
    · rw [hi] at he
      cases he

theorem mem_nodesFor {takes : Child E S V → Str → Bool} {nodes : List (SpannedNode S)} {n : SpannedNode S} {i : Option Nat}
    (hq : n ∈ nodes) (hi : s.childField takes n.value.nodeName.value = i) : n ∈ s.nodesFor takes nodes i := by
  unfold Struct.nodesFor
  rw [List.mem_filter]
  exact ⟨hq, by simpa using hi⟩

theorem tells_childLoop (hk : s.Keeps) {takes : Child E S V → Str → Bool} (hn : s.ChildNames takes) (place : Option S)
    (nodes rest : List (SpannedNode S)) :
    ∀ pre flds var, pre ++ rest = nodes → ChildInv s takes pre flds →
    Tells (ChildComplaint s takes place nodes) (fun r => ChildInv s takes nodes r.1) (childLoop s rest flds var) := by
  induction rest with
  | nil =>
    intro pre sts var hpre hinv
    rw [List.append_nil] at hpre
    subst hpre
    exact .pure hinv
  | cons n rest ih =>
    intro pre flds var hpre hinv
    have hmem : n ∈ nodes := by rw [← hpre]; simp
    have hpre' : (pre ++ [n]) ++ rest = nodes := by rw [← hpre]; simp
    rw [childLoop]
    cases hi : s.childField takes n.value.nodeName.value with
    | none =>
      rw [show childArms n (s.children.zip flds) = pure (false, flds) from
        funext fun c => childArms_none hn hinv.1 hi c, pure_bind]
      simp only [Bool.false_eq_true, if_false]
      have hq := mem_nodesFor (s := s) hmem hi
      have hinv' := hinv.skip (n := n) hi
      cases hv : s.varChildren with
      | some vc =>
        exact ((Tells.of_keeps (hk.varChildren vc (by simp [hv]) n)).mono
          (fun e he => .rest hv hq he) fun _ _ => trivial).bind fun v _ => ih _ _ _ hpre' hinv'
      | none => exact (Tells.emit (.unexpected hv hq)).bind fun _ _ => ih _ _ _ hpre' hinv'
    | some i =>
      obtain ⟨ch, hp, -⟩ := childField_get hi
      have hil : i < s.children.length := (List.getElem?_eq_some_iff.1 hp).1
      obtain ⟨fld, hst⟩ : ∃ st, flds[i]? = some st := ⟨_, List.getElem?_eq_getElem (hinv.1 ▸ hil)⟩
      rw [show childArms n (s.children.zip flds) = (childEffect ch fld n >>= fun y => pure (true, flds.set i y)) from
        funext fun c => childArms_some hn hinv.1 hi hp hst c, bind_assoc]
      have hq := mem_nodesFor (s := s) hmem hi
      have hkc := hk.children ch (List.mem_of_getElem? hp)
      have hdup : ch.mode = .normal ∨ ch.mode = .bool → ch.given fld = true →
          ChildComplaint s takes place nodes (duplicateNode ch n) := by
        intro hm hg
        have hsplit : s.nodesFor takes nodes (some i) =
            s.nodesFor takes pre (some i) ++ n :: s.nodesFor takes rest (some i) := by
          rw [← hpre]
          unfold Struct.nodesFor
          rw [List.filter_append, List.filter_cons_of_pos (by simpa using hi)]
        refine .duplicate hp hm hsplit ?_
        obtain ⟨m, hm, he⟩ := (hinv.2 i ch fld hp hst hm).1 hg
        exact List.ne_nil_of_mem (mem_nodesFor (s := s) hm he)
      have harm : Tells (ChildComplaint s takes place nodes) (fun y => ch.mode = .normal ∨ ch.mode = .bool → ch.given y = true)
          (childEffect ch fld n) := by
        unfold childEffect
        refine Tells.ite (fun hf => ?_) fun hf => ?_
        · refine ((Tells.of_keeps (hkc.1.insertChild _ _)).mono
            (fun e he => .flattened hp hf hq he) fun _ _ => trivial).bind fun v _ => .pure ?_
          rw [hf]
          rintro (h | h) <;> cases h
        · unfold childArm
          cases hm : ch.mode with
          | flatten => exact absurd hm hf
          | multi =>
            refine ((Tells.of_keeps (hkc.2 n)).mono (fun e he => .node hp (Or.inr hm) hq he) fun _ _ => trivial).bind
              fun v _ => .pure ?_
            rintro (h | h) <;> cases h
          | normal =>
            refine Tells.ite (fun hs => .fail (hdup (Or.inl hm) ?_)) fun hs => ?_
            · cases fld <;> first | (simp [Child.given, hm]; done) | cases hs
            · refine ((Tells.of_keeps (hkc.2 n)).mono (fun e he => .node hp (Or.inl hm) hq he) fun _ _ => trivial).bind
                fun v _ => .pure fun _ => ?_
              simp [Child.given, hm]
          | bool =>
            refine ((tells_flag n).mono (fun e he => .flag hp hm hq he) fun _ _ => trivial).bind fun _ _ => ?_
            have hg : ∀ b : FVal V, b = .bool true → ch.given b = true := by
              rintro b rfl
              simp [Child.given, hm]
            split
            · exact (Tells.emit (hdup (Or.inr hm) (hg _ rfl))).bind fun _ _ => .pure fun _ => hg _ rfl
            · exact .pure fun _ => hg _ rfl
      refine harm.bind fun y hy => ?_
      rw [pure_bind]
      exact ih _ _ _ hpre' (hinv.snoc hi hp hy)

theorem tells_children (hk : s.Keeps) {takes : Child E S V → Str → Bool} (hn : s.ChildNames takes) (place : Option S)
    (nodes : List (SpannedNode S)) :
    Tells (ChildComplaint s takes place nodes) (fun _ => True) (decodeChildren s place nodes) := by
  unfold decodeChildren
  refine (tells_childLoop hk hn place nodes nodes [] _ _ rfl ⟨by simp, ?_⟩).bind fun r hr => ?_
  · intro i ch fld hch hf hm
    rw [List.getElem?_map, hch] at hf
    cases hf
    unfold Child.init
    rcases hm with hm | hm <;> simp [Child.given, hm]
  have key : ∀ l : List (Child E S V × FVal V), (∀ x ∈ l, ∃ i : Nat, s.children[i]? = some x.1 ∧ r.1[i]? = some x.2) →
      Tells (ChildComplaint s takes place nodes) (fun _ => True) (finishChildren place l) := by
    intro l
    induction l with
    | nil => exact fun _ => .pure trivial
    | cons x l ih =>
      intro hl
      obtain ⟨ch, fld⟩ := x
      rw [finishChildren]
      have hone : Tells (ChildComplaint s takes place nodes) (fun _ => True) (ch.finish place fld) := by
        obtain ⟨i, hp, hst⟩ := hl _ List.mem_cons_self
        dsimp only at hp hst
        unfold Child.finish
        cases hm : ch.mode with
        | flatten => exact .pure trivial
        | bool => exact .pure trivial
        | multi =>
          dsimp only
          split <;> exact .pure trivial
        | normal =>
          dsimp only
          cases hd : ch.default with
          | some d =>
            dsimp only
            cases fld <;> exact .pure trivial
          | none =>
            cases ho : ch.option with
            | true => exact .pure trivial
            | false =>
              dsimp only
              have hmiss : ch.given fld = false → ChildComplaint s takes place nodes (missingChild place ch) := by
                intro hs
                have hnil : s.nodesFor takes nodes (some i) = [] := by
                  rw [List.eq_nil_iff_forall_not_mem]
                  intro n hq
                  unfold Struct.nodesFor at hq
                  rw [List.mem_filter] at hq
                  have := (hr.2 i ch fld hp hst (Or.inl hm)).2 ⟨n, hq.1, by simpa using hq.2⟩
                  rw [hs] at this
                  cases this
                have habs : absent ch.default ch.option = none := by simp [absent, hd, ho]
                unfold missingChild
                cases place with
                | some sp => exact .missingIn hp hm hnil habs rfl
                | none => exact .missing hp hm hnil habs rfl
              cases fld with
              | some x => exact .pure trivial
              | _ => exact .fail (hmiss (by simp [Child.given, hm]))
      exact hone.bind fun _ _ => (ih fun x hx => hl x (List.mem_cons_of_mem _ hx)).bind fun _ _ => .pure trivial
  refine (key _ ?_).bind fun env _ => ?_
  · rintro ⟨p, st⟩ hx
    obtain ⟨i, hi⟩ := List.mem_iff_getElem?.1 hx
    rw [List.getElem?_zip_eq_some] at hi
    exact ⟨i, hi⟩
  · cases s.varChildren <;> exact .pure trivial

theorem tells_content (hk : s.Keeps) {takesP takesC} (hp : s.PropNames takesP) (hc : s.ChildNames takesC) (node : SpannedNode S) :
    Tells (ContentComplaint s takesP takesC node) (fun _ => True) (decodeContent s node) := by
  unfold decodeContent
  exact ((tells_args hk node).mono (fun _ h => Or.inl h) fun _ h => h).bind fun _ _ =>
    ((tells_props hk hp node).mono (fun _ h => Or.inr (Or.inl h)) fun _ h => h).bind fun _ _ =>
    ((tells_children hk hc _ _).mono (fun _ h => Or.inr (Or.inr h)) fun _ h => h).bind fun _ _ => .pure trivial

end
end Knuffel
